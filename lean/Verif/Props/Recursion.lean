import Verif.Proofs.Enough
import Verif.Samples
/-
C38: the recursion limit.
-/
namespace Verif
open Samples

/-- The operation stops with `RecursionError`. -/
def TooDeep (r : Res α) : Prop := ∃ st, r = .err .recursionError st

/-! ### A larger limit changes nothing else -/

theorem obj_pack_fuel (env : Env) (v : Val) (n : Nat) : FuelLe (Obj.pack env n v) (Obj.pack env (n + 1) v) :=
  FuelLe.bind (objPack_fuel env (pack_fuel env n) v) fun _ => FuelLe.refl _

theorem obj_packInto_fuel (env : Env) (off : Nat) (v : Val) (n : Nat) :
    FuelLe (Obj.packInto env n off v) (Obj.packInto env (n + 1) off v) :=
  FuelLe.bind (objPackInto_fuel env (packInto_fuel env n) off v) fun _ => FuelLe.refl _

theorem obj_packWrite_fuel (env : Env) (v : Val) (n : Nat) :
    FuelLe (Obj.packWrite env n v) (Obj.packWrite env (n + 1) v) :=
  FuelLe.bind (objPackWrite_fuel env (packWrite_fuel env n) v) fun _ => FuelLe.refl _

theorem createUnpack_fuel (env : Env) (cls : ClassId) (src : Src) (n : Nat) :
    FuelLe (createUnpack env n cls src) (createUnpack env (n + 1) cls src) :=
  FuelLe.bind (createUnpackWith_fuel env (unpack_fuel env n) cls src) fun _ => FuelLe.refl _

theorem obj_unpack_fuel (env : Env) (v : Val) (src : Src) (n : Nat) :
    FuelLe (Obj.unpack env n v src) (Obj.unpack env (n + 1) v src) := by
  cases v with
  | obj cls bo attrs =>
    exact FuelLe.then fun _ => FuelLe.then fun _ => FuelLe.bind (unpack_fuel env n _ _ _) fun _ => FuelLe.refl _
  | _ => exact FuelLe.refl _

/-- **C38** (packing).  What an object packs to within one recursion limit it packs to within every
larger one: same bytes, same exception, same state. -/
theorem C38_pack_larger_limit (env : Env) (n m : Nat) (v : Val) (st : St) (hnm : n ≤ m)
    (h : ¬ TooDeep (Obj.pack env n v st)) : Obj.pack env m v st = Obj.pack env n v st :=
  ((fuel_le (obj_pack_fuel env v) hnm).run st).elim (fun h' => absurd h' h) Eq.symm

/-- **C38** (`pack_into`). -/
theorem C38_pack_into_larger_limit (env : Env) (n m off : Nat) (v : Val) (st : St) (hnm : n ≤ m)
    (h : ¬ TooDeep (Obj.packInto env n off v st)) : Obj.packInto env m off v st = Obj.packInto env n off v st :=
  ((fuel_le (obj_packInto_fuel env off v) hnm).run st).elim (fun h' => absurd h' h) Eq.symm

/-- **C38** (`pack_write`). -/
theorem C38_pack_write_larger_limit (env : Env) (n m : Nat) (v : Val) (st : St) (hnm : n ≤ m)
    (h : ¬ TooDeep (Obj.packWrite env n v st)) : Obj.packWrite env m v st = Obj.packWrite env n v st :=
  ((fuel_le (obj_packWrite_fuel env v) hnm).run st).elim (fun h' => absurd h' h) Eq.symm

/-- **C38** (`create_unpack`, `create_unpack_from`, `create_unpack_read`). -/
theorem C38_create_unpack_larger_limit (env : Env) (n m : Nat) (cls : ClassId) (src : Src) (st : St) (hnm : n ≤ m)
    (h : ¬ TooDeep (createUnpack env n cls src st)) : createUnpack env m cls src st = createUnpack env n cls src st :=
  ((fuel_le (createUnpack_fuel env cls src) hnm).run st).elim (fun h' => absurd h' h) Eq.symm

/-- **C38** (`unpack`, `unpack_from`, `unpack_read` of an instance). -/
theorem C38_unpack_larger_limit (env : Env) (n m : Nat) (v : Val) (src : Src) (st : St) (hnm : n ≤ m)
    (h : ¬ TooDeep (Obj.unpack env n v src st)) : Obj.unpack env m v src st = Obj.unpack env n v src st :=
  ((fuel_le (obj_unpack_fuel env v src) hnm).run st).elim (fun h' => absurd h' h) Eq.symm

/-- Three nested trees exceed a limit of 6; larger limits give the same bytes. -/
example : TooDeep (Obj.pack env 6 (tree 5 [tree 1 [], tree 2 [tree 3 []]]) st0) ∧
    result (Obj.pack env 8 (tree 5 [tree 1 [], tree 2 [tree 3 []]]) st0) = .ok [5, 2, 1, 0, 2, 1, 3, 0] ∧
    result (Obj.pack env 1000 (tree 5 [tree 1 [], tree 2 [tree 3 []]]) st0) = .ok [5, 2, 1, 0, 2, 1, 3, 0] :=
  ⟨⟨_, by rfl⟩, by rfl, by rfl⟩

/-! ### Some limit is enough -/

/-- **C38** (some limit is enough to pack).  In a program whose serializers have bounded nesting (any
finite program), every object has a limit from which on packing it is the same function; this holds for
recursive classes as well. -/
theorem C38_pack_some_limit (env : Env) (H : Nat) (hH : env.heightLe H) (v : Val) :
    ∃ N, ∀ n, N ≤ n → Obj.pack env n v = Obj.pack env N v := by
  refine ⟨v.depth * (H + 1), fun n hn => enough_ge (f := fun n => Obj.pack env n v) (fun n hn => ?_) hn⟩
  refine M.bind_congr (objPack_enough hH v fun s vs hs hv => pack_enough hH _ _ _ ?_) fun _ _ _ _ => rfl
  have h2 : (Val.depthList vs + 1) * (H + 1) ≤ v.depth * (H + 1) := Nat.mul_le_mul_right _ hv
  rw [Nat.add_mul] at h2
  unfold need; omega

theorem C38_pack_into_some_limit (env : Env) (H : Nat) (hH : env.heightLe H) (off : Nat) (v : Val) :
    ∃ N, ∀ n, N ≤ n → Obj.packInto env n off v = Obj.packInto env N off v := by
  refine ⟨v.depth * (H + 1), fun n hn => enough_ge (f := fun n => Obj.packInto env n off v) (fun n hn => ?_) hn⟩
  refine M.bind_congr (objPackInto_enough hH off v fun s off vs hs hv => packInto_enough hH _ _ _ _ ?_)
    fun _ _ _ _ => rfl
  have h2 : (Val.depthList vs + 1) * (H + 1) ≤ v.depth * (H + 1) := Nat.mul_le_mul_right _ hv
  rw [Nat.add_mul] at h2
  unfold need; omega

theorem C38_pack_write_some_limit (env : Env) (H : Nat) (hH : env.heightLe H) (v : Val) :
    ∃ N, ∀ n, N ≤ n → Obj.packWrite env n v = Obj.packWrite env N v := by
  refine ⟨v.depth * (H + 1), fun n hn => enough_ge (f := fun n => Obj.packWrite env n v) (fun n hn => ?_) hn⟩
  refine M.bind_congr (objPackWrite_enough hH v fun s vs hs hv => packWrite_enough hH _ _ _ ?_) fun _ _ _ _ => rfl
  have h2 : (Val.depthList vs + 1) * (H + 1) ≤ v.depth * (H + 1) := Nat.mul_le_mul_right _ hv
  rw [Nat.add_mul] at h2
  unfold need; omega

/-- **C38** (some limit is enough to unpack).  When classes mention only classes of lower rank (no `Self`,
no cycles), each class has one limit that is enough for every input. -/
theorem C38_create_unpack_some_limit (env : Env) (H : Nat) (hH : env.heightLe H) (rank : ClassId → Nat)
    (hR : env.ranked rank) (cls : ClassId) :
    ∃ N, ∀ n src, N ≤ n → createUnpack env n cls src = createUnpack env N cls src := by
  refine ⟨rank cls * (H + 1) + H, fun n src hn =>
    enough_ge (f := fun n => createUnpack env n cls src) (fun n hn => ?_) hn⟩
  refine M.bind_congr (createUnpackWith_enough fun ci s u st st' hc e => ?_) fun _ _ _ _ => rfl
  have h1 := preunpack_height e
  have h2 := hH _ _ hc
  exact unpack_enough hH hR _ (rank cls) _ _ _ (preunpack_below (hR _ _ hc) e) (by omega)

/-- The sample program without its recursive class. -/
def flat : Env := ⟨plat, fun c => if c = 2 then none else classes c⟩

/-- Non-vacuous: the sample program has bounded nesting, and without `Tree` it is ranked. -/
example : env.heightLe 3 ∧ flat.heightLe 3 ∧ flat.ranked (fun c => if c = 0 then 0 else 1) := by
  refine ⟨?_, ?_, ?_⟩
  · intro c ci h
    simp only [env] at h
    rcases c with _ | _ | _ | _ | _ | _ | _ | c <;> simp only [classes] at h <;> cases h <;> decide
  · intro c ci h
    simp only [flat] at h
    rcases c with _ | _ | _ | _ | _ | _ | _ | c <;> simp [classes] at h <;> cases h <;> decide
  · intro c ci h
    simp only [flat] at h
    rcases c with _ | _ | _ | _ | _ | _ | _ | c <;> simp [classes] at h <;> cases h <;> rfl

end Verif
