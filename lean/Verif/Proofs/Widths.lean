import Verif.Spec.Widths
import Verif.Proofs.PlainValues
import Verif.Proofs.AddJoin
import Verif.Proofs.ExactMain
/-
Unpacked objects are no larger than the data (C67): parts.
-/
namespace Verif.Wide
open Buf Verif.Neg Verif.Spec

variable {env : Env} {S : ClassId → Prop} {D m : Nat}

theorem withinList_mem {vs : List Val} : Val.WithinList m vs ↔ ∀ v ∈ vs, v.Within m := by
  induction vs with
  | nil => simp [Val.WithinList]
  | cons v vs ih => simp [Val.WithinList, ih]

theorem withinList_append {vs ws : List Val} (h1 : Val.WithinList m vs) (h2 : Val.WithinList m ws) :
    Val.WithinList m (vs ++ ws) := by
  rw [withinList_mem] at *
  intro v hv
  rcases List.mem_append.1 hv with h | h
  · exact h1 v h
  · exact h2 v h

mutual
theorem within_mono {n : Nat} (h : m ≤ n) : (v : Val) → v.Within m → v.Within n
  | .bytes _, hv => by simp only [Val.Within] at *; omega
  | .list vs, hv => by
    simp only [Val.Within] at *
    exact ⟨by omega, withinList_mono h vs hv.2⟩
  | .tup vs, hv => by simp only [Val.Within] at *; exact withinList_mono h vs hv
  | .obj _ _ as, hv => by simp only [Val.Within] at *; exact withinAttrs_mono h as hv
  | .custom _ v, hv => by simp only [Val.Within] at *; exact within_mono h v hv
  | .none, _ => trivial
  | .int _, _ => trivial
  | .bool _, _ => trivial
  | .float _, _ => trivial
  | .str _, _ => trivial
  | .gen, _ => trivial
theorem withinList_mono {n : Nat} (h : m ≤ n) : (vs : List Val) → Val.WithinList m vs → Val.WithinList n vs
  | [], _ => trivial
  | v :: vs, hv => ⟨within_mono h v hv.1, withinList_mono h vs hv.2⟩
theorem withinAttrs_mono {n : Nat} (h : m ≤ n) : (vs : List (Name × Val)) → Val.WithinAttrs m vs → Val.WithinAttrs n vs
  | [], _ => trivial
  | (_, v) :: vs, hv => ⟨within_mono h v hv.1, withinAttrs_mono h vs hv.2⟩
end

theorem withinAttrs_set {as : List (Name × Val)} {a : Name} {v : Val} (h : Val.WithinAttrs m as) (hv : v.Within m) :
    Val.WithinAttrs m (setAttr as a v) := by
  induction as with
  | nil => exact ⟨hv, trivial⟩
  | cons b as ih =>
    obtain ⟨n, w⟩ := b
    unfold setAttr
    by_cases hc : (n == a) = true
    · rw [if_pos hc]; exact ⟨hv, h.2⟩
    · rw [if_neg hc]; exact ⟨h.1, ih h.2⟩

theorem withinAttrs_fold {names : List Name} {vs : List Val} {as : List (Name × Val)} (h : Val.WithinAttrs m as)
    (hv : Val.WithinList m vs) : Val.WithinAttrs m ((names.zip vs).foldl (fun as nv => setAttr as nv.1 nv.2) as) := by
  induction names generalizing vs as with
  | nil => simpa using h
  | cons n names ih =>
    cases vs with
    | nil => simpa using h
    | cons v vs => exact ih (withinAttrs_set h hv.1) hv.2

theorem withinAttrs_zip {names : List Name} {vs : List Val} (hv : Val.WithinList m vs) :
    Val.WithinAttrs m (names.zip vs) := by
  induction names generalizing vs with
  | nil => simp [Val.WithinAttrs]
  | cons n names ih =>
    cases vs with
    | nil => simp [Val.WithinAttrs]
    | cons v vs => exact ⟨hv.1, ih hv.2⟩

/-! ### Specializing -/

theorem slimList_mem {ss : List Ser} : Ser.SlimList S D ss ↔ ∀ s ∈ ss, s.Slim S D := by
  induction ss with
  | nil => simp [Ser.SlimList]
  | cons s ss ih => simp [Ser.SlimList, ih]

theorem solidAll_mem {ss : List Ser} : Ser.SolidAll S ss ↔ ∀ s ∈ ss, s.isLazy = false ∧ s.Solid S := by
  induction ss with
  | nil => simp [Ser.SolidAll]
  | cons s ss ih => simp [Ser.SolidAll, ih]

theorem singleAll_mem {ss : List Ser} : Ser.SingleAll ss ↔ ∀ s ∈ ss, s.Single := by
  induction ss with
  | nil => simp [Ser.SingleAll]
  | cons s ss ih => simp [Ser.SingleAll, ih]

/-- What specializing keeps. -/
structure SlimKeeps (S : ClassId → Prop) (D : Nat) (s o : Ser) : Prop where
  slim : s.Slim S D → o.Slim S D
  solid : s.Solid S → o.Solid S
  single : s.Single → o.Single
  eager : s.Solid S → s.isLazy = false → o.isLazy = false
  size : ∀ st n st', s.readSize st = .ok n st' → o.readSize st = .ok n st'

theorem SlimKeeps.refl (s : Ser) : SlimKeeps S D s s := ⟨id, id, id, fun _ h => h, fun _ _ _ h => h⟩

/-- Only the position of the stream and the bytes of the stream matter. -/
theorem left_congr {src : Src} {st st' : St} (h : st'.io = st.io) : src.left st' = src.left st := by
  cases src <;> simp [Src.left, h]

theorem slim_prepack {s o : Ser} {p : PObj} {st st' : St} (h : s.prepack p st = .ok o st') (hp : s.prepack p = s.preunpack p) :
    SlimKeeps S D s o ∧ st'.io = st.io := by
  cases s with
  | cond ser c defs =>
    have h' : M.lift (do condPick ser defs (← c p)) st = .ok o st' := h
    obtain ⟨h1, rfl⟩ := lift_ok' h'
    obtain ⟨r, _, h2⟩ := Except.bind_ok' h1
    refine ⟨⟨?_, nofun, nofun, nofun, fun _ _ _ h => by cases h⟩, rfl⟩
    intro hs
    simp only [Ser.Slim] at hs
    unfold condPick at h2
    by_cases h1 : ¬ r.hashable = true
    · rw [if_pos h1] at h2; cases h2
    · rw [if_neg h1] at h2
      by_cases h3 : r.keyEq (.bool true) = true
      · rw [if_pos h3] at h2; cases h2; exact hs.1
      · rw [if_neg h3] at h2
        by_cases h4 : r.keyEq (.bool false) = true
        · rw [if_pos h4] at h2; cases h2; exact hs.2
        · rw [if_neg h4] at h2; cases h2
  | compound id ss =>
    cases h
    by_cases hn : needsPreprocess ss = true
    · rw [if_pos hn]; exact ⟨⟨fun h => h, fun h => h, fun h => h, fun _ h => h, fun _ _ _ h => h⟩, rfl⟩
    · rw [if_neg hn]; exact ⟨SlimKeeps.refl _, rfl⟩
  | selfT id =>
    have := congrFun hp st
    rw [h] at this
    have h' : M.lift (do pure (Ser.structured id (← clsOfPartial p))) st = .ok o st' := this.symm
    obtain ⟨h1, rfl⟩ := lift_ok' h'
    obtain ⟨c, _, h2⟩ := Except.bind_ok' h1
    cases h2
    exact ⟨⟨fun h => h, fun h => h c, fun h => h, fun _ h => h, fun _ _ _ h => by cases h⟩, rfl⟩
  | array id a b c =>
    obtain ⟨u, st1, h1, h2⟩ := M.bind_ok h
    cases h1; cases h2
    exact ⟨SlimKeeps.refl _, rfl⟩
  | tuple id a =>
    obtain ⟨u, st1, h1, h2⟩ := M.bind_ok h
    cases h1; cases h2
    exact ⟨SlimKeeps.refl _, rfl⟩
  | lookback id a b c d =>
    obtain ⟨u, st1, h1, h2⟩ := M.bind_ok h
    cases h1; cases h2
    exact ⟨SlimKeeps.refl _, rfl⟩
  | lookahead id a b c d e =>
    obtain ⟨u, st1, h1, h2⟩ := M.bind_ok h
    cases h1; cases h2
    exact ⟨SlimKeeps.refl _, rfl⟩
  | _ => cases h; exact ⟨SlimKeeps.refl _, rfl⟩

theorem slim_preunpack {s o : Ser} {p : PObj} {st st' : St} (h : s.preunpack p st = .ok o st') :
    SlimKeeps S D s o ∧ st'.io = st.io := by
  rcases preunpack_or s p with h' | ⟨i, rfl⟩
  · rw [h'] at h; exact slim_prepack h h'.symm
  · have h' : M.lift (do pure (Ser.structured i (← clsOfPartial p))) st = .ok o st' := h
    obtain ⟨h1, rfl⟩ := lift_ok' h'
    obtain ⟨c, _, h2⟩ := Except.bind_ok' h1
    cases h2
    exact ⟨⟨fun h => h, fun h => h c, fun h => h, fun _ h => h, fun _ _ _ h => by cases h⟩, rfl⟩

theorem slim_getPart {i : SerId} {st st' : St} {p : PObj} (h : getPart i st = .ok p st') : st' = st := by
  unfold getPart at h
  cases hp : (st.cells i).part with
  | none => rw [hp] at h; cases h
  | some q => rw [hp] at h; cases h; rfl

/-- The serializer a union takes. -/
theorem slim_getSerializer {i : SerId} {keys : List Val} {opts : List Ser} {dflt o : Ser} {r : Val} {st st' : St}
    (h : getSerializer false i keys opts dflt r st = .ok o st') :
    st'.io = st.io ∧ (Ser.SlimList S D opts → dflt.Slim S D → o.Slim S D) ∧
    (Ser.SolidAll S opts → (dflt = .null ∨ dflt.isLazy = false ∧ dflt.Solid S) → o.isLazy = false ∧ o.Solid S) ∧
    (Ser.SingleAll opts → dflt.Single → o.Single) := by
  unfold getSerializer at h
  obtain ⟨s, st1, h1, h2⟩ := M.bind_ok h
  obtain ⟨p, st2, h3, h4⟩ := M.bind_ok h2
  obtain ⟨h5, rfl⟩ := lift_ok' h1
  have e := slim_getPart h3
  subst e
  obtain ⟨k, ke⟩ := slim_preunpack (S := S) (D := D) h4
  have hm := unionPick_mem'' h5
  refine ⟨ke, fun ho hd => k.slim ?_, fun ho hd => ?_, fun ho hd => k.single ?_⟩
  · rcases hm with hm | ⟨rfl, _⟩
    · exact slimList_mem.1 ho _ hm
    · exact hd
  · have : s.isLazy = false ∧ s.Solid S := by
      rcases hm with hm | ⟨rfl, hn⟩
      · exact solidAll_mem.1 ho _ hm
      · exact hd.resolve_left hn
    exact ⟨k.eager this.2 this.1, k.solid this.2⟩
  · rcases hm with hm | ⟨rfl, _⟩
    · exact singleAll_mem.1 ho _ hm
    · exact hd

/-! ### Structs -/

theorem unpackMany_within {P : Platform} {bo : ByteOrder} {c : Code} : ∀ (k : Nat) (b : Bytes), b.length ≤ m →
    Val.WithinList m (unpackMany P bo c k b)
  | 0, _, _ => trivial
  | k + 1, b, h => ⟨by cases c <;> simp [unpackOne, Val.Within] <;> omega, unpackMany_within k _ (by simp; omega)⟩

theorem unpackTok_within {P : Platform} {bo : ByteOrder} {t : Tok} {b : Bytes} (h : b.length ≤ m) :
    Val.WithinList m (unpackTok P bo t b) := by
  unfold unpackTok
  split
  · trivial
  · exact ⟨h, trivial⟩
  · split
    · exact ⟨Nat.zero_le _, trivial⟩
    · exact ⟨by simp [Val.Within] at *; omega, trivial⟩
  · exact unpackMany_within _ _ h

theorem unpackToks_within {P : Platform} {bo : ByteOrder} : ∀ (ts : List Tok) (o : Nat) (b : Bytes), b.length ≤ m →
    Val.WithinList m (unpackToks P bo ts o b)
  | [], _, _, _ => trivial
  | _ :: ts, _, _, h => withinList_append (unpackTok_within (by simp; omega)) (unpackToks_within ts _ _ (by simp; omega))

theorem runActions_within (hm : D ≤ m) : ∀ (as : List Action) (vs ws : List Val),
    (∀ a ∈ as, ∀ m v w, D ≤ m → v.Within m → a v = .ok w → w.Within m) → Val.WithinList m vs →
    StructSer.runActions as vs = .ok ws → Val.WithinList m ws ∧ ws.length ≤ vs.length
  | [], _, _, _, _, h => by cases h; exact ⟨trivial, Nat.zero_le _⟩
  | _ :: _, [], _, _, _, h => by cases h; exact ⟨trivial, Nat.zero_le _⟩
  | a :: as, v :: vs, ws, ha, hv, h => by
    simp only [StructSer.runActions] at h
    obtain ⟨w, h1, h⟩ := Except.bind_ok' h
    obtain ⟨ws', h2, h⟩ := Except.bind_ok' h
    cases h
    obtain ⟨r1, r2⟩ := runActions_within hm as vs ws' (fun a' h' => ha a' (by simp [h'])) hv.2 h2
    exact ⟨⟨ha a (by simp) _ _ _ hm hv.1 h1, r1⟩, by simpa using r2⟩

theorem applyActions_within {s : StructSer} (hm : D ≤ m) (hs : s.Slim D) {vs ws : List Val} (hv : Val.WithinList m vs)
    (h : s.applyActions vs = .ok ws) : Val.WithinList m ws ∧ ws.length ≤ vs.length := by
  unfold StructSer.applyActions at h
  cases ha : s.actions with
  | none => rw [ha] at h; cases h; exact ⟨hv, Nat.le_refl _⟩
  | some as => rw [ha] at h; exact runActions_within hm as vs ws (hs as ha) hv h

theorem left_next (src : Src) (k : Nat) (st : St) : (src.next k).left st ≤ src.left st := by
  cases src <;> simp only [Src.next, Src.left, List.length_drop] <;> omega

theorem left_next_mono (src : Src) {j k : Nat} (h : j ≤ k) (st : St) : (src.next k).left st ≤ (src.next j).left st := by
  cases src <;> simp only [Src.next, Src.left, List.length_drop] <;> omega

theorem left_next_io (src : Src) (k : Nat) {st st' : St} (h : src.left st' ≤ src.left st) :
    (src.next k).left st' ≤ (src.next k).left st := by
  cases src <;> simp_all [Src.next, Src.left]

/-- What reading a struct takes. -/
theorem struct_left {s : StructSer} {src : Src} {st st' : St} {vs : List Val}
    (h : structUnpackM env s src st = .ok vs st') :
    s.size ≤ src.left st ∧ src.left st' ≤ src.left st ∧
    (∀ k, s.size ≤ k → (src.next k).left st' + s.size ≤ src.left st) ∧
    (∀ m, D ≤ m → s.Slim D → src.left st ≤ m → Val.WithinList m vs) ∧
    (s.Slim D → vs.length ≤ numVals s.toks) := by
  obtain ⟨d, hd, hl, ha, rfl⟩ := structUnpackM_ok.1 h
  have e : src.left st = d.length := by
    cases src with
    | buf b => simp only [Shows] at hd; subst hd; rfl
    | «at» b o => simp only [Shows] at hd; rw [← hd.2]; simp [Src.left]
    | io => simp only [Shows] at hd; rw [← hd]; simp [Src.left]
  refine ⟨by omega, ?_, ?_, ?_, ?_⟩
  · cases src <;> simp only [stepped, Src.left] <;> omega
  · intro k hk
    cases src <;> simp only [stepped, Src.left, Src.next, List.length_drop] at * <;> omega
  · intro m hm hs hle
    exact (applyActions_within hm hs (unpackToks_within _ _ _ (by simp; omega)) ha).1
  · intro hs
    have := (applyActions_within (m := max D d.length) (by omega) hs
      (unpackToks_within _ _ _ (by simp; omega)) ha).2
    rwa [unpackToks_length] at this

theorem slim_of_none {s : StructSer} (h : s.actions = none) : s.Slim D := by
  intro as ha; rw [h] at ha; cases ha

theorem endOff_ge (nat : Bool) (ts : List Tok) (h : ∀ t ∈ ts, t.numVals ≤ t.n) (o : Nat) :
    o + numVals ts ≤ endOff nat ts o := by
  induction ts generalizing o with
  | nil => simp [numVals, endOff]
  | cons t ts ih =>
    have h1 := ih (fun t' ht => h t' (by simp [ht])) (o + padLen (t.c.align nat) o + t.bytes nat)
    have h2 := h t (by simp)
    have h3 : t.n ≤ t.bytes nat := by
      have : 1 ≤ t.c.bytes nat := by
        cases t.c <;> simp [Code.bytes]
        rename_i w
        cases w <;> cases nat <;> simp [Width.bytes]
      exact Nat.le_mul_of_pos_right _ this
    simp only [numVals, List.map_cons, List.sum_cons, endOff] at *
    omega

theorem spends_size {s : StructSer} (h : s.Spends) : numVals s.toks ≤ s.size := by
  have := endOff_ge s.byteOrder.isNative s.toks h 0
  simp only [StructSer.size, sizeToks]
  omega

theorem mul_spends {s t : StructSer} {c : Int} (h : s.Spends) (hs : SingleItem s.baseFormat) (hn : s.toks ≠ [])
    (hm : s.mul c = .ok (some t)) : numVals t.toks ≤ t.size := by
  by_cases hc : 0 < c
  · obtain ⟨n, rfl⟩ : ∃ n : Nat, c = n := ⟨c.toNat, by omega⟩
    obtain ⟨t', h1, h2, h3, _⟩ := mul_toks (n := n) (by omega) hn hs
    rw [hm] at h1
    cases h1
    have : ∀ t' ∈ rep n s.toks, t'.numVals ≤ t'.n := by
      intro t' ht
      obtain ⟨l, hl, h'⟩ := List.mem_flatten.1 ht
      rw [List.eq_of_mem_replicate hl] at h'
      exact h t' h'
    have := endOff_ge t.byteOrder.isNative _ this 0
    simp only [StructSer.size, sizeToks, h3.off, h3.vals]
    omega
  · exfalso
    unfold StructSer.mul StructSer.mulImpl at hm
    by_cases h0 : c = 0
    · subst h0
      cases ha : s.actions <;> simp [bind, Except.bind] at hm
    · have : c < 0 := by omega
      simp [h0, this, bind, Except.bind] at hm

theorem mul_slim {s : StructSer} (h : s.Slim D) {c : Int} {t : StructSer} (hr : s.mul c = .ok (some t)) : t.Slim D := by
  unfold StructSer.mul at hr
  obtain ⟨r, h1, h2⟩ := Except.bind_ok' hr
  cases ha : s.actions with
  | none =>
    rw [ha] at h2
    have hr' : r = some t := by cases r <;> (cases h2; try rfl)
    subst hr'
    refine slim_of_none ?_
    unfold StructSer.mulImpl at h1
    split at h1
    · cases h1
    · split at h1
      · cases h1
      · split at h1
        · cases h1; exact ha
        · obtain ⟨r, h3, h4⟩ := Except.bind_ok' h1
          cases h4
          unfold StructSer.remake at h3
          rw [ha] at h3
          simp only [StructSer.mkPlain] at h3
          split at h3
          · cases h3; rfl
          · cases h3
  | some acts =>
    rw [ha] at h2
    cases r with
    | none => cases h2
    | some r =>
      cases h2
      intro as has a hm
      cases has
      obtain ⟨l, hl, ha'⟩ := List.mem_flatten.1 hm
      rw [List.eq_of_mem_replicate hl] at ha'
      exact h acts ha a ha'

end Verif.Wide
