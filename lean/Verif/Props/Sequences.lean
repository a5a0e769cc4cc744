import Verif.Proofs.ArrayRun
import Verif.Samples
/-
Arrays and tuples pack any sequence as the list of its items (C58).
-/
namespace Verif
open Samples

/-- The serializers of array and tuple fields. -/
def Spec.Ser.isSequence : Ser → Bool
  | .array .. | .staticArr .. | .dynArr .. | .tuple .. => true
  | _ => false

/-- A value with items, and these. -/
inductive Spec.HasItems : Val → List Val → Prop
  | list (vs) : HasItems (.list vs) vs
  | tup (vs) : HasItems (.tup vs) vs
  | bytes (b : Bytes) : HasItems (.bytes b) (b.map fun x => .int x.toNat)
  | str (s : PyStr) : HasItems (.str s) (s.map fun c => .str [c])
  | custom {t v vs} : HasItems v vs → HasItems (.custom t v) vs

open Spec

theorem hasItems_run {v : Val} {vs : List Val} (h : HasItems v vs) : pyIter v = .ok vs ∧ pyLen v = .ok vs.length := by
  induction h with
  | list => exact ⟨rfl, rfl⟩
  | tup => exact ⟨rfl, rfl⟩
  | bytes b => exact ⟨rfl, by simp [pyLen, Val.strip]⟩
  | str s => exact ⟨rfl, by simp [pyLen, Val.strip]⟩
  | custom h ih => simpa [pyIter, pyLen, Val.strip] using ih

theorem no_items {v : Val} (h : ∀ vs, ¬ HasItems v vs) : pyIter v = .error .typeError ∧ pyLen v = .error .typeError := by
  match v with
  | .list vs => exact absurd (.list vs) (h vs)
  | .tup vs => exact absurd (.tup vs) (h vs)
  | .bytes b => exact absurd (.bytes b) (h _)
  | .str s => exact absurd (.str s) (h _)
  | .custom t w => simpa [pyIter, pyLen, Val.strip] using no_items (v := w) fun vs hw => h vs hw.custom
  | .none => exact ⟨rfl, rfl⟩
  | .int _ => exact ⟨rfl, rfl⟩
  | .bool _ => exact ⟨rfl, rfl⟩
  | .float _ => exact ⟨rfl, rfl⟩
  | .obj .. => exact ⟨rfl, rfl⟩
  | .gen => exact ⟨rfl, rfl⟩

private theorem lift_bind {α β} (x : α) (f : α → M β) : (M.lift (.ok x) >>= f) = f x := rfl

private theorem ok_bind {α β} (x : α) (f : α → Except Err β) : ((.ok x : Except Err α) >>= f) = f x := rfl

private theorem lift_error {α β} (e : Err) (f : α → M β) : (M.lift (.error e) >>= f) = M.throw e := rfl

private theorem error_bind {α β} (e : Err) (f : α → Except Err β) : ((.error e : Except Err α) >>= f) = .error e := rfl

/-- **C58** (`pack`).  An array or a tuple packs every sequence as the list of its items: the same bytes, the same exception, the same size. -/
theorem C58_pack {s : Ser} (hs : Ser.isSequence s = true) {v : Val} {vs : List Val} (hv : HasItems v vs) (env : Env) (n : Nat) (st : St) :
    pack env n s [v] st = pack env n s [.list vs] st := by
  obtain ⟨h1, h2⟩ := hasItems_run hv
  obtain ⟨h3, h4⟩ := hasItems_run (.list vs)
  cases n with
  | zero => rfl
  | succ n => cases s <;> first | exact absurd hs Bool.false_ne_true | simp only [pack, first, staticArrPrep, dynArrPrep, lift_bind, ok_bind, h1, h2, h3, h4]

/-- **C58** (`pack_into`). -/
theorem C58_pack_into {s : Ser} (hs : Ser.isSequence s = true) {v : Val} {vs : List Val} (hv : HasItems v vs) (env : Env) (n off : Nat) (st : St) :
    packInto env n s off [v] st = packInto env n s off [.list vs] st := by
  obtain ⟨h1, h2⟩ := hasItems_run hv
  obtain ⟨h3, h4⟩ := hasItems_run (.list vs)
  cases n with
  | zero => rfl
  | succ n => cases s <;> first | exact absurd hs Bool.false_ne_true | simp only [packInto, first, staticArrPrep, dynArrPrep, lift_bind, ok_bind, h1, h2, h3, h4]

/-- **C58** (`pack_write`). -/
theorem C58_pack_write {s : Ser} (hs : Ser.isSequence s = true) {v : Val} {vs : List Val} (hv : HasItems v vs) (env : Env) (n : Nat) (st : St) :
    packWrite env n s [v] st = packWrite env n s [.list vs] st := by
  obtain ⟨h1, h2⟩ := hasItems_run hv
  obtain ⟨h3, h4⟩ := hasItems_run (.list vs)
  cases n with
  | zero => rfl
  | succ n =>
    cases s <;> first | exact absurd hs Bool.false_ne_true | (simp only [packWrite, first, staticArrPrep, dynArrPrep, lift_bind, ok_bind, h1, h2, h3, h4]; done) | skip
    simp only [packWrite]
    show M.bind _ _ st = M.bind _ _ st
    simp only [M.bind, C58_pack (s := .array ..) rfl hv]

/-- **C58** (no items).  Whatever is not a sequence is refused by all three methods. -/
theorem C58_not_a_sequence {s : Ser} (hs : Ser.isSequence s = true) {v : Val} (hv : ∀ vs, ¬ HasItems v vs) (env : Env) (n : Nat) (st st' : St) :
    (∀ b, pack env n s [v] st ≠ .ok b st') ∧ (∀ off, packInto env n s off [v] st ≠ .ok () st') ∧ packWrite env n s [v] st ≠ .ok () st' := by
  obtain ⟨h1, h2⟩ := no_items hv
  have hp : ∀ st st' b, pack env n s [v] st ≠ .ok b st' := by
    intro st st' b h
    cases n with
    | zero => cases h
    | succ n =>
      cases s <;> first
        | exact absurd hs Bool.false_ne_true
        | (simp only [pack, first, staticArrPrep, dynArrPrep, lift_bind, lift_error, ok_bind, error_bind, h1, h2] at h
           first
             | cases h
             | (obtain ⟨_, _, _, h⟩ := M.bind_ok h
                obtain ⟨_, _, _, h⟩ := M.bind_ok h
                cases h))
  refine ⟨hp _ _, fun off h => ?_, fun h => ?_⟩
  · cases n with
    | zero => cases h
    | succ n =>
      cases s <;> first
        | exact absurd hs Bool.false_ne_true
        | (simp only [packInto, first, staticArrPrep, dynArrPrep, lift_bind, lift_error, ok_bind, error_bind, h1, h2] at h
           first
             | cases h
             | (obtain ⟨_, _, _, h⟩ := M.bind_ok h
                obtain ⟨_, _, _, h⟩ := M.bind_ok h
                cases h))
  · cases n with
    | zero => cases h
    | succ n =>
      cases s <;> first
        | exact absurd hs Bool.false_ne_true
        | (simp only [packWrite, first, staticArrPrep, dynArrPrep, lift_error, ok_bind, error_bind, h1, h2] at h
           first
             | cases h
             | (obtain ⟨_, _, _, h⟩ := M.bind_ok h
                obtain ⟨_, _, _, h⟩ := M.bind_ok h
                cases h))
        | (simp only [packWrite] at h
           obtain ⟨b, s1, h3, _⟩ := M.bind_ok h
           exact hp _ _ _ h3)

/-- `array[Header[uint8], uint8]` of `b'ab'`, of `(97, 98)` and of `[97, 98]`. -/
example : result (pack env 3 (.dynArr [8] u8 u8) [.bytes [97, 98]] st0) = .ok [2, 97, 98] ∧
    result (pack env 3 (.dynArr [8] u8 u8) [.tup [.int 97, .int 98]] st0) = .ok [2, 97, 98] ∧
    result (pack env 3 (.dynArr [8] u8 u8) [.list [.int 97, .int 98]] st0) = .ok [2, 97, 98] := ⟨by rfl, by rfl, by rfl⟩

/-- `array[Header[2], Point]` of a tuple, and of a number. -/
example : result (packGiven env 4 (.array [8] Option.none (.structured [12] 0) 2) ⟨0, false, []⟩ [.tup [point 1 2, point 3 4]] st0) = .ok [1, 0, 2, 3, 0, 4] ∧
    result (packGiven env 4 (.array [8] Option.none (.structured [12] 0) 2) ⟨0, false, []⟩ [.int 2] st0) = .error .typeError := ⟨by rfl, by rfl⟩

/-- `tuple[uint8, uint8]` of a byte string, and `C58_pack` for it. -/
example : result (packGiven env 4 (.tuple [8] (.struct ⟨"2B".toList, Option.none⟩)) ⟨0, false, []⟩ [.custom 4 (.bytes [5, 6])] st0) = .ok [5, 6] ∧
    ∀ n st, pack env n (.tuple [8] (.struct ⟨"2B".toList, Option.none⟩)) [.custom 4 (.bytes [5, 6])] st =
      pack env n (.tuple [8] (.struct ⟨"2B".toList, Option.none⟩)) [.list [.int 5, .int 6]] st :=
  ⟨by rfl, fun n st => C58_pack rfl (.custom (.bytes [5, 6])) env n st⟩

end Verif
