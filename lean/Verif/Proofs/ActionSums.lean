import Verif.Proofs.ActionLemmas
/-
Lemmas for `Props/ActionSums.lean`: actions that are more than the values.
-/
namespace Verif.ActionSums
open Verif

theorem runActions_more : ∀ (xs ys : List Action) (vs : List Val), vs.length ≤ xs.length →
    StructSer.runActions (xs ++ ys) vs = StructSer.runActions xs vs
  | [], ys, [], _ => by cases ys <;> rfl
  | [], _, _ :: _, h => by simp at h
  | x :: xs, _, [], _ => rfl
  | x :: xs, ys, v :: vs, h => by
    simp only [List.cons_append, StructSer.runActions, runActions_more xs ys vs (by simpa using h)]

theorem mkActions_more {f : List Char} {t : List Tok} {bo : ByteOrder} {xs : List Action} (ys : List Action)
    (h : parse bo.isNative f = some t) (hl : xs.length = numVals t) :
    StructSer.mkActions f bo (xs ++ ys) = .ok ⟨bo.value ++ f, some (xs ++ ys)⟩ ∧
    StructSer.mkActions f bo xs = .ok ⟨bo.value ++ f, some xs⟩ := by
  have h1 := StructSer.of_parse (a := none) h
  dsimp only at h1
  simp only [StructSer.mkActions, h1.1, ↓reduceIte, StructSer.numValues, h1.2.2.2]
  exact ⟨if_neg (by simp; omega), if_neg (by omega)⟩

/-- The same format and, on as many values as the format has, the same actions. -/
theorem same_unpack {c d : StructSer} (P : Platform) (hf : c.format = d.format)
    (ha : ∀ vs : List Val, vs.length = c.numValues → c.applyActions vs = d.applyActions vs) :
    (∀ vs, c.pack P vs = d.pack P vs) ∧ (∀ buf off vs, c.packInto P buf off vs = d.packInto P buf off vs) ∧
    (∀ buf, c.unpack P buf = d.unpack P buf) ∧ (∀ buf off, c.unpackFrom P buf off = d.unpackFrom P buf off) ∧
    (∀ x, c.unpackRead P x = d.unpackRead P x) := by
  obtain ⟨cf, ca⟩ := c
  obtain ⟨df, da⟩ := d
  cases hf
  have key : ∀ (q : Prop) [Decidable q] (raw : List Val), raw.length = StructSer.numValues ⟨cf, ca⟩ →
      ((if q then Except.ok raw else .error .structError : Except Err (List Val)) >>= StructSer.applyActions ⟨cf, ca⟩)
      = ((if q then Except.ok raw else .error .structError : Except Err (List Val)) >>= StructSer.applyActions ⟨cf, da⟩) := by
    intro q _ raw hraw
    by_cases hq : q
    · simp only [hq, ↓reduceIte, bind, Except.bind, ha raw hraw]
    · simp only [hq, ↓reduceIte, bind, Except.bind]
  refine ⟨fun _ => rfl, fun _ _ _ => rfl, ?_, ?_, ?_⟩
  · intro buf
    exact key _ _ (unpackToks_length ..)
  · intro buf off
    exact key _ _ (unpackToks_length ..)
  · intro x
    exact key _ _ (unpackToks_length ..)

end Verif.ActionSums
