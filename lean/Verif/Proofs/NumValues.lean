import Verif.NumValues
import Verif.Proofs.StructLemmas
/-
Lemmas for `Props/NumValues.lean`.
-/
namespace Verif.NumValues
open Verif

/-- Every number in the dictionary is the number of values of its format. -/
def Right (cache : Cache) : Prop := ∀ f n, (f, n) ∈ cache → n = StructSer.numValues ⟨f, none⟩

theorem count_eq (P : Platform) (s : StructSer) : count P s = .ok s.numValues := by
  have h : sizeToks s.byteOrder.isNative s.toks ≤ (List.replicate s.size (0 : UInt8)).length := by simp [StructSer.size]
  simp only [count, structUnpackFrom, Nat.zero_le, true_and, Nat.sub_zero, if_pos h, bind, Except.bind, unpackToks_length]
  rfl

theorem lookup_mem : ∀ (cache : Cache) (f : List Char) (n : Nat), cache.lookup f = some n → (f, n) ∈ cache
  | [], _, _, h => by cases h
  | (g, m) :: rest, f, n, h => by
    rw [List.lookup_cons] at h
    split at h
    · rename_i e
      cases h
      have : f = g := by simpa using e
      subst this
      exact List.mem_cons_self
    · exact List.mem_cons_of_mem _ (lookup_mem rest f n h)

theorem Right.lookup {cache : Cache} (h : Right cache) {s : StructSer} {n : Nat} (hl : cache.lookup s.format = some n) :
    n = s.numValues := h _ _ (lookup_mem _ _ _ hl)

theorem Right.cons {cache : Cache} (h : Right cache) (s : StructSer) : Right ((s.format, s.numValues) :: cache) := by
  intro f n hm
  rcases List.mem_cons.1 hm with e | e
  · cases e; rfl
  · exact h f n e

theorem compute_right (P : Platform) (s : StructSer) {cache : Cache} (h : Right cache) :
    (compute P s cache).1 = .ok s.numValues ∧ Right (compute P s cache).2 := by
  unfold compute
  cases hl : cache.lookup s.format with
  | some n => exact ⟨by rw [h.lookup hl], h⟩
  | none => simp only [count_eq]; exact ⟨trivial, h.cons s⟩

theorem calls_right (P : Platform) : ∀ (ss : List StructSer) {cache : Cache}, Right cache →
    (calls P ss cache).1 = ss.map (fun s => .ok s.numValues) ∧ Right (calls P ss cache).2
  | [], _, h => ⟨rfl, h⟩
  | s :: ss, cache, h => by
    obtain ⟨h1, h2⟩ := compute_right P s h
    obtain ⟨h3, h4⟩ := calls_right P ss h2
    exact ⟨by simp only [calls, List.map_cons]; rw [h1, h3], h4⟩

/-- What a thread knows is right. -/
def PhaseRight (s : StructSer) : Phase → Prop
  | .start => True
  | .counted n => n = s.numValues
  | .done r => r = .ok s.numValues

theorem step_right (P : Platform) (s : StructSer) {cache : Cache} {p : Phase} (h : Right cache) (hp : PhaseRight s p) :
    PhaseRight s (step P s cache p).1 ∧ Right (step P s cache p).2 := by
  cases p with
  | start =>
    unfold step
    cases hl : cache.lookup s.format with
    | some n => exact ⟨by rw [h.lookup hl]; rfl, h⟩
    | none => simp only [count_eq]; exact ⟨rfl, h⟩
  | counted n =>
    cases hp
    exact ⟨rfl, h.cons s⟩
  | done r => exact ⟨hp, h⟩

theorem schedule_right (P : Platform) (sers : Nat → StructSer) : ∀ (is : List Nat) {ph : Nat → Phase} {cache : Cache}, Right cache →
    (∀ i, PhaseRight (sers i) (ph i)) →
    (∀ i, PhaseRight (sers i) ((schedule P sers is (ph, cache)).1 i)) ∧ Right (schedule P sers is (ph, cache)).2
  | [], _, _, h, hp => ⟨hp, h⟩
  | i :: is, ph, cache, h, hp => by
    obtain ⟨h1, h2⟩ := step_right P (sers i) h (hp i)
    refine schedule_right P sers is h2 ?_
    intro j
    split
    · rename_i e; subst e; exact h1
    · exact hp j

/-- How many turns a thread needs at most. -/
def left : Phase → Nat
  | .start => 2
  | .counted _ => 1
  | .done _ => 0

theorem step_left (P : Platform) (s : StructSer) (cache : Cache) (p : Phase) : left (step P s cache p).1 ≤ left p - 1 := by
  cases p with
  | start =>
    unfold step
    cases cache.lookup s.format with
    | some n => exact Nat.zero_le _
    | none => simp only [count_eq]; exact Nat.le_refl _
  | counted n => exact Nat.le_refl _
  | done r => exact Nat.le_refl _

theorem schedule_left (P : Platform) (sers : Nat → StructSer) (k : Nat) : ∀ (is : List Nat) (ph : Nat → Phase) (cache : Cache),
    left ((schedule P sers is (ph, cache)).1 k) ≤ left (ph k) - is.count k
  | [], _, _ => by simp [schedule]
  | i :: is, ph, cache => by
    refine Nat.le_trans (schedule_left P sers k is (fun j => if j = i then (step P (sers i) cache (ph i)).1 else ph j)
      (step P (sers i) cache (ph i)).2) ?_
    by_cases e : k = i
    · subst e
      have := step_left P (sers k) cache (ph k)
      simp only [↓reduceIte, List.count_cons_self]
      omega
    · rw [if_neg e, List.count_cons_of_ne (fun h => e h.symm)]
      exact Nat.le_refl _

end Verif.NumValues
