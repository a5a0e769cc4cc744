import Verif.Spec.FormatParse
import Verif.Spec.Sem
/-
Lemmas for the parser of documented formats: what it means that a function with a recursion limit computes what the parser says.
-/
namespace Verif
open Spec Sem

/-- A result is the one that the parser gives, unless it depends on earlier use. -/
def Hit (M : α → β → Prop) : Out α → Parsed β → Prop
  | .stuck, _ => True
  | _, .odd => True
  | .ok a, .ok b => M a b
  | .err e, .err e' => e = e'
  | _, _ => False

/-- With a recursion limit of at most `k` it is a `RecursionError` or what the parser says; with a high limit it is what the
parser says, unless that is too deep. -/
structure Ag {σ α β : Type} (k : Nat) (S : σ → Prop) (M : σ → α → β → Prop) (D : σ → Nat → Out α) (r : Parsed β) : Prop where
  low : ∀ s, S s → ∀ n, n ≤ k → D s n = .err .recursionError ∨ Hit (M s) (D s n) r
  high : r ≠ .deep → ∃ K, ∀ s, S s → ∀ n, K ≤ n → Hit (M s) (D s n) r

variable {σ τ α β γ δ : Type} {k : Nat} {S : σ → Prop}

theorem Hit.map {M : α → β → Prop} {M' : γ → δ → Prop} {x : Out α} {r : Parsed β} {f : α → Out γ} {g : β → Parsed δ} (h : Hit M x r)
    (hf : ∀ a b, M a b → Hit M' (f a) (g b)) : Hit M' (x >>= f) (r >>= g) := by
  cases x with
  | stuck => trivial
  | ok a =>
    cases r with
    | ok b => exact hf a b h
    | err => cases h
    | deep => cases h
    | odd =>
      show Hit M' (f a) .odd
      cases f a <;> trivial
  | err e =>
    cases r with
    | ok b => cases h
    | err => exact h
    | deep => cases h
    | odd => trivial

theorem Hit.odd {M : α → β → Prop} (x : Out α) : Hit M x .odd := by cases x <;> trivial

theorem Ag.odd {M : σ → α → β → Prop} {D : σ → Nat → Out α} : Ag k S M D .odd :=
  ⟨fun _ _ _ _ => .inr (Hit.odd _), fun _ => ⟨0, fun _ _ _ _ => Hit.odd _⟩⟩

/-- Nothing depends on the limit. -/
theorem Ag.const {M : σ → α → β → Prop} {D : σ → Out α} {r : Parsed β} (h : ∀ s, S s → Hit (M s) (D s) r) : Ag k S M (fun s _ => D s) r :=
  ⟨fun s hs _ _ => .inr (h s hs), fun _ => ⟨0, fun s hs _ _ => h s hs⟩⟩

theorem Ag.congr {M : σ → α → β → Prop} {D D' : σ → Nat → Out α} {r : Parsed β} (h : Ag k S M D r) (hd : ∀ s, S s → ∀ n, D' s n = D s n) :
    Ag k S M D' r :=
  ⟨fun s hs n hn => by rw [hd s hs n]; exact h.low s hs n hn, fun hr => by
    obtain ⟨K, hK⟩ := h.high hr
    exact ⟨K, fun s hs n hn => by rw [hd s hs n]; exact hK s hs n hn⟩⟩

/-- One more level of recursion. -/
theorem Ag.succ {M : σ → α → β → Prop} {D D' : σ → Nat → Out α} {r : Parsed β} (h : Ag k S M D r) (h0 : ∀ s, S s → D' s 0 = .err .recursionError)
    (hd : ∀ s, S s → ∀ n, D' s (n + 1) = D s n) : Ag (k + 1) S M D' r := by
  refine ⟨fun s hs n hn => ?_, fun hr => ?_⟩
  · cases n with
    | zero => exact .inl (h0 s hs)
    | succ n => rw [hd s hs]; exact h.low s hs n (by omega)
  · obtain ⟨K, hK⟩ := h.high hr
    refine ⟨K + 1, fun s hs n hn => ?_⟩
    obtain ⟨n, rfl⟩ : ∃ m, n = m + 1 := ⟨n - 1, by omega⟩
    rw [hd s hs]
    exact hK s hs n (by omega)

theorem Ag.mono {M : σ → α → β → Prop} {D : σ → Nat → Out α} {r : Parsed β} {k' : Nat} (h : Ag k S M D r) (hk : k' ≤ k) : Ag k' S M D r :=
  ⟨fun s hs n hn => h.low s hs n (by omega), h.high⟩

/-- The limit of one more level of recursion is not needed. -/
theorem Ag.step {M : σ → α → β → Prop} {D D' : σ → Nat → Out α} {r : Parsed β} (h : Ag k S M D r) (h0 : ∀ s, S s → D' s 0 = .err .recursionError)
    (hd : ∀ s, S s → ∀ n, D' s (n + 1) = D s n) : Ag k S M D' r :=
  (h.succ h0 hd).mono (Nat.le_succ _)

/-- The other way to look at the situations. -/
theorem Ag.comap {M : σ → α → β → Prop} {D : σ → Nat → Out α} {r : Parsed β} {T : τ → Prop} (f : τ → σ) (hf : ∀ t, T t → S (f t)) (h : Ag k S M D r) :
    Ag k T (fun t => M (f t)) (fun t => D (f t)) r :=
  ⟨fun t ht n hn => h.low (f t) (hf t ht) n hn, fun hr => by
    obtain ⟨K, hK⟩ := h.high hr
    exact ⟨K, fun t ht n hn => hK (f t) (hf t ht) n hn⟩⟩

theorem Ag.weaken {M M' : σ → α → β → Prop} {D : σ → Nat → Out α} {r : Parsed β} (h : Ag k S M D r) (hm : ∀ s, S s → ∀ a b, M s a b → M' s a b) :
    Ag k S M' D r := by
  have key : ∀ s, S s → ∀ x : Out α, Hit (M s) x r → Hit (M' s) x r := by
    intro s hs x hx
    cases x <;> cases r <;> first | trivial | exact hx | exact hm s hs _ _ hx
  exact ⟨fun s hs n hn => (h.low s hs n hn).imp id (key s hs _), fun hr => by
    obtain ⟨K, hK⟩ := h.high hr
    exact ⟨K, fun s hs n hn => key s hs _ (hK s hs n hn)⟩⟩

/-- First one thing, then another. -/
theorem Ag.bind {M : σ → α → β → Prop} {M' : σ → γ → δ → Prop} {D : σ → Nat → Out α} {D' : σ → α → Nat → Out γ} {r : Parsed β} {r' : β → Parsed δ}
    (h : Ag k S M D r)
    (h' : ∀ b, r = .ok b → Ag k (fun x : σ × α => S x.1 ∧ M x.1 x.2 b) (fun x => M' x.1) (fun x => D' x.1 x.2) (r' b)) :
    Ag k S M' (fun s n => D s n >>= fun a => D' s a n) (r >>= r') := by
  refine ⟨fun s hs n hn => ?_, fun hr => ?_⟩
  · rcases h.low s hs n hn with e | e
    · rw [e]; exact .inl rfl
    · generalize D s n = x at e
      cases x with
      | stuck => exact .inr trivial
      | err e' =>
        cases r with
        | ok b => cases e
        | err => exact .inr e
        | deep => cases e
        | odd => exact .inr trivial
      | ok a =>
        cases r with
        | ok b => exact (h' b rfl).low (s, a) ⟨hs, e⟩ n hn
        | err => cases e
        | deep => cases e
        | odd => exact .inr (Hit.odd _)
  · cases r with
    | deep => exact absurd rfl hr
    | odd => exact ⟨0, fun s hs n hn => Hit.odd _⟩
    | err e =>
      obtain ⟨K, hK⟩ := h.high (by nofun)
      refine ⟨K, fun s hs n hn => ?_⟩
      have := hK s hs n hn
      generalize D s n = x at this
      cases x with
      | stuck => trivial
      | err => exact this
      | ok => cases this
    | ok b =>
      obtain ⟨K, hK⟩ := h.high (by nofun)
      obtain ⟨K', hK'⟩ := (h' b rfl).high hr
      refine ⟨max K K', fun s hs n hn => ?_⟩
      have := hK s hs n (by omega)
      generalize D s n = x at this
      cases x with
      | stuck => trivial
      | err => cases this
      | ok a => exact hK' (s, a) ⟨hs, this⟩ n (by omega)

/-- Then something that does not depend on the limit. -/
theorem Ag.then {M : σ → α → β → Prop} {M' : σ → γ → δ → Prop} {D : σ → Nat → Out α} {f : σ → α → Out γ} {r : Parsed β} {g : β → Parsed δ}
    (h : Ag k S M D r) (hf : ∀ s, S s → ∀ a b, M s a b → Hit (M' s) (f s a) (g b)) :
    Ag k S M' (fun s n => D s n >>= f s) (r >>= g) :=
  h.bind fun b _ => .const fun x hx => hf x.1 hx.1 x.2 b hx.2

end Verif
