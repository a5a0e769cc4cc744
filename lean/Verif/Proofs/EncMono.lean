import Verif.Proofs.FormatWrite
/-
What has been encoded stays the same with more nesting allowed.
-/
namespace Verif
open Spec Sem

variable {env : Env} {f g : Ser → Option PObj → List Val → Out Enc}

theorem encLoop_mono (h : ∀ s q vs e, f s q vs = .ok e → g s q vs = .ok e) {preF : Ser → Except Err (Ser × Option PObj)} {tch : Ser → List SerId} :
    ∀ (ss : List Ser) (vs : List Val) (e : Enc), encLoop f preF tch ss vs = .ok e → encLoop g preF tch ss vs = .ok e
  | [], _, _, h1 => h1
  | s :: ss, vs, e, h1 => by
    rw [encLoop] at h1 ⊢
    obtain ⟨⟨s', q⟩, h2, h1⟩ := Out.bind_ok' h1
    obtain ⟨a, h3, h1⟩ := Out.bind_ok' h1
    simp only [h2, Out.ok_bind, h _ _ _ _ h3]
    by_cases hs : s'.sized = true
    · simp only [hs, not_true_eq_false, if_false] at h1 ⊢
      obtain ⟨r, h4, h1⟩ := Out.bind_ok' h1
      rw [encLoop_mono h ss _ r h4, Out.ok_bind]
      exact h1
    · rw [if_pos hs] at h1
      cases h1

theorem encItems_mono (h : ∀ s q vs e, f s q vs = .ok e → g s q vs = .ok e) {item : Ser} {q : Option PObj} :
    ∀ (vs : List Val) (e : Enc), encItems f item q vs = .ok e → encItems g item q vs = .ok e
  | [], _, h1 => h1
  | v :: vs, e, h1 => by
    rw [encItems] at h1 ⊢
    obtain ⟨a, h3, h1⟩ := Out.bind_ok' h1
    rw [h _ _ _ _ h3, Out.ok_bind]
    by_cases hs : item.sized = true
    · simp only [hs, not_true_eq_false, if_false] at h1 ⊢
      by_cases hk : item.keeper.any (a.touched.contains ·) = true
      · rw [if_pos hk] at h1; cases h1
      · rw [if_neg hk] at h1 ⊢
        obtain ⟨r, h4, h1⟩ := Out.bind_ok' h1
        rw [encItems_mono h vs r h4, Out.ok_bind]
        exact h1
    · rw [if_pos hs] at h1
      cases h1

theorem encUnion_mono (h : ∀ s q vs e, f s q vs = .ok e → g s q vs = .ok e) {keys : List Val} {os : List Ser} {d : Ser} {p : PObj} {r : Val}
    {vs : List Val} {e : Enc} (h1 : encUnion f keys os d p r vs = .ok e) : encUnion g keys os d p r vs = .ok e := by
  unfold encUnion at h1 ⊢
  obtain ⟨s, h2, h1⟩ := Out.bind_ok' h1
  obtain ⟨⟨s', q⟩, h3, h1⟩ := Out.bind_ok' h1
  obtain ⟨a, h4, h1⟩ := Out.bind_ok' h1
  simp only [h2, Out.ok_bind, h3, h _ _ _ _ h4]
  exact h1

theorem encObj_mono (h : ∀ s q vs e, f s q vs = .ok e → g s q vs = .ok e) {v : Val} {e : Enc × Ser} (h1 : encObj env f v = .ok e) :
    encObj env g v = .ok e := by
  unfold encObj at h1 ⊢
  split at h1
  · obtain ⟨⟨ci, ser⟩, h2, h1⟩ := Out.bind_ok' h1
    obtain ⟨⟨s, q⟩, h3, h1⟩ := Out.bind_ok' h1
    obtain ⟨vals, h4, h1⟩ := Out.bind_ok' h1
    obtain ⟨r, h5, h1⟩ := Out.bind_ok' h1
    simp only [h2, h3, h4, Out.ok_bind, h _ _ _ _ h5]
    exact h1
  · cases h1

theorem enc_mono : ∀ (n : Nat) (s : Ser) (q : Option PObj) (vs : List Val) (e : Enc), enc env n s q vs = .ok e → enc env (n + 1) s q vs = .ok e
  | 0, _, _, _, _, h => by cases h
  | n + 1, s, q, vs, e, h => by
    have ih := enc_mono n
    cases s
    case unicode inner en de =>
      simp only [enc] at h
      obtain ⟨b, h1, h⟩ := Out.bind_ok' h
      rw [enc, h1, Out.ok_bind]
      exact ih _ _ _ _ h
    case array id hdr item sl =>
      cases q with
      | none => cases h
      | some p =>
        simp only [enc] at h
        obtain ⟨⟨i, qi⟩, h1, h⟩ := Out.bind_ok' h
        obtain ⟨v, h2, h⟩ := Out.bind_ok' h
        obtain ⟨items, h3, h⟩ := Out.bind_ok' h
        obtain ⟨r, h4, h⟩ := Out.bind_ok' h
        rw [enc]
        simp only [h1, h2, h3, Out.ok_bind, encItems_mono ih _ _ h4]
        exact h
    case tuple id inner =>
      match vs, q with
      | [], q => cases h
      | _ :: _ :: _, q => cases h
      | [v], none => cases h
      | [v], some p =>
        simp only [enc] at h
        obtain ⟨⟨i, qi⟩, h1, h⟩ := Out.bind_ok' h
        obtain ⟨vals, h2, h⟩ := Out.bind_ok' h
        obtain ⟨r, h4, h⟩ := Out.bind_ok' h
        rw [enc]
        simp only [h1, h2, Out.ok_bind, ih _ _ _ _ h4]
        exact h
    case lookback =>
      cases q with
      | none => cases h
      | some p =>
        simp only [enc] at h
        obtain ⟨r, h1, h⟩ := Out.bind_ok' h
        rw [enc]
        simp only [h1, Out.ok_bind]
        exact encUnion_mono ih h
    case lookahead =>
      cases q with
      | none => cases h
      | some p =>
        simp only [enc] at h
        obtain ⟨r, h1, h⟩ := Out.bind_ok' h
        rw [enc]
        simp only [h1, Out.ok_bind]
        exact encUnion_mono ih h
    case structured =>
      match vs with
      | [] => cases h
      | _ :: _ :: _ => cases h
      | [v] =>
        simp only [enc] at h
        obtain ⟨r, h1, h⟩ := Out.bind_ok' h
        rw [enc]
        simp only [encObj_mono ih h1, Out.ok_bind]
        exact h
    case compound => exact encLoop_mono ih _ _ _ h
    case specialized => exact encLoop_mono ih _ _ _ h
    all_goals exact h

theorem enc_more {n : Nat} {s : Ser} {q : Option PObj} {vs : List Val} {e : Enc} (h : enc env n s q vs = .ok e) (k : Nat) :
    enc env (n + k) s q vs = .ok e := by
  induction k with
  | zero => exact h
  | succ k ih => exact enc_mono _ _ _ _ _ ih

/-- What is written with enough nesting allowed is what is written. -/
theorem EncW.only {s : Ser} {q : Option PObj} {w : Val → Option Bytes} (h : EncW env s q w) {v : Val} {b : Bytes} (hv : w v = some b)
    {n : Nat} {e : Enc} (he : Sem.enc env n s q [v] = .ok e) : e.bytes = b := by
  obtain ⟨K, hK⟩ := h.enc v b hv
  have h1 := enc_more he K
  rcases hK (n + K) (by omega) with h2 | ⟨t, h2⟩
  · rw [h1] at h2; cases h2
  · rw [h1] at h2; cases h2; rfl

end Verif
