import Verif.Proofs.Repeats
import Verif.Props.StructFormats
/-
C80: `*` and `@` obey the laws of arithmetic: `s * m + s * n` is `s * (m + n)`, `s * m * n` is `s * (m * n)`.
-/
namespace Verif
open Spec Repeats

/-- C80 in full, for `+`. -/
def C80_Full : Prop := ∀ (a : StructSer) (m n : Nat), a.Valid → 0 < m → 0 < n →
  ∃ x y c d, a.mul m = .ok (some x) ∧ a.mul n = .ok (some y) ∧ x.add y = .ok c ∧ a.mul (m + n : Nat) = .ok (some d) ∧ SameStruct c d

/-- **C80, partial** (adding).  For a serializer with or without actions whose format is one item, or ends with another code
than it starts with, or ends with a string: `s * m + s * n` cannot be told from `s * (m + n)`. -/
theorem C80_add_partial (a : StructSer) (m n : Nat) (ha : a.Valid) (hm : 0 < m) (hn : 0 < n)
    (hs : SingleItem a.baseFormat ∨ lastCode a.toks ≠ firstCode a.toks ∨
      (∃ c, lastCode a.toks = some c ∧ c.isString = true)) :
    ∃ x y c d, a.mul m = .ok (some x) ∧ a.mul n = .ok (some y) ∧ x.add y = .ok c ∧ a.mul (m + n : Nat) = .ok (some d) ∧
      SameStruct c d := by
  obtain ⟨m, rfl⟩ : ∃ k, m = k + 1 := ⟨m - 1, by omega⟩
  obtain ⟨n, rfl⟩ : ∃ k, n = k + 1 := ⟨n - 1, by omega⟩
  obtain ⟨x, hx, vx, bx, ax, tx, sx⟩ := mul_shape ha m hs
  obtain ⟨y, hy, vy, by_, ay, ty, sy⟩ := mul_shape ha n hs
  obtain ⟨d, hd, _, bd, ad, td, _⟩ := mul_shape ha (m + 1 + n) hs
  have seam : Seam y.baseFormat x.toks y.toks := by
    rcases sx with ⟨h1, _⟩ | ⟨h1, h2⟩ <;> rcases sy with ⟨h3, h4⟩ | ⟨h3, h4⟩
    · exact .inl h4
    · exact absurd h3 h1
    · exact absurd h1 h3
    · have hne := ne_nil h1
      refine .inr ?_
      rw [h2, h4, last_rep hne, first_rep hne]
      exact h1
  obtain ⟨c, hc, bc, tc, ac⟩ := add_shape vx vy (bx.trans by_.symm) (by rw [ax, ay]; simp) seam
  refine ⟨x, y, c, d, hx, hy, hc, hd, sameStruct (by rw [bc, bx, bd]) ?_ ?_⟩
  · refine (tc.trans (tx.append ty)).trans ?_
    rw [rep_add]
    exact td.symm
  · rw [ac, ad, ax, ay]
    cases a.actions with
    | none => rfl
    | some as =>
      show some (rep (m + 1) as ++ rep (n + 1) as) = some (rep (m + 1 + n + 1) as)
      rw [rep_add]; rfl

/-- **C80** (adding nothing).  `s * 0` is the serializer of nothing: adding it changes nothing, and repeating once neither. -/
theorem C80_zero (a : StructSer) : a.mul 0 = .ok none ∧ a.addN none = .ok a ∧ a.mul 1 = .ok (some a) := by
  refine ⟨rfl, rfl, ?_⟩
  obtain ⟨f, as⟩ := a
  cases as with
  | none => rfl
  | some as => simp [StructSer.mul, StructSer.mulImpl, bind, Except.bind]

/-- **C80, partial** (repeating again).  `s * m * n` cannot be told from `s * (m * n)`. -/
theorem C80_mul_partial (a : StructSer) (m n : Nat) (ha : a.Valid) (hm : 0 < m) (hn : 0 < n)
    (hs : SingleItem a.baseFormat ∨ lastCode a.toks ≠ firstCode a.toks ∨
      (∃ c, lastCode a.toks = some c ∧ c.isString = true)) :
    ∃ x c d, a.mul m = .ok (some x) ∧ x.mul n = .ok (some c) ∧ a.mul (m * n : Nat) = .ok (some d) ∧ SameStruct c d := by
  obtain ⟨m, rfl⟩ : ∃ k, m = k + 1 := ⟨m - 1, by omega⟩
  obtain ⟨n, rfl⟩ : ∃ k, n = k + 1 := ⟨n - 1, by omega⟩
  obtain ⟨x, hx, vx, bx, ax, tx, sx⟩ := mul_shape ha m hs
  have hs' : SingleItem x.baseFormat ∨ NoMerge x.toks := by
    rcases sx with ⟨_, h⟩ | ⟨h1, h2⟩
    · exact .inl h
    · exact .inr (by rw [h2]; exact noMerge_rep h1 m)
  obtain ⟨c, hc, _, bc, ac, tc, _⟩ := mul_shape vx n hs'
  obtain ⟨k, hk⟩ : ∃ k, (m + 1) * (n + 1) = k + 1 := ⟨m * n + m + n, by rw [Nat.add_mul, Nat.mul_add]; omega⟩
  obtain ⟨d, hd, _, bd, ad, td, _⟩ := mul_shape ha k hs
  rw [← hk] at hd ad td
  refine ⟨x, c, d, hx, hc, hd, sameStruct (by rw [bc, bx, bd]) ?_ ?_⟩
  · refine (tc.trans (agree_rep tx (n + 1))).trans ?_
    rw [rep_rep]
    exact td.symm
  · rw [ac, ad, ax]
    cases a.actions with
    | none => rfl
    | some as =>
      show some (rep (n + 1) (rep (m + 1) as)) = some (rep ((m + 1) * (n + 1)) as)
      rw [rep_rep]

/-- **C80** (`@`).  For one item without actions `s @ m @ n` cannot be told from `s @ (m * n)`. -/
theorem C80_matmul (a : StructSer) (m n : Nat) (ha : a.Valid) (hpa : a.actions = none) (hm : 0 < m) (hn : 0 < n)
    (hs : SingleItem a.baseFormat) :
    ∃ x c d, a.matmul m = .ok (some x) ∧ x.matmul n = .ok (some c) ∧ a.matmul (m * n : Nat) = .ok (some d) ∧ SameStruct c d := by
  obtain ⟨m, rfl⟩ : ∃ k, m = k + 1 := ⟨m - 1, by omega⟩
  obtain ⟨n, rfl⟩ : ∃ k, n = k + 1 := ⟨n - 1, by omega⟩
  obtain ⟨k, w, ht, x, hx, vx, ax, sx, tx, bx⟩ := matmul_shape m ha hpa hs
  obtain ⟨k', w', ht', c, hc, _, ac, _, tc, bc⟩ := matmul_shape n vx ax sx
  obtain ⟨j, hj⟩ : ∃ j, (m + 1) * (n + 1) = j + 1 := ⟨m * n + m + n, by rw [Nat.add_mul, Nat.mul_add]; omega⟩
  obtain ⟨k'', w'', ht'', d, hd, _, ad, _, td, bd⟩ := matmul_shape j ha hpa hs
  rw [← hj] at hd td
  rw [ht] at ht''
  rw [tx] at ht'
  cases ht'
  cases ht''
  refine ⟨x, c, d, hx, hc, hd, sameStruct (by rw [bc, bx, bd]) ?_ (by rw [ac, ad])⟩
  rw [tc, td, ← Nat.mul_assoc, Nat.mul_comm (n + 1) (m + 1)]
  exact .refl _

/-- `uint16 * 2 + uint16 * 3` is `'<5H'`, and so is `uint16 * 5`; `'<3s' * 2 * 2` is four strings. -/
example : (⟨"<H".toList, none⟩ : StructSer).Valid ∧ SingleItem (⟨"<H".toList, none⟩ : StructSer).baseFormat ∧
    StructSer.mul ⟨"<H".toList, none⟩ 2 = .ok (some ⟨"<2H".toList, none⟩) ∧
    StructSer.add ⟨"<2H".toList, none⟩ ⟨"<3H".toList, none⟩ = .ok ⟨"<5H".toList, none⟩ ∧
    StructSer.mul ⟨"<H".toList, none⟩ 5 = .ok (some ⟨"<5H".toList, none⟩) ∧
    StructSer.mul ⟨"<3s".toList, none⟩ 2 = .ok (some ⟨"<3s3s".toList, none⟩) ∧
    StructSer.mul ⟨"<3s3s".toList, none⟩ 2 = .ok (some ⟨"<3s3s3s3s".toList, none⟩) ∧
    StructSer.matmul ⟨"<3s".toList, none⟩ 2 = .ok (some ⟨"<6s".toList, none⟩) :=
  ⟨⟨by decide, by simp⟩, ⟨[], 'H', by rfl, by decide, by decide⟩, by rfl, by rfl, by rfl, by rfl, by rfl, by rfl⟩

/-- The full statement is false: `'hIh' * 1 + 'hIh' * 2` has three values, `'hIh' * 3` four. -/
theorem C80_full_is_false : ¬ C80_Full := by
  intro h
  obtain ⟨x, y, c, d, hx, hy, hc, hd, hs⟩ := h ⟨['h', 'I', 'h'], none⟩ 1 2 ⟨by decide, by simp⟩ (by decide) (by decide)
  have h1 : StructSer.mul ⟨['h', 'I', 'h'], none⟩ (1 : Nat) = .ok (some ⟨['h', 'I', 'h'], none⟩) := by rfl
  have h2 : StructSer.mul ⟨['h', 'I', 'h'], none⟩ (2 : Nat) = .ok (some ⟨['h', 'I', '2', 'h'], none⟩) := by rfl
  have h3 : StructSer.mul ⟨['h', 'I', 'h'], none⟩ (1 + 2 : Nat) = .ok (some ⟨['h', 'I', '3', 'h'], none⟩) := by rfl
  have h4 : StructSer.add ⟨['h', 'I', 'h'], none⟩ ⟨['h', 'I', '2', 'h'], none⟩ = .ok ⟨['h', 'I', '2', 'h'], none⟩ := by rfl
  rw [h1] at hx; cases hx
  rw [h2] at hy; cases hy
  rw [h3] at hd; cases hd
  rw [h4] at hc; cases hc
  have := hs.numValues
  revert this
  decide

/-- `@` with actions is out: repeating once keeps the action and repeating twice loses it, so `s @ 2` is not two times `s @ 1`. -/
theorem C80_matmul_forgets (f : Action) :
    StructSer.matmul ⟨"<H".toList, some [f]⟩ 1 = .ok (some ⟨"<H".toList, some [f]⟩) ∧
    StructSer.matmul ⟨"<H".toList, some [f]⟩ 2 = .ok (some ⟨"<2H".toList, some [noopAction, noopAction]⟩) := by
  refine ⟨rfl, ?_⟩
  have h1 : foldOverlaps true "H".toList "H".toList = "2H".toList := by decide
  have h4 : StructSer.formatOk ("<".toList ++ "2H".toList) = true := by decide
  have h5 : StructSer.numValues ⟨"<".toList ++ "2H".toList, none⟩ = 2 := by decide
  have h2 : StructSer.mkActions "2H".toList .le [] = .ok ⟨"<2H".toList, some [noopAction, noopAction]⟩ := by
    unfold StructSer.mkActions
    rw [show ByteOrder.value .le = "<".toList from rfl, if_pos h4]
    simp only [h5]
    rfl
  show (StructSer.mkActions (foldOverlaps true "H".toList "H".toList) .le [] >>= fun r => .ok (some r)) = _
  rw [h1, h2]
  rfl

end Verif
