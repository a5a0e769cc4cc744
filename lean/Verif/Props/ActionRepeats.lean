import Verif.Proofs.Reorder
import Verif.Props.StructActions
import Verif.Props.StructFormats
/-
C35: what a repeated serializer with actions is, for every format.
-/
namespace Verif
open Spec Reorder

/-- **C35** (repetition of every format).  `a * n` has the format that `*` gives without the actions (`C10_result` says which) and `n`
times the actions, which are applied from the first value on, also where the format has lost items. -/
theorem C35_mul_result (a : StructSer) (as : List Action) (n : Nat) (ha : a.Valid) (hact : a.actions = some as) :
    ∃ c d, a.mul (n + 1 : Nat) = .ok (some c) ∧ StructSer.mul ⟨a.format, none⟩ (n + 1 : Nat) = .ok (some d) ∧
      c.format = d.format ∧ c.actions = some (List.replicate (n + 1) as).flatten ∧
      (∀ P vs, c.pack P vs = d.pack P vs) ∧
      (∀ P buf, c.unpack P buf = d.unpack P buf >>= StructSer.runActions (List.replicate (n + 1) as).flatten) ∧
      (∀ P buf off, c.unpackFrom P buf off = d.unpackFrom P buf off >>= StructSer.runActions (List.replicate (n + 1) as).flatten) ∧
      (∀ P x, c.unpackRead P x = d.unpackRead P x >>= StructSer.runActions (List.replicate (n + 1) as).flatten) := by
  have h1 := StructSer.parse_base ha.fmt
  obtain ⟨u, hu⟩ := folds_parse h1 n h1
  have hf : a.format = a.byteOrder.value ++ a.baseFormat := StructSer.format_eq a
  have k1 : a.mul (n + 1 : Nat) = .ok (some ⟨a.byteOrder.value ++
      (List.replicate n a.baseFormat).foldl (foldOverlaps false) a.baseFormat, some (List.replicate (n + 1) as).flatten⟩) := by
    by_cases hn : n = 0
    · subst hn
      simp only [List.replicate_zero, List.foldl_nil]
      rw [← hf]
      simp [StructSer.mul, StructSer.mulImpl, hact, bind, Except.bind]
    · have hpos : ¬ ((n + 1 : Nat) : Int) = 0 ∧ ¬ ((n + 1 : Nat) : Int) < 0 ∧ ¬ ((n + 1 : Nat) : Int) = 1 := by omega
      have hto : ((n + 1 : Nat) : Int).toNat = n + 1 := by omega
      simp only [StructSer.mul, StructSer.mulImpl, hpos, ↓reduceIte, StructSer.remake, hact,
        StructSer.mkActions_ok (as := []) hu (by simp), bind, Except.bind, hto, Nat.add_sub_cancel]
  have k2 : StructSer.mul ⟨a.format, none⟩ (n + 1 : Nat) = .ok (some ⟨a.byteOrder.value ++
      (List.replicate n a.baseFormat).foldl (foldOverlaps false) a.baseFormat, none⟩) := by
    by_cases hn : n = 0
    · subst hn
      simp only [List.replicate_zero, List.foldl_nil]
      rw [← hf]
      simp [StructSer.mul, StructSer.mulImpl, bind, Except.bind]
    · have hpos : ¬ ((n + 1 : Nat) : Int) = 0 ∧ ¬ ((n + 1 : Nat) : Int) < 0 ∧ ¬ ((n + 1 : Nat) : Int) = 1 := by omega
      have hto : ((n + 1 : Nat) : Int).toNat = n + 1 := by omega
      have b1 : StructSer.byteOrder ⟨a.format, none⟩ = a.byteOrder := rfl
      have b2 : StructSer.baseFormat ⟨a.format, none⟩ = a.baseFormat := rfl
      simp only [StructSer.mul, StructSer.mulImpl, hpos, ↓reduceIte, StructSer.remake, b1, b2,
        StructSer.mkPlain_ok hu, bind, Except.bind, hto, Nat.add_sub_cancel]
  have key : ∀ r : Except Err (List Val), (r >>= StructSer.runActions (List.replicate (n + 1) as).flatten) =
      ((r >>= fun vs => .ok vs) >>= StructSer.runActions (List.replicate (n + 1) as).flatten) := by
    intro r; cases r <;> rfl
  refine ⟨_, _, k1, k2, rfl, rfl, fun _ _ => rfl, ?_, ?_, ?_⟩
  · intro P buf
    exact key (structUnpack P _ _ _)
  · intro P buf off
    exact key (structUnpackFrom P _ _ _ _)
  · intro P x
    exact key (structUnpack P _ _ _)

/-- So a format that loses items mixes up the actions: `'<BHB' * 3` with the actions `f`, `g`, `f` is `'<BH3B'`, and the last value,
a `B`, gets `g`, which is the action of the `H`. -/
theorem C35_mul_is_false (f g : Action) : ∃ c, StructSer.mul ⟨"<BHB".toList, some [f, g, f]⟩ 3 = .ok (some c) ∧
    c.format = "<BH3B".toList ∧ c.actions = some [f, g, f, f, g, f, f, g, f] ∧ c.numValues = 5 := by
  obtain ⟨c, d, h1, h2, h3, h4, _⟩ := C35_mul_result ⟨"<BHB".toList, some [f, g, f]⟩ [f, g, f] 2
    ⟨by rfl, by intro as h; cases h; rfl⟩ rfl
  have e : StructSer.mul ⟨"<BHB".toList, none⟩ ((2 + 1 : Nat) : Int) = .ok (some ⟨"<BH3B".toList, none⟩) := by rfl
  rw [e] at h2
  cases h2
  refine ⟨c, h1, h3, h4, ?_⟩
  obtain ⟨cf, ca⟩ := c
  cases h3
  rfl

end Verif
