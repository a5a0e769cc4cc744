import Verif.Proofs.ActionLemmas
import Verif.Spec.Struct
/-
Lemmas for `Props/Reorder.lean`: what `fold_overlaps` makes of two formats can be parsed if both can.
-/
namespace Verif.Reorder
open Verif Verif.Spec

theorem fold_parses {nat : Bool} {f1 f2 : List Char} {t1 t2 : List Tok} (h1 : parse nat f1 = some t1)
    (h2 : parse nat f2 = some t2) : ∃ t, parse nat (foldOverlaps false f1 f2) = some t := by
  by_cases hm : ∃ es ch rest, (∃ p, f1 = p ++ [ch]) ∧ f2 = es ++ ch :: rest ∧ (∀ d ∈ es, d.isDigit = true) ∧
      isStructChar ch = true ∧ ch ≠ 's' ∧ ch ≠ 'p'
  · obtain ⟨es, ch, rest, m1, m2, m3, m4, m5, m6⟩ := hm
    obtain ⟨c0, hc0⟩ := Option.isSome_iff_exists.1 m4
    have hp := parse_item nat es m3 ch c0 hc0 rest
    rw [← m2, h2] at hp
    have hno : ¬ (c0.nativeOnly ∧ nat = false) := by
      intro hn; rw [if_pos hn] at hp; cases hp
    have hp2 := parse_item nat es m3 ch c0 hc0 []
    rw [if_neg hno] at hp2
    have hp2 : parse nat (es ++ [ch]) = some [⟨countVal es, c0⟩] := hp2
    rw [m2, (foldOverlaps_first f1 m3 m4 rest m1 m5 m6).1]
    obtain ⟨t, ht, _⟩ := foldOverlaps_agree h1 hp2 (.inl ⟨es, ch, rfl, m3, m4⟩)
    exact ⟨t, ht⟩
  · have hf : foldOverlaps false f1 f2 = f1 ++ f2 := by
      unfold foldOverlaps
      split
      · rename_i c2 o2 ep pre c1 o1 hstart hend
        rw [if_neg]
        rintro ⟨rfl, hns⟩
        simp only [Bool.false_eq_true, false_or, not_or] at hns
        obtain ⟨rest, e2, hd2, hs2, _⟩ := reStart_spec hstart
        obtain ⟨e1, _, _, _⟩ := reEnd_spec hend
        exact hm ⟨c2, o1, rest, ⟨_, e1⟩, e2, hd2, hs2, hns.1, hns.2⟩
      · rfl
    rw [hf, parse_append h1, h2]
    exact ⟨_, rfl⟩

theorem folds_parse {nat : Bool} {f : List Char} {t : List Tok} (h : parse nat f = some t) : ∀ (n : Nat) {g : List Char} {u : List Tok},
    parse nat g = some u → ∃ w, parse nat ((List.replicate n f).foldl (foldOverlaps false) g) = some w
  | 0, _, u, hg => ⟨u, hg⟩
  | n + 1, _, _, hg => by
    obtain ⟨_, hx⟩ := fold_parses hg h
    exact folds_parse h n hx

/-- `with_byte_order` when the format is one in the new byte order. -/
theorem wbo_ok {s : StructSer} {bo : ByteOrder} {t : List Tok} (h : parse bo.isNative s.baseFormat = some t) :
    s.withByteOrder bo = .ok ⟨bo.value ++ s.baseFormat, s.actions⟩ := by
  by_cases hbo : s.byteOrder = bo
  · subst hbo
    have : (⟨s.byteOrder.value ++ s.baseFormat, s.actions⟩ : StructSer) = s := by
      rw [← StructSer.format_eq]
    rw [this]
    simp [StructSer.withByteOrder]
  · simp only [StructSer.withByteOrder, hbo, ↓reduceIte, StructSer.remake, bind, Except.bind]
    cases hact : s.actions with
    | none => simp [StructSer.mkPlain_ok h]
    | some as => simp [StructSer.mkActions_ok (as := []) h (by simp)]

/-- The constructor of action serializers, whatever the number of actions. -/
theorem mkActions_any {f : List Char} {t : List Tok} {bo : ByteOrder} (as : List Action) (h : parse bo.isNative f = some t) :
    StructSer.mkActions f bo as
      = .ok ⟨bo.value ++ f, some (as ++ List.replicate (numVals t - as.length) noopAction)⟩ := by
  by_cases hl : as.length ≤ numVals t
  · exact StructSer.mkActions_ok h hl
  · have h1 := StructSer.of_parse (a := none) h
    dsimp only at h1
    simp only [StructSer.mkActions, h1.1, ↓reduceIte, StructSer.numValues, h1.2.2.2]
    rw [if_neg (by omega), show numVals t - as.length = 0 by omega]
    simp

end Verif.Reorder
