import Verif.Proofs.Reorder
import Verif.Props.StructActions
/-
C81: changing the byte order before or after adding and repeating makes no difference.
-/
namespace Verif
open Spec Reorder

/-- **C81** (adding).  For all struct serializers that can be added, with and without actions, and every byte order in which both
formats are allowed: the sum with another byte order is the sum of the operands with this byte order, the same serializer to the
letter. -/
theorem C81_add (a b c : StructSer) (bo : ByteOrder) (ha : a.Valid)
    (hpa : (parse bo.isNative a.baseFormat).isSome) (hpb : (parse bo.isNative b.baseFormat).isSome)
    (hpb' : (parse a.byteOrder.isNative b.baseFormat).isSome) (hc : a.add b = .ok c) :
    ∃ a' b' c', a.withByteOrder bo = .ok a' ∧ b.withByteOrder bo = .ok b' ∧ a'.add b' = .ok c' ∧ c.withByteOrder bo = .ok c' := by
  obtain ⟨ta, hta⟩ := Option.isSome_iff_exists.1 hpa
  obtain ⟨tb, htb⟩ := Option.isSome_iff_exists.1 hpb
  obtain ⟨tb', htb'⟩ := Option.isSome_iff_exists.1 hpb'
  have h1 := StructSer.parse_base ha.fmt
  obtain ⟨t, ht⟩ := fold_parses hta htb
  obtain ⟨u, hu⟩ := fold_parses h1 htb'
  have htu : t = u := parse_two_modes ht hu
  subst htu
  obtain ⟨_, a2, a3, a4⟩ := StructSer.of_parse (a := a.actions) hta
  obtain ⟨_, b2, b3, _⟩ := StructSer.of_parse (a := b.actions) htb
  have hna : StructSer.numValues ⟨bo.value ++ a.baseFormat, a.actions⟩ = a.numValues := by
    simp only [StructSer.numValues, a4, parse_two_modes hta h1]
  have fin : ∀ acts : Option (List Action), c = ⟨a.byteOrder.value ++ foldOverlaps false a.baseFormat b.baseFormat, acts⟩ →
      c.withByteOrder bo = .ok ⟨bo.value ++ foldOverlaps false a.baseFormat b.baseFormat, acts⟩ := by
    rintro acts rfl
    obtain ⟨_, _, c3, _⟩ := StructSer.of_parse (a := acts) hu
    have := wbo_ok (s := ⟨a.byteOrder.value ++ foldOverlaps false a.baseFormat b.baseFormat, acts⟩) (bo := bo) (t := t)
      (by rw [c3]; exact ht)
    rw [c3] at this
    exact this
  refine ⟨⟨bo.value ++ a.baseFormat, a.actions⟩, ⟨bo.value ++ b.baseFormat, b.actions⟩, ?_⟩
  suffices h : ∃ acts, c = ⟨a.byteOrder.value ++ foldOverlaps false a.baseFormat b.baseFormat, acts⟩ ∧
      StructSer.add ⟨bo.value ++ a.baseFormat, a.actions⟩ ⟨bo.value ++ b.baseFormat, b.actions⟩ =
        .ok ⟨bo.value ++ foldOverlaps false a.baseFormat b.baseFormat, acts⟩ by
    obtain ⟨acts, e1, e2⟩ := h
    exact ⟨_, wbo_ok hta, wbo_ok htb, e2, fin acts e1⟩
  unfold StructSer.add at hc ⊢
  rw [a2, b2, a3, b3, hna]
  cases haa : a.actions with
  | none =>
    cases hba : b.actions with
    | none =>
      rw [haa, hba] at hc
      dsimp only at hc ⊢
      split at hc
      · rw [StructSer.mkPlain_ok hu] at hc
        cases hc
        exact ⟨none, rfl, by rw [if_pos rfl, StructSer.mkPlain_ok ht]⟩
      · cases hc
    | some bs =>
      rw [haa, hba] at hc
      dsimp only at hc ⊢
      rw [mkActions_any _ hu] at hc
      cases hc
      exact ⟨_, rfl, mkActions_any _ ht⟩
  | some as =>
    cases hba : b.actions with
    | none =>
      rw [haa, hba] at hc
      dsimp only at hc ⊢
      rw [mkActions_any _ hu] at hc
      cases hc
      exact ⟨_, rfl, mkActions_any _ ht⟩
    | some bs =>
      rw [haa, hba] at hc
      dsimp only at hc ⊢
      rw [mkActions_any _ hu] at hc
      cases hc
      exact ⟨_, rfl, mkActions_any _ ht⟩

/-- **C81** (repeating).  For every valid struct serializer, count and byte order in which its format is allowed: repeating and
then changing the byte order gives the same serializer as changing the byte order and then repeating. -/
theorem C81_mul (a : StructSer) (n : Nat) (bo : ByteOrder) (ha : a.Valid) (hpa : (parse bo.isNative a.baseFormat).isSome) :
    ∃ a' c c', a.withByteOrder bo = .ok a' ∧ a.mul (n + 1 : Nat) = .ok (some c) ∧ a'.mul (n + 1 : Nat) = .ok (some c') ∧
      c.withByteOrder bo = .ok c' := by
  obtain ⟨ta, hta⟩ := Option.isSome_iff_exists.1 hpa
  have h1 := StructSer.parse_base ha.fmt
  obtain ⟨t, ht⟩ := folds_parse hta n hta
  obtain ⟨u, hu⟩ := folds_parse h1 n h1
  have key : ∀ (s : StructSer) (w : List Tok), s.baseFormat = a.baseFormat → s.actions = a.actions →
      parse s.byteOrder.isNative ((List.replicate n a.baseFormat).foldl (foldOverlaps false) a.baseFormat) = some w →
      s.mul (n + 1 : Nat) = .ok (some ⟨s.byteOrder.value ++ (List.replicate n a.baseFormat).foldl (foldOverlaps false) a.baseFormat,
        a.actions.map fun as => (List.replicate (n + 1) as).flatten⟩) := by
    intro s w hb hact hp
    by_cases hn : n = 0
    · subst hn
      simp only [List.replicate_zero, List.foldl_nil]
      rw [← hb, ← StructSer.format_eq]
      cases ha : a.actions <;> simp [StructSer.mul, StructSer.mulImpl, hact, ha, bind, Except.bind]
      rw [← ha, ← hact]
    · have hpos : ¬ ((n + 1 : Nat) : Int) = 0 ∧ ¬ ((n + 1 : Nat) : Int) < 0 ∧ ¬ ((n + 1 : Nat) : Int) = 1 := by omega
      have hto : ((n + 1 : Nat) : Int).toNat = n + 1 := by omega
      cases ha : a.actions with
      | none =>
        simp only [StructSer.mul, StructSer.mulImpl, hpos, ↓reduceIte, StructSer.remake, hact, ha, hb,
          StructSer.mkPlain_ok hp, bind, Except.bind, hto, Nat.add_sub_cancel]
        rfl
      | some as =>
        simp only [StructSer.mul, StructSer.mulImpl, hpos, ↓reduceIte, StructSer.remake, hact, ha, hb,
          StructSer.mkActions_ok (as := []) hp (by simp), bind, Except.bind, hto, Nat.add_sub_cancel]
        rfl
  obtain ⟨_, a2, a3, _⟩ := StructSer.of_parse (a := a.actions) hta
  have k1 := key a u rfl rfl hu
  have k2 := key ⟨bo.value ++ a.baseFormat, a.actions⟩ t a3 rfl (by rw [a2]; exact ht)
  rw [a2] at k2
  refine ⟨_, _, _, wbo_ok hta, k1, k2, ?_⟩
  obtain ⟨_, _, c3, _⟩ := StructSer.of_parse (a := a.actions.map fun as => (List.replicate (n + 1) as).flatten) hu
  have := wbo_ok (bo := bo) (t := t) (s := ⟨a.byteOrder.value ++ (List.replicate n a.baseFormat).foldl (foldOverlaps false) a.baseFormat,
    a.actions.map fun as => (List.replicate (n + 1) as).flatten⟩) (by rw [c3]; exact ht)
  rw [c3] at this
  exact this

/-- Little endian `'<H'` and `'<HI'` in big endian byte order: both orders of doing it give `'>2H'` (`C09_full_is_false` says
what is wrong with it). -/
example : StructSer.add ⟨"<H".toList, none⟩ ⟨"<HI".toList, none⟩ = .ok ⟨"<2H".toList, none⟩ ∧
    StructSer.withByteOrder ⟨"<2H".toList, none⟩ .be = .ok ⟨">2H".toList, none⟩ ∧
    StructSer.withByteOrder ⟨"<HI".toList, none⟩ .be = .ok ⟨">HI".toList, none⟩ ∧
    StructSer.add ⟨">H".toList, none⟩ ⟨">HI".toList, none⟩ = .ok ⟨">2H".toList, none⟩ ∧
    StructSer.mul ⟨">H".toList, none⟩ 3 = .ok (some ⟨">3H".toList, none⟩) ∧
    (parse (ByteOrder.isNative .be) (StructSer.baseFormat ⟨"<HI".toList, none⟩)).isSome :=
  ⟨by rfl, by rfl, by rfl, by rfl, by rfl, by rfl⟩

end Verif
