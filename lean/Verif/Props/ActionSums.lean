import Verif.Proofs.ActionSums
import Verif.Props.StructActions
/-
C35: what the sum of two struct serializers is when one of them has actions, for every pair of byte orders and for formats
that meet in the same code.
-/
namespace Verif
open Spec

/-- The first item of `b` alone, with the actions of its values. -/
def Spec.firstOnly (b : StructSer) (es : List Char) (ch : Char) : StructSer :=
  ⟨b.byteOrder.value ++ (es ++ [ch]),
    b.actions.map (List.take (StructSer.numValues ⟨b.byteOrder.value ++ (es ++ [ch]), none⟩))⟩

/-- **C35** (byte orders).  When one of the operands has actions, the byte order of the right one is not looked at. -/
theorem C35_order (a b b' : StructSer) (hact : a.actions ≠ none ∨ b.actions ≠ none) (hf : b'.baseFormat = b.baseFormat)
    (hb : b'.actions = b.actions) : a.add b' = a.add b := by
  unfold StructSer.add
  rw [hf, hb]
  cases haa : a.actions with
  | some _ => cases b.actions <;> rfl
  | none =>
    cases hba : b.actions with
    | some _ => rfl
    | none => simp [haa, hba] at hact

/-- **C35** (merging, whatever the byte orders).  `C35_add_partial` without the assumption that the byte orders agree: the sum is
in the byte order of the left operand. -/
theorem C35_add_orders_partial (a b : StructSer) (ha : a.Valid) (hb : b.Valid)
    (hp : (parse a.byteOrder.isNative b.baseFormat).isSome) (hact : a.actions ≠ none ∨ b.actions ≠ none)
    (hseam : SingleItem b.baseFormat ∨ lastCode a.toks ≠ firstCode b.toks ∨
      (∃ c, lastCode a.toks = some c ∧ c.isString = true)) :
    ∃ c, a.add b = .ok c ∧ c.Valid ∧ c.byteOrder = a.byteOrder ∧
      (∀ P vs, c.pack P vs = (concat a b).pack P vs) ∧ c.size = (concat a b).size ∧
      (∀ P, (∀ buf, c.unpack P buf = (concat a b).unpack P buf >>= applyBoth a b) ∧
        (∀ buf off, c.unpackFrom P buf off = (concat a b).unpackFrom P buf off >>= applyBoth a b) ∧
        (∀ d, c.unpackRead P d = (concat a b).unpackRead P d >>= applyBoth a b)) := by
  obtain ⟨t, ht⟩ := Option.isSome_iff_exists.1 hp
  have htt : t = b.toks := parse_two_modes ht (StructSer.parse_base hb.fmt)
  obtain ⟨f1, f2, f3, f4⟩ := StructSer.of_parse (a := b.actions) ht
  have hv : StructSer.Valid ⟨a.byteOrder.value ++ b.baseFormat, b.actions⟩ := by
    refine ⟨f1, ?_⟩
    intro as has
    rw [hb.acts as has]
    simp only [StructSer.numValues, f4, htt]
  have e1 : concat a ⟨a.byteOrder.value ++ b.baseFormat, b.actions⟩ = concat a b := by
    unfold concat; rw [f3]
  have e2 : applyBoth a ⟨a.byteOrder.value ++ b.baseFormat, b.actions⟩ = applyBoth a b := rfl
  have := C35_add_partial a ⟨a.byteOrder.value ++ b.baseFormat, b.actions⟩ ha hv f2.symm hact
    (by rw [f3, f4, htt]; exact hseam)
  rw [e1, e2, C35_order a b _ hact f3 rfl] at this
  exact this

/-- **C35** (formats that meet).  When the formats meet in the same code, everything in the right operand behind its first item
is lost, and so are the actions of these values: the sum works like the sum with the first item of the right operand alone. -/
theorem C35_result (a b : StructSer) (ha : a.Valid) (hb : b.Valid) (hbo : a.byteOrder = b.byteOrder)
    (hact : a.actions ≠ none ∨ b.actions ≠ none) (es : List Char) (ch : Char) (rest : List Char) (hm : Meets a b es ch rest) :
    ∃ c, a.add b = .ok c ∧ c.byteOrder = a.byteOrder ∧
      (∀ P vs, c.pack P vs = (concat a (firstOnly b es ch)).pack P vs) ∧ c.size = (concat a (firstOnly b es ch)).size ∧
      (∀ P, (∀ buf, c.unpack P buf = (concat a (firstOnly b es ch)).unpack P buf >>= applyBoth a (firstOnly b es ch)) ∧
        (∀ buf off, c.unpackFrom P buf off =
          (concat a (firstOnly b es ch)).unpackFrom P buf off >>= applyBoth a (firstOnly b es ch)) ∧
        (∀ d, c.unpackRead P d = (concat a (firstOnly b es ch)).unpackRead P d >>= applyBoth a (firstOnly b es ch))) := by
  have h1 := StructSer.parse_base ha.fmt
  have h2 := StructSer.parse_base hb.fmt
  obtain ⟨m1, m2, m3, m4, m5, m6⟩ := id hm
  obtain ⟨c0, hc0⟩ := Option.isSome_iff_exists.1 m4
  have hpb := parse_item b.byteOrder.isNative es m3 ch c0 hc0 rest
  rw [← m2, h2] at hpb
  have hno : ¬ (c0.nativeOnly ∧ b.byteOrder.isNative = false) := by
    intro hn; rw [if_pos hn] at hpb; cases hpb
  rw [if_neg hno] at hpb
  have hp2 := parse_item b.byteOrder.isNative es m3 ch c0 hc0 []
  rw [if_neg hno] at hp2
  have hp2 : parse b.byteOrder.isNative (es ++ [ch]) = some [⟨countVal es, c0⟩] := hp2
  obtain ⟨o1, o2, o3, o4⟩ := StructSer.of_parse (a := b.actions.map (List.take (StructSer.numValues ⟨b.byteOrder.value ++ (es ++ [ch]), none⟩))) hp2
  have o1 : StructSer.formatOk (firstOnly b es ch).format = true := o1
  have o2 : (firstOnly b es ch).byteOrder = b.byteOrder := o2
  have o3 : (firstOnly b es ch).baseFormat = es ++ [ch] := o3
  have o4 : (firstOnly b es ch).toks = [⟨countVal es, c0⟩] := o4
  have hn1 : (firstOnly b es ch).numValues ≤ b.numValues := by
    obtain ⟨tr, htr, htb⟩ := Option.map_eq_some_iff.1 hpb.symm
    simp only [StructSer.numValues, o4, ← htb]
    simp [numVals]
  have hact1 : ∀ bs, b.actions = some bs → (firstOnly b es ch).actions = some (bs.take (firstOnly b es ch).numValues) := by
    intro bs h
    show b.actions.map _ = _
    rw [h]; rfl
  have hv : (firstOnly b es ch).Valid := by
    refine ⟨o1, fun as has => ?_⟩
    cases hba : b.actions with
    | none => rw [show (firstOnly b es ch).actions = b.actions.map _ from rfl, hba] at has; cases has
    | some bs =>
      rw [hact1 bs hba] at has
      cases has
      have := hb.acts bs hba
      simp; omega
  have hact' : a.actions ≠ none ∨ (firstOnly b es ch).actions ≠ none := by
    rcases hact with h | h
    · exact .inl h
    · cases hba : b.actions with
      | none => exact absurd hba h
      | some bs => exact .inr (by rw [hact1 bs hba]; simp)
  obtain ⟨c1, hc1, hv1, hbo1, hpk, hsz, hun⟩ := C35_add_partial a (firstOnly b es ch) ha hv (hbo.trans o2.symm) hact'
    (.inl ⟨es, ch, o3, m3, m4⟩)
  have hf := (foldOverlaps_first a.baseFormat m3 m4 rest m1 m5 m6).1
  rw [← m2, ← o3] at hf
  have h2' := StructSer.parse_base hv.fmt
  rw [o2, ← hbo] at h2'
  obtain ⟨t, ht, hagree⟩ := foldOverlaps_agree h1 h2' (.inl ⟨es, ch, o3, m3, m4⟩)
  have hnum : numVals t = a.numValues + (firstOnly b es ch).numValues := by
    rw [hagree.vals, numVals_append]; rfl
  suffices h : ∃ c, a.add b = .ok c ∧ c.format = c1.format ∧
      ∀ vs : List Val, vs.length = c.numValues → c.applyActions vs = c1.applyActions vs by
    obtain ⟨c, hc, hcf, hca⟩ := h
    have same := fun P => ActionSums.same_unpack P hcf hca
    refine ⟨c, hc, ?_, ?_, ?_, ?_⟩
    · rw [← hbo1]
      exact congrArg (fun f => StructSer.byteOrder ⟨f, none⟩) hcf
    · intro P vs; rw [(same P).1, hpk]
    · rw [← hsz]
      exact congrArg (fun f => StructSer.size ⟨f, none⟩) hcf
    · intro P
      obtain ⟨_, _, s3, s4, s5⟩ := same P
      exact ⟨fun buf => (s3 buf).trans ((hun P).1 buf), fun buf off => (s4 buf off).trans ((hun P).2.1 buf off),
        fun d => (s5 d).trans ((hun P).2.2 d)⟩
  cases hba : b.actions with
  | none =>
    refine ⟨c1, ?_, rfl, fun _ _ => rfl⟩
    rw [← hc1]
    have : (firstOnly b es ch).actions = none := by
      rw [show (firstOnly b es ch).actions = b.actions.map _ from rfl, hba]; rfl
    unfold StructSer.add
    rw [hf, hba, this]
    cases haa : a.actions with
    | none => simp [haa, hba] at hact
    | some as => rfl
  | some bs =>
    have hbl := hb.acts bs hba
    have hcut := List.take_append_drop (firstOnly b es ch).numValues bs
    have fin : ∀ pre : List Action, pre.length = a.numValues →
        StructSer.mkActions (foldOverlaps false a.baseFormat (firstOnly b es ch).baseFormat) a.byteOrder
          (pre ++ bs.take (firstOnly b es ch).numValues) = .ok c1 →
        ∃ c, StructSer.mkActions (foldOverlaps false a.baseFormat (firstOnly b es ch).baseFormat) a.byteOrder (pre ++ bs) = .ok c ∧
          c.format = c1.format ∧ ∀ vs : List Val, vs.length = c.numValues → c.applyActions vs = c1.applyActions vs := by
      intro pre hpre hk
      have hl : (pre ++ bs.take (firstOnly b es ch).numValues).length = numVals t := by
        simp only [List.length_append, List.length_take, hpre, hnum]; omega
      obtain ⟨k1, k2⟩ := ActionSums.mkActions_more (bs.drop (firstOnly b es ch).numValues) ht hl
      rw [List.append_assoc, hcut] at k1
      rw [k2] at hk
      cases hk
      refine ⟨_, k1, rfl, fun vs hvs => ?_⟩
      show StructSer.runActions (pre ++ bs) vs = StructSer.runActions _ vs
      conv => lhs; rw [← hcut, ← List.append_assoc]
      refine ActionSums.runActions_more _ _ vs ?_
      have := (StructSer.of_parse (a := some (pre ++ bs)) ht).2.2.2
      rw [hvs, hl]
      exact Nat.le_of_eq (congrArg numVals this)
    have hadd := hc1
    unfold StructSer.add at hadd ⊢
    rw [hact1 bs hba] at hadd
    rw [hf, hba]
    cases haa : a.actions with
    | none =>
      rw [haa] at hadd
      exact fin _ (by simp) hadd
    | some as =>
      rw [haa] at hadd
      exact fin _ (ha.acts as haa) hadd

/-- `uint16` next to a serializer `'<HI'` with two actions: the formats meet, and the `I` and its action are lost. -/
example (f g : Action) :
    Meets ⟨"<H".toList, none⟩ ⟨"<HI".toList, some [f, g]⟩ [] 'H' ['I'] ∧
    (⟨"<H".toList, none⟩ : StructSer).Valid ∧ (⟨"<HI".toList, some [f, g]⟩ : StructSer).Valid ∧
    StructSer.numValues (firstOnly ⟨"<HI".toList, some [f, g]⟩ [] 'H') = 1 ∧
    (firstOnly ⟨"<HI".toList, some [f, g]⟩ [] 'H').actions = some [f] :=
  ⟨⟨⟨[], by rfl⟩, by rfl, by decide, by decide, by decide, by decide⟩, ⟨by decide, by simp⟩,
   ⟨by rfl, by intro as h; cases h; rfl⟩, by rfl, by rfl⟩

/-- The full statement (for every pair of formats) is false: `'<H' + '<HI'` with an action on the last value has one value less. -/
theorem C35_items_is_false (f g : Action) :
    ∃ c, StructSer.add ⟨"<H".toList, none⟩ ⟨"<HI".toList, some [f, g]⟩ = .ok c ∧ c.numValues = 2 ∧
      (concat ⟨"<H".toList, none⟩ ⟨"<HI".toList, some [f, g]⟩).numValues = 3 := by
  refine ⟨⟨"<2H".toList, some [noopAction, f, g]⟩, ?_, by rfl, by rfl⟩
  have h1 : foldOverlaps false (StructSer.baseFormat ⟨"<H".toList, none⟩)
      (StructSer.baseFormat ⟨"<HI".toList, some [f, g]⟩) = "2H".toList := by
    rw [show StructSer.baseFormat ⟨"<HI".toList, some [f, g]⟩ = "HI".toList from rfl]; decide
  have h2 : StructSer.byteOrder ⟨"<H".toList, none⟩ = .le := by decide
  have h3 : StructSer.numValues ⟨"<H".toList, none⟩ = 1 := by decide
  have h4 : StructSer.formatOk ("<".toList ++ "2H".toList) = true := by decide
  have h5 : StructSer.numValues ⟨"<".toList ++ "2H".toList, none⟩ = 2 := by decide
  simp only [StructSer.add, StructSer.mkActions, h1, h2, h3]
  rw [show ByteOrder.value .le = "<".toList from rfl, if_pos h4, if_neg (by rw [h5]; simp)]
  rfl

/-- A big endian serializer with an action behind a little endian one meets the assumptions of `C35_add_orders_partial`. -/
example (f : Action) : (⟨">I".toList, some [f]⟩ : StructSer).Valid ∧
    (parse (StructSer.byteOrder ⟨"<H".toList, none⟩).isNative (StructSer.baseFormat ⟨">I".toList, some [f]⟩)).isSome ∧
    SingleItem (StructSer.baseFormat ⟨">I".toList, some [f]⟩) :=
  ⟨⟨by rfl, by intro as h; cases h; rfl⟩, by rfl, ⟨[], 'I', by rfl, by decide, by decide⟩⟩

end Verif
