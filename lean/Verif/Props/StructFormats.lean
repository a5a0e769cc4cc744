import Verif.Proofs.ActionLemmas
import Verif.Spec.Struct
/-
C09 merging basic fields, C10 repeating basic types.
-/
namespace Verif
open Spec

/-- C09 in full: adding two plain struct serializers with the same byte order always gives the
concatenated format. -/
def C09_Full : Prop := ∀ a b : StructSer, a.Valid → b.Valid → a.actions = none → b.actions = none →
  a.byteOrder = b.byteOrder → ∃ c, a.add b = .ok c ∧ SameStruct c (concat a b)

/-- **C09, partial.**  Adding two valid plain struct serializers with the same byte order gives a
serializer indistinguishable from the concatenated format, whenever the right operand is a single
item (`[digits]code`; every field of a class is one), or the codes at the seam differ, or the code at
the seam is a string.  Missing: right operands with several items starting with the last code of the
left operand, where the property is false (`C09_full_is_false`). -/
theorem C09_add_partial (a b : StructSer) (ha : a.Valid) (hb : b.Valid) (hpa : a.actions = none)
    (hpb : b.actions = none) (hbo : a.byteOrder = b.byteOrder)
    (hseam : SingleItem b.baseFormat ∨ lastCode a.toks ≠ firstCode b.toks ∨
      (∃ c, lastCode a.toks = some c ∧ c.isString = true)) :
    ∃ c, a.add b = .ok c ∧ SameStruct c (concat a b) ∧ c.actions = none ∧ c.byteOrder = a.byteOrder := by
  have h1 := StructSer.parse_base ha.fmt
  have h2 := StructSer.parse_base hb.fmt
  rw [← hbo] at h2
  obtain ⟨t, ht, hagree⟩ := foldOverlaps_agree h1 h2 hseam
  have hcat : parse a.byteOrder.isNative (a.baseFormat ++ b.baseFormat) = some (a.toks ++ b.toks) := by
    rw [parse_append h1, h2]; rfl
  refine ⟨⟨a.byteOrder.value ++ foldOverlaps false a.baseFormat b.baseFormat, none⟩, ?_, ?_, rfl, ?_⟩
  · simp only [StructSer.add, hpa, hpb, hbo, ↓reduceIte]
    rw [← hbo]
    exact StructSer.mkPlain_ok ht
  · exact sameStruct_of ht hcat hagree
  · exact (StructSer.of_parse ht).2.1

/-- Different byte orders are rejected. -/
theorem C09_add_byte_order_conflict (a b : StructSer) (hpa : a.actions = none) (hpb : b.actions = none)
    (hbo : a.byteOrder ≠ b.byteOrder) : a.add b = .error .valueError := by
  simp [StructSer.add, hpa, hpb, hbo]

/-- `'<3h' + '<2h'` meets the hypotheses of `C09_add_partial` and is merged into `'<5h'`. -/
example : (⟨"<3h".toList, none⟩ : StructSer).Valid ∧ (⟨"<2h".toList, none⟩ : StructSer).Valid ∧
    SingleItem (⟨"<2h".toList, none⟩ : StructSer).baseFormat ∧
    StructSer.add ⟨"<3h".toList, none⟩ ⟨"<2h".toList, none⟩ = .ok ⟨"<5h".toList, none⟩ := by
  refine ⟨⟨by decide, by simp⟩, ⟨by decide, by simp⟩, ⟨['2'], 'h', by decide, by decide, by decide⟩, by rfl⟩

/-- The full statement of C09 is false: `StructSerializer('h') + StructSerializer('hI')` is
`StructSerializer('2h')`, the `I` is lost because the last group of `_re_start` is lazy. -/
theorem C09_full_is_false : ¬ C09_Full := by
  intro h
  obtain ⟨c, hc, hs⟩ := h ⟨['h'], none⟩ ⟨['h', 'I'], none⟩ ⟨by decide, by simp⟩ ⟨by decide, by simp⟩
    rfl rfl rfl
  have h1 : StructSer.add ⟨['h'], none⟩ ⟨['h', 'I'], none⟩ = .ok ⟨['2', 'h'], none⟩ := by rfl
  rw [h1] at hc
  cases hc
  have := hs.numValues
  revert this
  decide

/-! ### C10 -/

/-- C10 in full for `*`. -/
def C10_Full : Prop := ∀ (a : StructSer) (n : Nat), a.Valid → a.actions = none → 0 < n →
  ∃ c, a.mul n = .ok (some c) ∧ SameStruct c (repeated a n)

/-- **C10, partial** (`*`).  Repeating a plain struct serializer `n ≥ 1` times gives a serializer
indistinguishable from the format written `n` times, when the format is a single item (every basic
type is) or its last and first codes differ or are strings.  Missing: formats of several items whose
first and last codes are equal, where it is false (`C10_full_is_false`). -/
theorem C10_mul_partial (a : StructSer) (n : Nat) (ha : a.Valid) (hpa : a.actions = none) (hn : 0 < n)
    (hs : SingleItem a.baseFormat ∨ lastCode a.toks ≠ firstCode a.toks ∨
      (∃ c, lastCode a.toks = some c ∧ c.isString = true)) :
    ∃ c, a.mul n = .ok (some c) ∧ SameStruct c (repeated a n) := by
  obtain ⟨m, rfl⟩ : ∃ m, n = m + 1 := ⟨n - 1, by omega⟩
  have h1 := StructSer.parse_base ha.fmt
  have hrep := parse_rep h1 (m + 1)
  by_cases hm : m = 0
  · subst hm
    refine ⟨a, ?_, ?_⟩
    · simp [StructSer.mul, StructSer.mulImpl, hpa, bind, Except.bind]
    · have e1 : a = ⟨a.byteOrder.value ++ a.baseFormat, none⟩ := by
        rw [← StructSer.format_eq, ← hpa]
      have e2 : repeated a 1 = ⟨a.byteOrder.value ++ a.baseFormat, none⟩ := by
        simp [repeated]
      rw [e2]
      conv => arg 1; rw [e1]
      exact sameStruct_of h1 h1 (.refl _)
  · have hpos : ¬ ((m + 1 : Nat) : Int) = 0 ∧ ¬ ((m + 1 : Nat) : Int) < 0 ∧ ¬ ((m + 1 : Nat) : Int) = 1 := by
      omega
    have hto : ((m + 1 : Nat) : Int).toNat - 1 = m := by omega
    obtain ⟨f, t, hf, hp, hag⟩ := mul_format ha m hs
    refine ⟨⟨a.byteOrder.value ++ f, none⟩, ?_, ?_⟩
    · simp only [StructSer.mul, StructSer.mulImpl, hpos, ↓reduceIte, hto, StructSer.remake, hpa, hf,
        StructSer.mkPlain_ok hp, bind, Except.bind]
    · exact sameStruct_of hp hrep hag

/-- `st * 0` is the empty serializer, `st * 1` is `st`, negative counts raise `ValueError`. -/
theorem C10_mul_edge (a : StructSer) (n : Int) (hn : n < 0) :
    a.mul 0 = .ok none ∧ (a.actions = none → a.mul 1 = .ok (some a)) ∧ a.mul n = .error .valueError ∧
    a.matmul 0 = .ok none ∧ a.matmul 1 = .ok (some a) ∧ a.matmul n = .error .valueError := by
  have h0 : n ≠ 0 := by omega
  have h1 : n ≠ 1 := by omega
  refine ⟨rfl, ?_, ?_, rfl, rfl, ?_⟩
  · intro h; simp [StructSer.mul, StructSer.mulImpl, h, bind, Except.bind]
  · simp [StructSer.mul, StructSer.mulImpl, h0, hn, bind, Except.bind]
  · simp [StructSer.matmul, StructSer.mulImpl, h0, hn]

/-- **C10** (`@`).  `[k]c @ n` is the single item `(n*k)c`: for `s` one byte string of length `n*k`,
for `x` that many pad bytes. -/
theorem C10_matmul (a : StructSer) (n : Nat) (ha : a.Valid) (hpa : a.actions = none) (hn : 0 < n)
    {k : Nat} {c : Code} (hs : SingleItem a.baseFormat) (ht : a.toks = [⟨k, c⟩]) :
    ∃ s, a.matmul n = .ok (some s) ∧ s.toks = [⟨n * k, c⟩] ∧ s.byteOrder = a.byteOrder := by
  obtain ⟨m, rfl⟩ : ∃ m, n = m + 1 := ⟨n - 1, by omega⟩
  have h1 := StructSer.parse_base ha.fmt
  by_cases hm : m = 0
  · subst hm
    exact ⟨a, by simp [StructSer.matmul, StructSer.mulImpl], by simp [ht], rfl⟩
  · have hpos : ¬ ((m + 1 : Nat) : Int) = 0 ∧ ¬ ((m + 1 : Nat) : Int) < 0 ∧ ¬ ((m + 1 : Nat) : Int) = 1 := by
      omega
    have hto : ((m + 1 : Nat) : Int).toNat - 1 = m := by omega
    obtain ⟨ds, ch, hf, hd, hch⟩ := hs
    obtain ⟨c', hc⟩ := Option.isSome_iff_exists.1 hch
    have hbase := parse_item a.byteOrder.isNative ds hd ch c' hc []
    rw [← hf, h1] at hbase
    split at hbase
    · cases hbase
    · rename_i hno
      simp only [parse, parseAux, Option.map_some, Option.some.injEq, ht, List.cons.injEq, and_true,
        Tok.mk.injEq] at hbase
      obtain ⟨rfl, rfl⟩ := hbase
      obtain ⟨f, hff, _, hfp⟩ := fold_repeat_single (cs := true) hd hc hno (.inl rfl) m
      refine ⟨⟨a.byteOrder.value ++ f, none⟩, ?_, ?_, ?_⟩
      · simp only [StructSer.matmul, StructSer.mulImpl, hpos, ↓reduceIte, hto, StructSer.remake, hpa,
          hf, hff, StructSer.mkPlain_ok hfp, bind, Except.bind]
      · exact (StructSer.of_parse hfp).2.2.2
      · exact (StructSer.of_parse hfp).2.1

/-- `'>5s' @ 3` is `'>15s'`, `'>5s' * 3` is three strings. -/
example : (⟨">5s".toList, none⟩ : StructSer).Valid ∧ SingleItem (⟨">5s".toList, none⟩ : StructSer).baseFormat ∧
    StructSer.matmul ⟨">5s".toList, none⟩ 3 = .ok (some ⟨">15s".toList, none⟩) ∧
    StructSer.mul ⟨">5s".toList, none⟩ 3 = .ok (some ⟨">5s5s5s".toList, none⟩) := by
  refine ⟨⟨by decide, by simp⟩, ⟨['5'], 's', by decide, by decide, by decide⟩, by rfl, by rfl⟩

/-- The full statement of C10 is false: `StructSerializer('hIh') * 2` is `'hI2h'`. -/
theorem C10_full_is_false : ¬ C10_Full := by
  intro h
  obtain ⟨c, hc, hs⟩ := h ⟨['h', 'I', 'h'], none⟩ 2 ⟨by decide, by simp⟩ rfl (by decide)
  have h1 : StructSer.mul ⟨['h', 'I', 'h'], none⟩ (2 : Nat) = .ok (some ⟨['h', 'I', '2', 'h'], none⟩) := by rfl
  rw [h1] at hc
  cases hc
  have := hs.numValues
  revert this
  decide

/-! ### What the code does with every pair of formats -/

/-- **C09** (what happens to every pair).  Formats that meet in the same code are merged there, and everything in the right
operand behind that first item is lost; all others are written one after the other. -/
theorem C09_result (a b : StructSer) (ha : a.Valid) (hb : b.Valid) (hpa : a.actions = none)
    (hpb : b.actions = none) (hbo : a.byteOrder = b.byteOrder) :
    ∃ c, a.add b = .ok c ∧ c.byteOrder = a.byteOrder ∧ c.actions = none ∧
      (∀ es ch rest, Meets a b es ch rest → SameStruct c (concat a ⟨b.byteOrder.value ++ (es ++ [ch]), none⟩)) ∧
      ((∀ es ch rest, ¬ Meets a b es ch rest) → c = concat a b) := by
  have h1 := StructSer.parse_base ha.fmt
  have h2 := StructSer.parse_base hb.fmt
  by_cases hm : ∃ es ch rest, Meets a b es ch rest
  · obtain ⟨es, ch, rest, hme⟩ := hm
    obtain ⟨m1, m2, m3, m4, m5, m6⟩ := id hme
    obtain ⟨c0, hc0⟩ := Option.isSome_iff_exists.1 m4
    have hp2 := parse_item b.byteOrder.isNative es m3 ch c0 hc0 []
    have hno : ¬ (c0.nativeOnly ∧ b.byteOrder.isNative = false) := by
      have := parse_item b.byteOrder.isNative es m3 ch c0 hc0 rest
      rw [← m2, h2] at this
      intro hn; rw [if_pos hn] at this; cases this
    rw [if_neg hno] at hp2
    simp only [parse, parseAux, Option.map_some] at hp2
    obtain ⟨o1, o2, o3, o4⟩ := StructSer.of_parse (a := none) (bo := b.byteOrder) (f := es ++ [ch]) hp2
    have hv : (⟨b.byteOrder.value ++ (es ++ [ch]), none⟩ : StructSer).Valid := ⟨o1, by simp⟩
    obtain ⟨c, hc, hs, hac, hbc⟩ := C09_add_partial a ⟨b.byteOrder.value ++ (es ++ [ch]), none⟩ ha hv hpa rfl (hbo.trans o2.symm)
      (.inl ⟨es, ch, o3, m3, m4⟩)
    have hf := (foldOverlaps_first a.baseFormat m3 m4 rest m1 m5 m6).1
    refine ⟨c, ?_, hbc, hac, fun es' ch' rest' hme' => ?_, fun hn => absurd hme (hn _ _ _)⟩
    · rw [← hc]
      simp only [StructSer.add, hpa, hpb, hbo, o2, o3, m2, hf]
    · obtain ⟨_, n2, n3, n4, _, _⟩ := hme'
      have e := reStart_append m3 m4 rest
      rw [← m2, n2, reStart_append n3 n4] at e
      simp only [Option.some.injEq, Prod.mk.injEq] at e
      obtain ⟨rfl, rfl, _⟩ := e
      exact hs
  · have hn : ∀ es ch rest, ¬ Meets a b es ch rest := fun es ch rest h => hm ⟨es, ch, rest, h⟩
    have hf : foldOverlaps false a.baseFormat b.baseFormat = a.baseFormat ++ b.baseFormat := by
      unfold foldOverlaps
      split
      · rename_i c2 o2 ep pre c1 o1 hstart hend
        rw [if_neg]
        rintro ⟨rfl, hns⟩
        simp only [Bool.false_eq_true, false_or, not_or] at hns
        obtain ⟨rest, e2, hd2, hs2, _⟩ := reStart_spec hstart
        obtain ⟨e1, _, _, _⟩ := reEnd_spec hend
        exact hn c2 o1 rest ⟨⟨_, e1⟩, e2, hd2, hs2, hns.1, hns.2⟩
      · rfl
    rw [← hbo] at h2
    have hcat : parse a.byteOrder.isNative (a.baseFormat ++ b.baseFormat) = some (a.toks ++ b.toks) := by
      rw [parse_append h1, h2]; rfl
    refine ⟨concat a b, ?_, (StructSer.of_parse hcat).2.1, rfl, fun es ch rest h => absurd h (hn _ _ _), fun _ => rfl⟩
    simp only [StructSer.add, hpa, hpb, hbo, ↓reduceIte, hf]
    rw [← hbo]
    exact StructSer.mkPlain_ok hcat

/-- `'<3h' + '<2hIq'` is `'<5h'`: `I` and `q` are lost. -/
example : Meets ⟨"<3h".toList, none⟩ ⟨"<2hIq".toList, none⟩ ['2'] 'h' ['I', 'q'] ∧
    StructSer.add ⟨"<3h".toList, none⟩ ⟨"<2hIq".toList, none⟩ = .ok ⟨"<5h".toList, none⟩ :=
  ⟨⟨⟨['3'], by rfl⟩, by rfl, by decide, by decide, by decide, by decide⟩, by rfl⟩

/-- **C10** (what happens to every format).  A format that ends with the code it starts with is, apart from the first copy,
reduced to its first item: `'hIh' * n` is `'hI'` and `n` times `'h'`. -/
theorem C10_result (a : StructSer) (n : Nat) (ha : a.Valid) (hpa : a.actions = none) (es : List Char) (ch : Char) (rest : List Char)
    (hm : Meets a a es ch rest) :
    ∃ c, a.mul (n + 1 : Nat) = .ok (some c) ∧
      SameStruct c ⟨a.byteOrder.value ++ (a.baseFormat ++ (List.replicate n (es ++ [ch])).flatten), none⟩ := by
  have h1 := StructSer.parse_base ha.fmt
  obtain ⟨m1, m2, m3, m4, m5, m6⟩ := hm
  obtain ⟨c0, hc0⟩ := Option.isSome_iff_exists.1 m4
  have hp2 := parse_item a.byteOrder.isNative es m3 ch c0 hc0 []
  have hno : ¬ (c0.nativeOnly ∧ a.byteOrder.isNative = false) := by
    have := parse_item a.byteOrder.isNative es m3 ch c0 hc0 rest
    rw [← m2, h1] at this
    intro hn; rw [if_pos hn] at this; cases this
  rw [if_neg hno] at hp2
  simp only [parse, parseAux, Option.map_some] at hp2
  have hp2 : parse a.byteOrder.isNative (es ++ [ch]) = some [⟨countVal es, c0⟩] := hp2
  have key : ∀ (n : Nat) (f : List Char) (t : List Tok), (∃ p, f = p ++ [ch]) → parse a.byteOrder.isNative f = some t →
      ∃ u, parse a.byteOrder.isNative ((List.replicate n (es ++ ch :: rest)).foldl (foldOverlaps false) f) = some u ∧
        ToksAgree u (t ++ (List.replicate n [⟨countVal es, c0⟩]).flatten) := by
    intro n
    induction n with
    | zero => intro f t _ hp; exact ⟨t, by simpa using hp, by simpa using .refl _⟩
    | succ n ih =>
      intro f t hf hp
      obtain ⟨e1, e2⟩ := foldOverlaps_first f m3 m4 rest hf m5 m6
      obtain ⟨w, hw, hag⟩ := foldOverlaps_agree hp hp2 (.inl ⟨es, ch, rfl, m3, m4⟩)
      rw [← e1] at hw
      obtain ⟨u, hu, hag2⟩ := ih _ w e2 hw
      refine ⟨u, by simpa [List.replicate_succ] using hu, hag2.trans ?_⟩
      rw [List.replicate_succ, List.flatten_cons, ← List.append_assoc]
      exact hag.append (.refl _)
  obtain ⟨u, hu, hag⟩ := key n a.baseFormat a.toks m1 h1
  have hrep : parse a.byteOrder.isNative (a.baseFormat ++ (List.replicate n (es ++ [ch])).flatten)
      = some (a.toks ++ (List.replicate n [⟨countVal es, c0⟩]).flatten) := by
    rw [parse_append h1]
    have := parse_rep hp2 n
    rw [show (List.replicate n (es ++ [ch])).flatten = rep n (es ++ [ch]) from rfl, this]
    rfl
  by_cases hn0 : n = 0
  · subst hn0
    refine ⟨a, by simp [StructSer.mul, StructSer.mulImpl, hpa, bind, Except.bind], ?_⟩
    have e1 : a = ⟨a.byteOrder.value ++ a.baseFormat, none⟩ := by
      rw [← StructSer.format_eq, ← hpa]
    simp only [List.replicate_zero, List.flatten_nil, List.append_nil]
    conv => arg 1; rw [e1]
    exact sameStruct_of h1 h1 (.refl _)
  · have hpos : ¬ ((n + 1 : Nat) : Int) = 0 ∧ ¬ ((n + 1 : Nat) : Int) < 0 ∧ ¬ ((n + 1 : Nat) : Int) = 1 := by
      omega
    have hto : ((n + 1 : Nat) : Int).toNat - 1 = n := by omega
    rw [← m2] at hu
    refine ⟨⟨a.byteOrder.value ++ (List.replicate n a.baseFormat).foldl (foldOverlaps false) a.baseFormat, none⟩, ?_, ?_⟩
    · simp only [StructSer.mul, StructSer.mulImpl, hpos, ↓reduceIte, hto, StructSer.remake, hpa,
        StructSer.mkPlain_ok hu, bind, Except.bind]
    · exact sameStruct_of hu hrep hag

/-- `'hIh' * 3` is `'hI3h'`. -/
example : Meets ⟨"hIh".toList, none⟩ ⟨"hIh".toList, none⟩ [] 'h' ['I', 'h'] ∧
    StructSer.mul ⟨"hIh".toList, none⟩ 3 = .ok (some ⟨"hI3h".toList, none⟩) :=
  ⟨⟨⟨['h', 'I'], by rfl⟩, by rfl, by decide, by decide, by decide, by decide⟩, by rfl⟩

end Verif
