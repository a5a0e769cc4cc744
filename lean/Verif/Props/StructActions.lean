import Verif.Proofs.ActionLemmas
import Verif.Spec.Struct
/-
C33 equality and hash of struct serializers, C35 value transformations, C36 (struct serializers).
-/
namespace Verif
open Spec

/-! ### C33 -/

/-- **C33** (equivalence).  `==` is reflexive, symmetric and transitive when comparison of the action
tuples is. -/
theorem C33_eq_equivalence (actEq : List Action → List Action → Bool)
    (hr : ∀ x, actEq x x = true) (hs : ∀ x y, actEq x y = true → actEq y x = true)
    (ht : ∀ x y z, actEq x y = true → actEq y z = true → actEq x z = true) :
    (∀ a, StructSer.eq actEq a a = true) ∧
    (∀ a b, StructSer.eq actEq a b = true → StructSer.eq actEq b a = true) ∧
    (∀ a b c, StructSer.eq actEq a b = true → StructSer.eq actEq b c = true →
      StructSer.eq actEq a c = true) := by
  refine ⟨?_, ?_, ?_⟩
  · intro a
    unfold StructSer.eq
    cases a.actions with
    | none => simp
    | some x => simp [hr]
  · intro a b h
    unfold StructSer.eq at *
    cases ha : a.actions <;> cases hb : b.actions <;> simp [ha, hb] at h ⊢
    · exact ⟨h.1.symm, h.2.symm⟩
    · exact ⟨h.1.symm, hs _ _ h.2⟩
  · intro a b c h k
    unfold StructSer.eq at *
    cases ha : a.actions <;> cases hb : b.actions <;> cases hc : c.actions <;>
      simp [ha, hb, hc] at h k ⊢
    · exact ⟨h.1.trans k.1, h.2.trans k.2⟩
    · exact ⟨h.1.trans k.1, ht _ _ _ h.2 k.2⟩

/-- **C33** (hash).  Equal serializers have equal hashes, for every hash function of tuples that
respects equality of the action tuples. -/
theorem C33_eq_hash (actEq : List Action → List Action → Bool) (h2 : List Char → Nat → Int)
    (h3 : List Char → Nat → List Action → Int)
    (hh : ∀ f n x y, actEq x y = true → h3 f n x = h3 f n y) (a b : StructSer)
    (h : StructSer.eq actEq a b = true) : a.hash h2 h3 = b.hash h2 h3 := by
  unfold StructSer.eq at h
  unfold StructSer.hash
  cases ha : a.actions <;> cases hb : b.actions <;> simp [ha, hb] at h ⊢
  · rw [h.1, h.2]
  · have : a.numValues = b.numValues := by
      simp [StructSer.numValues, StructSer.toks, StructSer.byteOrder, StructSer.baseFormat, h.1]
    rw [h.1, this]; exact hh _ _ _ _ h.2

/-- **C33** (behaviour).  Equal serializers, where equal action tuples are the same functions, are
indistinguishable in use. -/
theorem C33_eq_same_behaviour (actEq : List Action → List Action → Bool)
    (he : ∀ x y, actEq x y = true → x = y) (a b : StructSer) (h : StructSer.eq actEq a b = true) :
    SameStruct a b := by
  have : a = b := by
    unfold StructSer.eq at h
    obtain ⟨fa, aa⟩ := a
    obtain ⟨fb, ab⟩ := b
    cases aa <;> cases ab <;> simp at h ⊢
    · exact h.1
    · exact ⟨h.1, he _ _ h.2⟩
  subst this
  exact ⟨rfl, rfl, fun _ _ => rfl, fun _ _ _ _ => rfl, fun _ _ => rfl, fun _ _ _ => rfl, fun _ _ => rfl⟩

/-- **C33** (kinds).  A serializer with actions never equals one without, in either order. -/
theorem C33_kinds_differ (actEq : List Action → List Action → Bool) (f g : List Char) (as : List Action) :
    StructSer.eq actEq ⟨f, some as⟩ ⟨g, none⟩ = false ∧ StructSer.eq actEq ⟨g, none⟩ ⟨f, some as⟩ = false :=
  ⟨rfl, rfl⟩

example : StructSer.eq (fun x y => x.length == y.length) ⟨"<2h".toList, none⟩ ⟨"<2h".toList, none⟩ = true ∧
    StructSer.eq (fun x y => x.length == y.length) ⟨"<2h".toList, none⟩ ⟨"<hh".toList, none⟩ = false := by
  constructor <;> decide

/-! ### C35 -/

/-- **C35** (merging with neighbours).  Let `a + b` be defined with the same byte order, at least one
of the two having actions.  Then the sum packs exactly like the plain concatenated format, and
unpacking gives each operand's own transformation of its own values. -/
theorem C35_add_partial (a b : StructSer) (ha : a.Valid) (hb : b.Valid)
    (hbo : a.byteOrder = b.byteOrder) (hact : a.actions ≠ none ∨ b.actions ≠ none)
    (hseam : SingleItem b.baseFormat ∨ lastCode a.toks ≠ firstCode b.toks ∨
      (∃ c, lastCode a.toks = some c ∧ c.isString = true)) :
    ∃ c, a.add b = .ok c ∧ c.Valid ∧ c.byteOrder = a.byteOrder ∧
      (∀ P vs, c.pack P vs = (concat a b).pack P vs) ∧ c.size = (concat a b).size ∧
      (∀ P, (∀ buf, c.unpack P buf = (concat a b).unpack P buf >>= applyBoth a b) ∧
        (∀ buf off, c.unpackFrom P buf off = (concat a b).unpackFrom P buf off >>= applyBoth a b) ∧
        (∀ d, c.unpackRead P d = (concat a b).unpackRead P d >>= applyBoth a b)) := by
  have h1 := StructSer.parse_base ha.fmt
  have h2 := StructSer.parse_base hb.fmt
  rw [← hbo] at h2
  obtain ⟨t, ht, hagree⟩ := foldOverlaps_agree h1 h2 hseam
  have hcat : parse a.byteOrder.isNative (a.baseFormat ++ b.baseFormat) = some (a.toks ++ b.toks) := by
    rw [parse_append h1, h2]; rfl
  have hnum : numVals t = a.numValues + b.numValues := by
    rw [hagree.vals, numVals_append]; rfl
  have hadd : a.add b = .ok ⟨a.byteOrder.value ++ foldOverlaps false a.baseFormat b.baseFormat,
      some (a.allActions ++ b.allActions)⟩ := by
    unfold StructSer.add
    cases haa : a.actions with
    | none =>
      cases hba : b.actions with
      | none => simp [haa, hba] at hact
      | some bs =>
        dsimp only
        have hbl := hb.acts bs hba
        rw [StructSer.mkActions_ok ht (by simp [hbl, hnum])]
        simp [StructSer.allActions, haa, hba, hnum, hbl]
    | some as =>
      have hal := ha.acts as haa
      cases hba : b.actions with
      | none =>
        dsimp only
        rw [StructSer.mkActions_ok ht (by omega)]
        simp [StructSer.allActions, haa, hba, hnum, hal]
      | some bs =>
        have hbl := hb.acts bs hba
        dsimp only
        rw [StructSer.mkActions_ok ht (by simp [hal, hbl, hnum])]
        simp [StructSer.allActions, haa, hba, hnum, hal, hbl]
  have hlen : (a.allActions ++ b.allActions).length = numVals t := by
    rw [List.length_append, ha.allActions_length, hb.allActions_length, hnum]
  obtain ⟨f1, f2, _, f4⟩ := StructSer.of_parse (a := some (a.allActions ++ b.allActions)) ht
  obtain ⟨_, e2, _, e4⟩ := StructSer.of_parse (a := none) hcat
  have e2 : (concat a b).byteOrder = a.byteOrder := e2
  have e4 : (concat a b).toks = a.toks ++ b.toks := e4
  have e5 : (concat a b).actions = none := rfl
  have hsz : ∀ nat, sizeToks nat t = sizeToks nat (a.toks ++ b.toks) := fun nat => hagree.off nat 0
  have hrun : ∀ raw : List Val, raw.length = numVals t →
      StructSer.runActions (a.allActions ++ b.allActions) raw = applyBoth a b raw := by
    intro raw hraw
    have hl1 : (raw.take a.numValues).length = a.numValues := by simp; omega
    have hl2 : (raw.drop a.numValues).length = b.numValues := by simp; omega
    conv => lhs; rw [← List.take_append_drop a.numValues raw]
    rw [runActions_append _ _ _ _ (by rw [hl1, ha.allActions_length])]
    unfold applyBoth
    rw [StructSer.applyActions_eq hl1, StructSer.applyActions_eq hl2]
  have hrun' : ∀ raw : List Val, raw.length = numVals (concat a b).toks → StructSer.applyActions
      ⟨a.byteOrder.value ++ foldOverlaps false a.baseFormat b.baseFormat,
        some (a.allActions ++ b.allActions)⟩ raw = applyBoth a b raw := by
    intro raw hraw
    exact hrun raw (by rw [hraw, e4, hagree.vals])
  refine ⟨_, hadd, ⟨f1, ?_⟩, f2, ?_, ?_, ?_⟩
  · intro as has
    cases has
    rw [hlen]; simp only [StructSer.numValues, f4]
  · intro P vs
    simp only [StructSer.pack, structPack, f2, f4, e2, e4, hagree.vals, hagree.pack]
  · simp only [StructSer.size, f2, f4, e2, e4, hsz]
  · intro P
    exact StructSer.unpack_actions e5 (f2.trans e2.symm) (by rw [f4, e4]; exact hagree) hrun'

/-- **C35** (repetition, as in arrays).  `a * n` packs exactly like the plain format written `n`
times and unpacking applies the transformation to each of the `n` groups of values. -/
theorem C35_mul_partial (a : StructSer) (as : List Action) (n : Nat) (ha : a.Valid)
    (hact : a.actions = some as) (hn : 0 < n)
    (hs : SingleItem a.baseFormat ∨ lastCode a.toks ≠ firstCode a.toks ∨
      (∃ c, lastCode a.toks = some c ∧ c.isString = true)) :
    ∃ c, a.mul n = .ok (some c) ∧ c.Valid ∧ c.byteOrder = a.byteOrder ∧
      (∀ P vs, c.pack P vs = (repeated a n).pack P vs) ∧ c.size = (repeated a n).size ∧
      (∀ P, (∀ buf, c.unpack P buf = (repeated a n).unpack P buf >>= applyN a n) ∧
        (∀ buf off, c.unpackFrom P buf off = (repeated a n).unpackFrom P buf off >>= applyN a n) ∧
        (∀ d, c.unpackRead P d = (repeated a n).unpackRead P d >>= applyN a n)) := by
  obtain ⟨m, rfl⟩ : ∃ m, n = m + 1 := ⟨n - 1, by omega⟩
  have h1 := StructSer.parse_base ha.fmt
  have hrep := parse_rep h1 (m + 1)
  obtain ⟨f, t, hf, hp, hag⟩ := mul_format ha m hs
  have hall : a.allActions = as := by simp [StructSer.allActions, hact]
  have hmul : a.mul ((m + 1 : Nat) : Int)
      = .ok (some ⟨a.byteOrder.value ++ f, some (rep (m + 1) a.allActions)⟩) := by
    by_cases hm : m = 0
    · subst hm
      simp only [List.replicate_zero, List.foldl_nil] at hf
      subst hf
      rw [hall, ← StructSer.format_eq]
      simp [StructSer.mul, StructSer.mulImpl, hact, bind, Except.bind, rep]
    · have hpos : ¬ ((m + 1 : Nat) : Int) = 0 ∧ ¬ ((m + 1 : Nat) : Int) < 0 ∧
          ¬ ((m + 1 : Nat) : Int) = 1 := by omega
      have hto' : ((m + 1 : Nat) : Int).toNat = m + 1 := by omega
      simp only [StructSer.mul, StructSer.mulImpl, hpos, ↓reduceIte, StructSer.remake, hact, hf,
        StructSer.mkActions_ok (as := []) hp (by simp), bind, Except.bind, hto', hall, Nat.add_sub_cancel]
      rfl
  obtain ⟨f1, f2, _, f4⟩ := StructSer.of_parse (a := some (rep (m + 1) a.allActions)) hp
  obtain ⟨_, e2, _, e4⟩ := StructSer.of_parse (a := none) hrep
  have e2 : (repeated a (m + 1)).byteOrder = a.byteOrder := e2
  have e4 : (repeated a (m + 1)).toks = rep (m + 1) a.toks := e4
  have e5 : (repeated a (m + 1)).actions = none := rfl
  have hn : numVals (rep (m + 1) a.toks) = (m + 1) * a.numValues := numVals_rep _ _
  have hsz : ∀ nat, sizeToks nat t = sizeToks nat (rep (m + 1) a.toks) := fun nat => hag.off nat 0
  refine ⟨_, hmul, ⟨f1, ?_⟩, f2, ?_, ?_, ?_⟩
  · intro as' has
    cases has
    simp only [StructSer.numValues, f4]
    rw [hag.vals, hn, ← ha.allActions_length]
    simp [rep]
  · intro P vs
    simp only [StructSer.pack, structPack, f2, f4, e2, e4, hag.vals, hag.pack]
  · simp only [StructSer.size, f2, f4, e2, e4, hsz]
  · intro P
    refine StructSer.unpack_actions e5 (f2.trans e2.symm) (by rw [f4, e4]; exact hag) ?_
    intro raw hraw
    exact runActions_rep ha (m + 1) raw (by rw [hraw, e4, hn])

/-- `Annotated[X, SerializeAs(uint8)]` next to a plain `uint8` meets the hypotheses of
`C35_add_partial` and `C35_mul_partial`. -/
example : (⟨"<B".toList, some [fun v => .ok (.custom 7 v)]⟩ : StructSer).Valid ∧
    (⟨"<B".toList, none⟩ : StructSer).Valid ∧ SingleItem (⟨"<B".toList, none⟩ : StructSer).baseFormat :=
  ⟨⟨by decide, by intro as h; cases h; decide⟩, ⟨by decide, by simp⟩,
   ⟨[], 'B', by decide, by decide, by decide⟩⟩

/-- Byte orders are not compared when one operand has actions: a big endian action serializer added
to a little endian plain one silently becomes little endian (the plain/plain case raises, see
`C09_add_byte_order_conflict`). -/
theorem C35_add_ignores_byte_order (f : Action) :
    StructSer.add ⟨"<H".toList, none⟩ ⟨">H".toList, some [f]⟩
      = .ok ⟨"<2H".toList, some [noopAction, f]⟩ := by
  have h1 : foldOverlaps false (StructSer.baseFormat ⟨"<H".toList, none⟩)
      (StructSer.baseFormat ⟨">H".toList, some [f]⟩) = "2H".toList := by
    rw [show StructSer.baseFormat ⟨">H".toList, some [f]⟩ = "H".toList from rfl]; decide
  have h2 : StructSer.byteOrder ⟨"<H".toList, none⟩ = .le := by decide
  have h3 : StructSer.numValues ⟨"<H".toList, none⟩ = 1 := by decide
  have h4 : StructSer.formatOk ("<".toList ++ "2H".toList) = true := by decide
  have h5 : StructSer.numValues ⟨"<".toList ++ "2H".toList, none⟩ = 2 := by decide
  simp only [StructSer.add, StructSer.mkActions, h1, h2, h3]
  rw [show ByteOrder.value .le = "<".toList from rfl, if_pos h4, if_neg (by rw [h5]; simp)]
  rfl

/-- **C35 / C36** (changing byte order).  `with_byte_order` keeps the codes, the values and the
transformations and only changes the byte order. -/
theorem C36_struct_with_byte_order (a : StructSer) (bo : ByteOrder) (ha : a.Valid)
    (hok : (parse bo.isNative a.baseFormat).isSome) :
    ∃ c, a.withByteOrder bo = .ok c ∧ c.Valid ∧ c.byteOrder = bo ∧ c.baseFormat = a.baseFormat ∧
      c.toks = a.toks ∧ c.actions = a.actions := by
  obtain ⟨t, ht⟩ := Option.isSome_iff_exists.1 hok
  have h1 := StructSer.parse_base ha.fmt
  have htt : t = a.toks := parse_two_modes ht h1
  by_cases hbo : a.byteOrder = bo
  · refine ⟨a, by simp [StructSer.withByteOrder, hbo], ha, hbo, rfl, rfl, rfl⟩
  · obtain ⟨f1, f2, f3, f4⟩ := StructSer.of_parse (a := a.actions) ht
    have hv : StructSer.Valid ⟨bo.value ++ a.baseFormat, a.actions⟩ := by
      refine ⟨f1, ?_⟩
      intro as has
      rw [ha.acts as has]
      simp only [StructSer.numValues, f4, htt]
    refine ⟨⟨bo.value ++ a.baseFormat, a.actions⟩, ?_, hv, f2, f3, f4.trans htt, rfl⟩
    simp only [StructSer.withByteOrder, hbo, ↓reduceIte, StructSer.remake, bind, Except.bind]
    cases hact : a.actions with
    | none => simp [StructSer.mkPlain_ok ht]
    | some as => simp [StructSer.mkActions_ok (as := []) ht (by simp)]

/-- **C36** (struct serializers).  The last byte order applied wins. -/
theorem C36_struct_last_wins (a c : StructSer) (b1 b2 : ByteOrder) (ha : a.Valid)
    (hok : (parse b2.isNative a.baseFormat).isSome) (h : a.withByteOrder b1 = .ok c) :
    c.withByteOrder b2 = a.withByteOrder b2 := by
  have eta : ∀ x : StructSer, x = ⟨x.byteOrder.value ++ x.baseFormat, x.actions⟩ := by
    intro x; rw [← StructSer.format_eq]
  by_cases h1 : a.byteOrder = b1
  · simp [StructSer.withByteOrder, h1] at h; rw [← h]
  · have hok1 : (parse b1.isNative a.baseFormat).isSome := by
      simp only [StructSer.withByteOrder, h1, ↓reduceIte, StructSer.remake, StructSer.mkPlain,
        StructSer.mkActions] at h
      cases hp : parse b1.isNative a.baseFormat with
      | some t => rfl
      | none =>
        exfalso
        have h0 := StructSer.parse_base ha.fmt
        have : StructSer.formatOk (b1.value ++ a.baseFormat) = false := by
          simp [StructSer.formatOk, splitByteOrder_value b1 h0, hp]
        cases hact : a.actions <;> simp [hact, this, bind, Except.bind] at h
    obtain ⟨c', hc', hv, e1, e2, e3, e4⟩ := C36_struct_with_byte_order a b1 ha hok1
    rw [h] at hc'; cases hc'
    obtain ⟨d, hd, _, d1, d2, d3, d4⟩ := C36_struct_with_byte_order a b2 ha hok
    obtain ⟨d', hd', _, g1, g2, g3, g4⟩ := C36_struct_with_byte_order c b2 hv (by rw [e2]; exact hok)
    rw [hd, hd']
    rw [eta d, eta d', d1, d2, d4, g1, g2, g4, e2, e4]

example : (⟨"<hI".toList, none⟩ : StructSer).Valid ∧
    (parse ByteOrder.be.isNative (⟨"<hI".toList, none⟩ : StructSer).baseFormat).isSome ∧
    StructSer.withByteOrder ⟨"<hI".toList, none⟩ .be = .ok ⟨">hI".toList, none⟩ :=
  ⟨⟨by decide, by simp⟩, by decide, by rfl⟩

end Verif
