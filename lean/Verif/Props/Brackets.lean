import Verif.Spec.Brackets
import Verif.Props.ArrayHints
import Verif.Proofs.FormatHints
/-
C53: what may be written in the brackets of the library's types, and what is refused.
-/
namespace Verif
open Spec Samples

variable {ctx : HintCtx} {N n : Nat} {id : SerId}

theorem sizeType_iff {h : Hint} {st : StructSer} : sizeType? h = some st ↔ IsSizeType h st := by
  refine ⟨fun e => ?_, sizeType_is⟩
  unfold sizeType? at e
  split at e
  · rename_i name c
    split at e
    · rename_i hc
      cases e
      obtain ⟨rfl, hc⟩ := hc
      refine ⟨c, by simpa using hc, rfl, rfl⟩
    · cases e
  · cases e

theorem sizeType_none {h : Hint} (hh : ¬ SizeType h) : sizeType? h = Option.none := by
  cases e : sizeType? h with
  | none => rfl
  | some st => exact absurd ⟨st, sizeType_iff.1 e⟩ hh

theorem matmul_nonpos : (∀ s : StructSer, s.matmul 0 = .ok none) ∧ ∀ (s : StructSer) (i : Int), i < 0 → s.matmul i = .error .valueError := by
  refine ⟨fun s => rfl, fun s i hi => ?_⟩
  unfold StructSer.matmul StructSer.mulImpl
  rw [if_neg (by omega), if_pos hi]

/-- **C53** (`char`).  `char[x]` is accepted for the four unsigned integer types, numbers that are not negative, `NET`, one terminator byte and
`math.inf`; a variable makes an alias; everything else is refused. -/
theorem C53_char :
    (∀ h st, IsSizeType h st → mkChar ctx h = .ok (typed "bytes" (.dynChar (ctx.ident .char [h]) st))) ∧
    (∀ k : Nat, 0 < k → ∃ st, Chars k .str st ∧ mkChar ctx (.int k) = .ok (typed "bytes" (.struct st))) ∧
    mkChar ctx (.int 0) = .ok (typed "bytes" .null) ∧
    (∀ i : Int, i < 0 → mkChar ctx (.int i) = .error .valueError) ∧
    mkChar ctx .net = .ok (typed "bytes" (.net (ctx.ident .char [.net]))) ∧
    (∀ b, mkChar ctx (.bytes [b]) = .ok (typed "bytes" (.terminated (ctx.ident .char [.bytes [b]]) b))) ∧
    (∀ bs : Bytes, bs.length ≠ 1 → mkChar ctx (.bytes bs) = .error .valueError) ∧
    mkChar ctx .inf = .ok (typed "bytes" (.consuming (ctx.ident .char [.inf]))) ∧
    (∀ t, mkChar ctx (.tvar t) = .ok (.alias .char [.tvar t])) ∧
    (∀ h, ¬ SizeType h → isLength h = false → mkChar ctx h = .error .typeError) := by
  refine ⟨fun h st hh => ?_, fun k hk => ?_, rfl, fun i hi => ?_, rfl, fun b => rfl, fun bs hb => ?_, rfl, fun t => rfl, fun h h1 h2 => ?_⟩
  · simp only [mkChar, sizeType_is hh]; rfl
  · obtain ⟨st, h1, h2⟩ := basic_chars k hk
    refine ⟨st, ⟨h2.toks, h2.2, h2.acts⟩, ?_⟩
    show (singleChar.matmul k >>= fun r => _) = _
    rw [h1]; rfl
  · show (singleChar.matmul i >>= fun r => _) = _
    rw [matmul_nonpos.2 _ _ hi]; rfl
  · match bs, hb with
    | [], _ => rfl
    | _ :: _ :: _, _ => rfl
  · unfold mkChar
    simp only [sizeType_none h1]
    cases h <;> first | rfl | cases h2

/-- **C53** (`unicode`).  `unicode[x, encoding]` takes what `char[x]` takes; the encoding has to be a codec. -/
theorem C53_unicode :
    (∀ t e, mkUnicode ctx N (.tvar t) e = .ok (.alias .unicode [.tvar t, e])) ∧
    (∀ h enc dec s, h.isTvar = false → mkChar ctx h = .ok (typed "bytes" s) →
      mkUnicode ctx (N + 1) h (.codec enc dec) = .ok (typed "str" (.unicode s enc dec))) ∧
    (∀ h enc dec e, h.isTvar = false → mkChar ctx h = .error e → mkUnicode ctx N h (.codec enc dec) = .error e) ∧
    (∀ h e, h.isTvar = false → isCodec e = false → mkUnicode ctx N h e = .error .typeError) := by
  refine ⟨fun t e => rfl, fun h enc dec s hv hc => ?_, fun h enc dec e hv hc => ?_, fun h e hv he => ?_⟩
  · unfold mkUnicode
    rw [if_neg (by simp [hv])]
    simp only [hc, okBind]
    have hs : s.isUnion = false := by
      unfold mkChar at hc
      simp only at hc
      split at hc
      · cases hc; rfl
      · split at hc
        · obtain ⟨r, h1, h2⟩ := Except.bind_ok' hc
          cases h2
          cases r <;> rfl
        all_goals first | (cases hc; done) | (cases hc; rfl)
    have ht : ∀ i, transform ctx (N + 1) i (typed "bytes" s) = .ok (.ser s) := by
      intro i
      have h1 := array_transform (ctx := ctx) (m := N) (i := i) s hs
      have : unionStep (transform ctx N) i (.plain "bytes") (.ser s) = .ok (.plain "bytes") := by
        simp only [unionStep, hs]; rfl
      show ((unionStep (transform ctx N) i (.plain "bytes") (.ser s) >>= fun b => selfStep i b >>= fun b => structuredStep ctx i b >>=
        fun b => indexingStep b (.ser s) >>= fun b => finalStep b (.ser s)) >>= fun b => .ok b) = _
      rw [this]; rfl
    rw [ht]; rfl
  · unfold mkUnicode
    rw [if_neg (by simp [hv])]
    simp only [hc]; rfl
  · unfold mkUnicode
    rw [if_neg (by simp [hv])]
    cases e <;> first | rfl | cases he

/-- **C53** (`pad`, `pascal`).  `pad[x]` and `pascal[x]` take a number that is not negative. -/
theorem C53_counted :
    (∀ k : Nat, 0 < k → ∃ st, Chars k .pad st ∧ mkPad k = .ok (typed "NoneType" (.struct st))) ∧
    (∀ k : Nat, 0 < k → ∃ st, st.toks = [⟨k, .pas⟩] ∧ st.actions = none ∧ mkPascal k = .ok (typed "bytes" (.struct st))) ∧
    mkPad 0 = .ok (typed "NoneType" .null) ∧ mkPascal 0 = .ok (typed "bytes" .null) ∧
    (∀ i : Int, i < 0 → mkPad i = .error .valueError ∧ mkPascal i = .error .valueError) := by
  refine ⟨fun k hk => ?_, fun k hk => ?_, rfl, rfl, fun i hi => ⟨?_, ?_⟩⟩
  · obtain ⟨st, h1, h2, h3, h4, _⟩ := padChar_matmul k hk
    refine ⟨st, ⟨h3, h2, h4⟩, ?_⟩
    show (StructSer.matmul ⟨['x'], none⟩ k >>= fun r => _) = _
    rw [h1]; rfl
  · obtain ⟨st, h1, h2, h3, _⟩ := matmul_char (ch := 'p') (c := .pas) rfl rfl (by decide) (by decide) k hk
    refine ⟨st, h2, h3, ?_⟩
    show (StructSer.matmul ⟨['p'], none⟩ k >>= fun r => _) = _
    rw [h1]; rfl
  · show (StructSer.matmul ⟨['x'], none⟩ i >>= fun r => _) = _
    rw [matmul_nonpos.2 _ _ hi]; rfl
  · show (StructSer.matmul ⟨['p'], none⟩ i >>= fun r => _) = _
    rw [matmul_nonpos.2 _ _ hi]; rfl

/-- **C53** (`Header`).  The length of a header is an unsigned integer type or a number that is not negative, its size an unsigned integer type or
absent; a variable makes an alias; everything else is refused. -/
theorem C53_header :
    (∀ l s, l.isTvar = true ∨ s.isTvar = true → mkHeader l s = .ok (.alias .header [l, s])) ∧
    (∀ l s c d, IsSizeType l c → IsSizeType s d → mkHeader l s = .ok (.header (.dyn c) (some d))) ∧
    (∀ l c, IsSizeType l c → mkHeader l .noneT = .ok (.header (.dyn c) none)) ∧
    (∀ s d (i : Int), 0 ≤ i → IsSizeType s d → mkHeader (.int i) s = .ok (.header (.static i) (some d))) ∧
    (∀ i : Int, 0 ≤ i → mkHeader (.int i) .noneT = .ok (.header (.static i) none)) ∧
    (∀ s (i : Int), i < 0 → s.isTvar = false → mkHeader (.int i) s = .error .valueError) ∧
    (∀ l s, l.isTvar = false → s.isTvar = false → ¬ SizeType l → (∀ i, l ≠ .int i) → mkHeader l s = .error .typeError) ∧
    (∀ l s, l.isTvar = false → s.isTvar = false → ¬ SizeType s → s ≠ .noneT → (SizeType l ∨ ∃ i : Int, 0 ≤ i ∧ l = .int i) →
      mkHeader l s = .error .typeError) := by
  have hnone : sizeType? .noneT = Option.none := rfl
  have hint : ∀ i, sizeType? (.int i) = Option.none := fun _ => rfl
  refine ⟨fun l s h => ?_, fun l s c d hl hs => ?_, fun l c hl => ?_, fun s d i hi hs => ?_, fun i hi => ?_, fun s i hi hs => ?_,
    fun l s hl hs h1 h2 => ?_, fun l s hl hs h1 h2 h3 => ?_⟩
  · unfold mkHeader
    rw [if_pos (by simpa using h)]
  · unfold mkHeader
    rw [if_neg (by simp [sizeType_not_tvar hl, sizeType_not_tvar hs])]
    simp only [sizeType_is hl, sizeType_is hs]; rfl
  · unfold mkHeader
    rw [if_neg (by rw [sizeType_not_tvar hl]; simp [Hint.isTvar])]
    simp only [sizeType_is hl, hnone]; rfl
  · unfold mkHeader
    rw [if_neg (by rw [sizeType_not_tvar hs]; simp [Hint.isTvar])]
    simp only [hint, sizeType_is hs, if_neg (show ¬ i < 0 by omega)]; rfl
  · unfold mkHeader
    rw [if_neg (by simp [Hint.isTvar])]
    simp only [hint, hnone, if_neg (show ¬ i < 0 by omega)]; rfl
  · unfold mkHeader
    rw [if_neg (by rw [hs]; simp [Hint.isTvar])]
    simp only [hint, if_pos hi]; rfl
  · unfold mkHeader
    rw [if_neg (by simp [hl, hs])]
    simp only [sizeType_none h1]
    cases l <;> first | rfl | exact absurd rfl (h2 _)
  · unfold mkHeader
    rw [if_neg (by simp [hl, hs])]
    simp only [sizeType_none h1]
    rcases h3 with ⟨c, hc⟩ | ⟨i, hi, rfl⟩
    · simp only [sizeType_is hc]
      cases s <;> first | rfl | exact absurd rfl h2
    · simp only [hint, if_neg (show ¬ i < 0 by omega)]
      cases s <;> first | rfl | exact absurd rfl h2

/-- **C53** (`array`).  The first argument of `array` is a `Header`, the second a type that has a serializer that does not read to the end; a
variable makes an alias; everything else is refused. -/
theorem C53_array_refused :
    (∀ h i, h.isAlias = true ∨ i.isTvar = true → mkArray ctx N h i = .ok (.alias .array [h, i])) ∧
    (∀ h i, h.isAlias = false → i.isTvar = false → (∀ c s, h ≠ .header c s) → mkArray ctx N h i = .error .typeError) ∧
    (∀ c s i, i.isTvar = false → (∀ x, transform ctx N (7 :: ctx.ident .array [.header c s, i]) i = .ok x → x.ser? = Option.none) →
      ∃ e, mkArray ctx N (.header c s) i = .error e) ∧
    (∀ c s i x, i.isTvar = false → transform ctx N (7 :: ctx.ident .array [.header c s, i]) i = .ok x → x.ser? = Option.none →
      mkArray ctx N (.header c s) i = .error .typeError) ∧
    (∀ c s i x, i.isTvar = false → transform ctx N (7 :: ctx.ident .array [.header c s, i]) i = .ok (.ser x) →
      x.isFinal ctx.clsFinal = true → mkArray ctx N (.header c s) i = .error .typeError) := by
  refine ⟨fun h i hh => ?_, fun h i h1 h2 h3 => ?_, fun c s i h1 h2 => ?_, fun c s i x h1 h2 h3 => ?_, fun c s i x h1 h2 h3 => ?_⟩
  · unfold mkArray
    simp only
    rw [if_pos (by simpa using hh)]
  · unfold mkArray
    simp only
    rw [if_neg (by simp [h1, h2])]
  · unfold mkArray
    simp only
    rw [if_neg (by simp [h1, Hint.isAlias])]
    cases ht : transform ctx N (7 :: ctx.ident .array [.header c s, i]) i with
    | error e => exact ⟨e, rfl⟩
    | ok x =>
      have := h2 x ht
      cases x <;> first | exact ⟨_, rfl⟩ | cases this
  · unfold mkArray
    simp only
    rw [if_neg (by simp [h1, Hint.isAlias]), h2]
    cases x <;> first | rfl | cases h3
  · unfold mkArray
    simp only
    rw [if_neg (by simp [h1, Hint.isAlias]), h2]
    show (if x.isFinal ctx.clsFinal then _ else _) = _
    rw [if_pos h3]

theorem fold_parses {nat : Bool} {f1 f2 : List Char} {t1 t2 : List Tok} (h1 : parse nat f1 = some t1) (h2 : parse nat f2 = some t2) :
    ∃ t, parse nat (foldOverlaps false f1 f2) = some t := by
  obtain ⟨bo, hn, hsp⟩ : ∃ bo : ByteOrder, bo.isNative = nat ∧ ∀ f, splitByteOrder (bo.value ++ f) = (bo, f) := by
    cases nat
    · exact ⟨.le, rfl, fun f => rfl⟩
    · exact ⟨.native, rfl, fun f => rfl⟩
  subst hn
  obtain ⟨a1, a2, a3, _⟩ := StructSer.of_parse (a := none) h1
  obtain ⟨b1, b2, b3, _⟩ := StructSer.of_parse (a := none) h2
  obtain ⟨c, hc, _⟩ := C09_result ⟨bo.value ++ f1, none⟩ ⟨bo.value ++ f2, none⟩ ⟨a1, by simp⟩ ⟨b1, by simp⟩ rfl rfl (a2.trans b2.symm)
  have e : StructSer.add ⟨bo.value ++ f1, none⟩ ⟨bo.value ++ f2, none⟩ = StructSer.mkPlain (foldOverlaps false f1 f2) bo := by
    unfold StructSer.add
    simp only [a2, a3, b2, b3, if_true]
  rw [e] at hc
  unfold StructSer.mkPlain at hc
  simp only at hc
  split at hc
  · rename_i h
    simp only [StructSer.formatOk, hsp] at h
    exact Option.isSome_iff_exists.1 h
  · cases hc

/-- Repeating never fails. -/
theorem mul_total {a : StructSer} (ha : a.Valid) (n : Nat) : ∃ r, a.mul n = .ok r := by
  by_cases h0 : n = 0
  · subst h0; exact ⟨_, rfl⟩
  have h1 := StructSer.parse_base ha.fmt
  have key : ∀ (k : Nat) (f : List Char) (t : List Tok), parse a.byteOrder.isNative f = some t →
      ∃ u, parse a.byteOrder.isNative ((List.replicate k a.baseFormat).foldl (foldOverlaps false) f) = some u := by
    intro k
    induction k with
    | zero => intro f t h; exact ⟨t, h⟩
    | succ k ih =>
      intro f t h
      obtain ⟨u, hu⟩ := fold_parses h h1
      exact ih _ u hu
  have himpl : ∃ r, a.mulImpl n false = .ok r := by
    unfold StructSer.mulImpl
    rw [if_neg (by omega), if_neg (by omega)]
    by_cases hn : (n : Int) = 1
    · rw [if_pos hn]; exact ⟨_, rfl⟩
    · rw [if_neg hn]
      obtain ⟨u, hu⟩ := key ((n : Int).toNat - 1) a.baseFormat a.toks h1
      have hf := (StructSer.of_parse (a := none) hu).1
      simp only [StructSer.remake]
      cases a.actions with
      | none =>
        simp only [StructSer.mkPlain, if_pos hf]
        exact ⟨_, rfl⟩
      | some as =>
        simp only [StructSer.mkActions, if_pos hf]
        split <;> exact ⟨_, rfl⟩
  obtain ⟨r, hr⟩ := himpl
  unfold StructSer.mul
  rw [hr]
  simp only [okBind]
  cases r with
  | none => exact ⟨_, rfl⟩
  | some t => cases a.actions <;> exact ⟨_, rfl⟩

/-- **C53** (`array`, accepted).  Every header of the documented form and every item type with a serializer that does not read to the end make an
array. -/
theorem C53_array {c : Count} {s : Option StructSer} {i : Hint} {x : Ser} (hc : (∃ k, 0 ≤ k ∧ c = .static k) ∨ ∃ h st, IsSizeType h st ∧ c = .dyn st)
    (hs : s = Option.none ∨ ∃ h st, IsSizeType h st ∧ s = some st) (hi : i.isTvar = false)
    (ht : transform ctx N (7 :: ctx.ident .array [.header c s, i]) i = .ok (.ser x)) (hf : x.isFinal ctx.clsFinal = false)
    (hb : ∀ st, x = .struct st → st.Valid) :
    ∃ y, mkArray ctx N (.header c s) i = .ok (typed "list" y) ∧ y.numValues ≤ 1 ∧ ∀ m j, transformTypehint ctx (m + 1) j (typed "list" y) = .ok (some y) := by
  have hser : ∃ y, mkArraySer (ctx.ident .array [.header c s, i]) c s x = .ok y ∧ y.isUnion = false ∧ y.numValues ≤ 1 := by
    rcases hc with ⟨k, _, rfl⟩ | ⟨h, st, hh, rfl⟩
    · exact ⟨_, rfl, rfl, Nat.le_refl _⟩
    · rcases hs with rfl | ⟨h', d, hh', rfl⟩
      · exact ⟨_, rfl, rfl, Nat.le_refl _⟩
      · obtain ⟨cd, h1, _⟩ := sizeType_add hh hh'
        refine ⟨.array (ctx.ident .array [.header (.dyn st) (some d), i]) (some cd) x (-1), ?_, rfl, Nat.le_refl _⟩
        simp only [mkArraySer, h1, okBind]
  unfold mkArray
  simp only
  rw [if_neg (by simp [hi, Hint.isAlias]), ht]
  simp only [okBind]
  rw [if_neg (by simp [hf])]
  obtain ⟨y, h1, h2, h3⟩ := hser
  have gen : ∃ z, (do .ok (Hint.annot (.plain "list") [.ser (← mkArraySer (ctx.ident .array [.header c s, i]) c s x)]) : Except Err Hint) = .ok (typed "list" z) ∧
      z.numValues ≤ 1 ∧ ∀ m j, transformTypehint ctx (m + 1) j (typed "list" z) = .ok (some z) :=
    ⟨y, by rw [h1]; rfl, h3, fun m j => array_transform y h2⟩
  cases x with
  | struct st =>
    simp only
    by_cases hn : st.numValues = 1
    · rw [if_pos hn]
      have hv := hb st rfl
      rcases hc with ⟨k, hk, rfl⟩ | ⟨h, st', hh, rfl⟩
      · obtain ⟨m, rfl⟩ : ∃ m : Nat, k = m := ⟨k.toNat, by omega⟩
        obtain ⟨r, hr⟩ := mul_total hv m
        refine ⟨.staticArr m st r, ?_, Nat.le_refl _, fun m j => array_transform _ rfl⟩
        simp only [mkStaticArr, hr, okBind]
        rfl
      · exact ⟨_, rfl, Nat.zero_le _, fun m j => array_transform _ rfl⟩
    · rw [if_neg hn]; exact gen
  | _ => exact gen

/-- **C53** (`SerializeAs`).  `SerializeAs(hint)` takes a hint of a basic type, one value per object; everything else is refused. -/
theorem C53_serialize_as {h : Hint} :
    (∀ st, transform ctx n id h = .ok (.ser (.struct st)) → st.numValues = 1 → mkSerializeAs ctx n id h = .ok (.serAs st)) ∧
    (∀ st, transform ctx n id h = .ok (.ser (.struct st)) → st.numValues ≠ 1 → mkSerializeAs ctx n id h = .error .typeError) ∧
    (∀ x, transform ctx n id h = .ok x → (∀ st, x ≠ .ser (.struct st)) → mkSerializeAs ctx n id h = .error .typeError) ∧
    (∀ e, transform ctx n id h = .error e → mkSerializeAs ctx n id h = .error e) := by
  unfold mkSerializeAs
  refine ⟨fun st e h1 => ?_, fun st e h1 => ?_, fun x e h1 => ?_, fun x e => ?_⟩
  · rw [e]; simp only [okBind, h1]; rfl
  · rw [e]; simp only [okBind]; rw [if_pos h1]
  · rw [e]
    cases x <;> try rfl
    rename_i s
    cases s <;> first | rfl | exact absurd rfl (h1 _)
  · rw [e]; rfl

/-- **C53** (`with_factory`).  `SerializeAs(hint).with_factory(f)` is a `SerializeAs` of the same format that calls `f` with the unpacked value and
nothing else. -/
theorem C53_with_factory {st : StructSer} (hv : st.Valid) (h1 : st.numValues = 1) (f : Action) :
    withFactory (.serAs st) f = .ok (.serAs ⟨st.format, some [f]⟩) ∧
    (∀ g, withFactory (.serAs ⟨st.format, some [g]⟩) f = .ok (.serAs ⟨st.format, some [f]⟩)) ∧
    (∀ h, (∀ st, h ≠ .serAs st) → withFactory h f = .error .attributeError) := by
  have key : StructSer.mkActions st.format .default [f] = .ok ⟨st.format, some [f]⟩ := by
    unfold StructSer.mkActions
    have e : ByteOrder.default.value ++ st.format = st.format := rfl
    have h2 : StructSer.numValues ⟨st.format, none⟩ = 1 := h1
    simp only [e, if_pos hv.fmt, h2, List.length_cons, List.length_nil]
    rfl
  refine ⟨?_, fun g => ?_, fun h hh => ?_⟩
  · simp only [withFactory, key]; rfl
  · simp only [withFactory, key]; rfl
  · cases h <;> first | rfl | exact absurd rfl (hh _)

/-- `char[b'ab']`, `char[int8]`, `char[str]`, `Header[int8]`, `Header[2, 3]`, `array[uint8, uint8]`, `array[Header[2], str]`, `SerializeAs(pad[2])` and
`SerializeAs(char[uint8])` are refused; `char[uint16]`, `Header[2, uint8]` and `array[Header[2, uint8], char[uint16]]` are accepted. -/
example : (mkChar hctx (.bytes [97, 98])) = .error .valueError ∧ mkChar hctx int8H = .error .typeError ∧ mkChar hctx (.plain "str") = .error .typeError ∧
    mkHeader int8H .noneT = .error .typeError ∧ mkHeader (.int 2) (.int 3) = .error .typeError ∧ mkArray hctx 2 uint8H uint8H = .error .typeError ∧
    mkArray hctx 2 (.header (.static 2) none) (.plain "str") = .error .typeError ∧
    (mkPad 2 >>= mkSerializeAs hctx 2 [1]) = .error .typeError ∧ (mkChar hctx uint8H >>= mkSerializeAs hctx 2 [1]) = .error .typeError ∧
    mkChar hctx uint16H = .ok (typed "bytes" (.dynChar [9] ⟨['H'], none⟩)) ∧
    mkHeader (.int 2) uint8H = .ok (.header (.static 2) (some ⟨['B'], none⟩)) ∧
    (mkChar hctx uint16H >>= mkArray hctx 2 (.header (.static 2) (some ⟨['B'], none⟩))) =
      .ok (typed "list" (.array [9] (some ⟨['B'], none⟩) (.dynChar [9] ⟨['H'], none⟩) 2)) :=
  ⟨rfl, rfl, rfl, rfl, rfl, rfl, rfl, rfl, rfl, rfl, rfl, rfl⟩

example : ∃ y, mkArray hctx 2 (.header (.static 3) none) (typed "int" (.struct ⟨"xBx".toList, none⟩)) = .ok (typed "list" y) := by
  obtain ⟨y, hy, _⟩ := C53_array (ctx := hctx) (N := 2) (c := .static 3) (s := none) (i := typed "int" (.struct ⟨"xBx".toList, none⟩))
    (x := .struct ⟨"xBx".toList, none⟩) (.inl ⟨3, by decide, rfl⟩) (.inl rfl) rfl rfl rfl (fun st h => by cases h; exact ⟨by decide, by simp⟩)
  exact ⟨y, hy⟩

end Verif
