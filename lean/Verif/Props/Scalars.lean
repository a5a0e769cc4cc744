import Verif.Proofs.ScalarLemmas
import Verif.Props.StructFormats
import Verif.Hints
import Verif.Samples
/-
C43: the basic types other than integers, and the values the integer types take.  C44: byte strings of fixed length.
-/
namespace Verif
open Spec Samples

/-- **C13** (inverse, the other way).  Every string of the right number of bytes is read as a number in the range of
the type, and that number is packed to these bytes. -/
theorem C13_pack_unpack {ch : Char} {s : Bool} {w : Nat} (h : (ch, s, w) ∈ intTypes) (P : Platform)
    (bo : ByteOrder) (b rest : Bytes) (hb : b.length = w) :
    ∃ i, (intSer bo ch).unpack P (b ++ rest) = .ok [.int i] ∧ InRange s w i ∧ (intSer bo ch).pack P [.int i] = .ok b := by
  obtain ⟨_, _, _, _, _, hw, _⟩ := intSer_facts h bo
  subst hb
  have := encodeInt_decodeInt (bo.little P) s b hw
  exact ⟨_, intSer_unpack h bo P b rest rfl, (intInRange_iff ..).1 this.1, by rw [intSer_pack h]; exact this.2⟩

example : ('h', true, 2) ∈ intTypes ∧ (intSer .be 'h').unpack plat [0xFF, 0xFE, 7] = .ok [.int (-2)] := by
  refine ⟨by decide, by rfl⟩

/-- **C43** (`bool8`, packing).  Every value is accepted; its truth value is written as one byte, 0 or 1. -/
theorem C43_bool_pack (bo : ByteOrder) (P : Platform) (v : Val) :
    (Falsy v → (scalarSer bo '?').pack P [v] = .ok [0]) ∧ (¬ Falsy v → (scalarSer bo '?').pack P [v] = .ok [1]) := by
  rw [scalar_pack bo (c := .bool) (by decide)]
  refine ⟨fun h => ?_, fun h => ?_⟩
  · simp [packOne, (Val.truthy_false_iff v).2 h]
  · have : v.truthy = true := by
      cases e : v.truthy with
      | true => rfl
      | false => exact absurd ((Val.truthy_false_iff v).1 e) h
    simp [packOne, this]

/-- **C43** (`bool8`, reading).  The byte 0 is read as `False`, every other byte as `True`. -/
theorem C43_bool_unpack (bo : ByteOrder) (P : Platform) (x : UInt8) (r : Bytes) :
    (scalarSer bo '?').unpack P (x :: r) = .ok [.bool (decide (x ≠ 0))] := by
  have := scalar_unpack bo (ch := '?') (c := .bool) (by decide) P [x] r rfl
  rw [show x :: r = [x] ++ r from rfl, this]
  by_cases h : x = 0 <;> simp [unpackOne, h]

/-- **C43** (`bool8`).  Truth values survive; other values become one, and other bytes become 1. -/
theorem C43_bool_round_trip (bo : ByteOrder) (P : Platform) (b : Bool) (r : Bytes) :
    ∃ d, (scalarSer bo '?').pack P [.bool b] = .ok d ∧ (scalarSer bo '?').unpack P (d ++ r) = .ok [.bool b] := by
  cases b with
  | true => exact ⟨_, (C43_bool_pack bo P _).2 (fun h => by cases h), by rw [List.singleton_append, C43_bool_unpack]; rfl⟩
  | false => exact ⟨_, (C43_bool_pack bo P _).1 .false, by rw [List.singleton_append, C43_bool_unpack]; rfl⟩

/-- `b'x'` is true, `b''` is not; the byte 2 is read as `True` and written back as 1. -/
example : ¬ Falsy (.bytes [0x78]) ∧ Falsy (.bytes []) ∧
    (scalarSer .be '?').pack plat [.bytes [0x78]] = .ok [1] ∧ (scalarSer .be '?').pack plat [.str []] = .ok [0] ∧
    (scalarSer .be '?').unpack plat [2] = .ok [.bool true] :=
  ⟨fun h => (by cases h), .bytes, by rfl, by rfl, by rfl⟩

/-- **C43** (`float64`, packing).  A number is written as the 8 bytes of its binary64 representation in the byte order. -/
theorem C43_double_pack (bo : ByteOrder) (P : Platform) {v : Val} {f : UInt64} (h : Real P v f) :
    (scalarSer bo 'd').pack P [v] = .ok (intBytes P bo 8 f.toNat) := by
  rw [scalar_pack bo (c := .double) (by decide)]
  simp [packOne, (Val.asFloat_iff P v f).2 h, orderBytes_little]

/-- **C43** (`float64`, reading).  The bytes of a float are read as exactly that float, NaNs and signed zeros
included, and all strings of 8 bytes are the bytes of a float. -/
theorem C43_double_unpack (bo : ByteOrder) (P : Platform) :
    (∀ (f : UInt64) (r : Bytes), (scalarSer bo 'd').unpack P (intBytes P bo 8 f.toNat ++ r) = .ok [.float f]) ∧
    ∀ d : Bytes, d.length = 8 → ∃ f : UInt64, d = intBytes P bo 8 f.toNat := by
  refine ⟨fun f r => ?_, fun d hd => ?_⟩
  · have hl : (intBytes P bo 8 f.toNat).length = Code.bytes bo.isNative .double := by rw [intBytes_len]; rfl
    rw [scalar_unpack bo (ch := 'd') (c := .double) (by decide) P _ r hl]
    simp [unpackOne, leNat_intBytes P bo 8 f.toNat f.toNat_lt]
  · obtain ⟨n, hn, e⟩ := intBytes_surj P bo d
    rw [hd] at hn e
    exact ⟨UInt64.ofNat n, by rw [UInt64.toNat_ofNat', Nat.mod_eq_of_lt hn]; exact e⟩

/-- `1.0` in `'>'`. -/
example : Real plat (.float 0x3FF0000000000000) 0x3FF0000000000000 ∧
    (scalarSer .be 'd').pack plat [.float 0x3FF0000000000000] = .ok [0x3F, 0xF0, 0, 0, 0, 0, 0, 0] :=
  ⟨.float _, by rfl⟩

/-- **C43** (`float32`).  A number is converted to binary32 by the platform, in the way of the mode of the byte order, and
written as 4 bytes; if it is too large that is an `OverflowError`, for an integer a `struct.error`. -/
theorem C43_single_pack (bo : ByteOrder) (P : Platform) {v : Val} {f : UInt64} (h : Real P v f) :
    (∀ u, P.packF32 bo.isNative f = some u → (scalarSer bo 'f').pack P [v] = .ok (intBytes P bo 4 u.toNat)) ∧
    (P.packF32 bo.isNative f = none → (∃ i, Whole v i) → (scalarSer bo 'f').pack P [v] = .error .structError) ∧
    (P.packF32 bo.isNative f = none → (∀ i, ¬ Whole v i) → (scalarSer bo 'f').pack P [v] = .error .overflowError) := by
  rw [scalar_pack bo (c := .single) (by decide)]
  have h := (Val.asFloat_iff P v f).2 h
  refine ⟨fun u hu => ?_, fun hu hi => ?_, fun hu hi => ?_⟩
  · simp [packOne, h, hu, orderBytes_little]
  · simp [packOne, h, hu, (tooLarge_eq v).1 hi]
  · simp [packOne, h, hu, (tooLarge_eq v).2 hi]

/-- **C43** (`float32`, reading). -/
theorem C43_single_unpack (bo : ByteOrder) (P : Platform) :
    (∀ (u : UInt32) (r : Bytes), (scalarSer bo 'f').unpack P (intBytes P bo 4 u.toNat ++ r) = .ok [.float (P.unpackF32 u)]) ∧
    ∀ d : Bytes, d.length = 4 → ∃ u : UInt32, d = intBytes P bo 4 u.toNat := by
  refine ⟨fun f r => ?_, fun d hd => ?_⟩
  · have hl : (intBytes P bo 4 f.toNat).length = Code.bytes bo.isNative .single := by rw [intBytes_len]; rfl
    rw [scalar_unpack bo (ch := 'f') (c := .single) (by decide) P _ r hl]
    simp [unpackOne, leNat_intBytes P bo 4 f.toNat f.toNat_lt]
  · obtain ⟨n, hn, e⟩ := intBytes_surj P bo d
    rw [hd] at hn e
    exact ⟨UInt32.ofNat n, by rw [UInt32.toNat_ofNat', Nat.mod_eq_of_lt hn]; exact e⟩

/-- **C43** (`float16`). -/
theorem C43_half_pack (bo : ByteOrder) (P : Platform) {v : Val} {f : UInt64} (h : Real P v f) :
    (∀ u, P.packF16 f = some u → (scalarSer bo 'e').pack P [v] = .ok (intBytes P bo 2 u.toNat)) ∧
    (P.packF16 f = none → (∃ i, Whole v i) → (scalarSer bo 'e').pack P [v] = .error .structError) ∧
    (P.packF16 f = none → (∀ i, ¬ Whole v i) → (scalarSer bo 'e').pack P [v] = .error .overflowError) := by
  rw [scalar_pack bo (c := .half) (by decide)]
  have h := (Val.asFloat_iff P v f).2 h
  refine ⟨fun u hu => ?_, fun hu hi => ?_, fun hu hi => ?_⟩
  · simp [packOne, h, hu, orderBytes_little]
  · simp [packOne, h, hu, (tooLarge_eq v).1 hi]
  · simp [packOne, h, hu, (tooLarge_eq v).2 hi]

/-- **C43** (`float16`, reading). -/
theorem C43_half_unpack (bo : ByteOrder) (P : Platform) :
    (∀ (u : UInt16) (r : Bytes), (scalarSer bo 'e').unpack P (intBytes P bo 2 u.toNat ++ r) = .ok [.float (P.unpackF16 u)]) ∧
    ∀ d : Bytes, d.length = 2 → ∃ u : UInt16, d = intBytes P bo 2 u.toNat := by
  refine ⟨fun f r => ?_, fun d hd => ?_⟩
  · have hl : (intBytes P bo 2 f.toNat).length = Code.bytes bo.isNative .half := by rw [intBytes_len]; rfl
    rw [scalar_unpack bo (ch := 'e') (c := .half) (by decide) P _ r hl]
    simp [unpackOne, leNat_intBytes P bo 2 f.toNat f.toNat_lt]
  · obtain ⟨n, hn, e⟩ := intBytes_surj P bo d
    rw [hd] at hn e
    exact ⟨UInt16.ofNat n, by rw [UInt16.toNat_ofNat', Nat.mod_eq_of_lt hn]; exact e⟩

/-- **C43** (float types, other values).  What is not a number, and an integer too large for a float, is a `struct.error`. -/
theorem C43_not_a_number (bo : ByteOrder) (P : Platform) {v : Val} (h : ∀ f, ¬ Real P v f) {ch : Char}
    (hc : ch = 'e' ∨ ch = 'f' ∨ ch = 'd') : (scalarSer bo ch).pack P [v] = .error .structError := by
  have h := Val.asFloat_none h
  rcases hc with rfl | rfl | rfl
  · rw [scalar_pack bo (c := .half) (by decide)]; simp [packOne, h]
  · rw [scalar_pack bo (c := .single) (by decide)]; simp [packOne, h]
  · rw [scalar_pack bo (c := .double) (by decide)]; simp [packOne, h]

/-- A platform whose conversions only know a few numbers: `1.0`, the number `2.0 ** 200` that is too large for the
smaller formats, and integers that are too large for a float. -/
def floatPlat : Platform where
  le := true
  packF32 := fun nat f => if f = 0x3FF0000000000000 then some 0x3F800000 else if nat then some 0x7F800000 else none
  unpackF32 := fun u => if u = 0x3F800000 then 0x3FF0000000000000 else 0
  packF16 := fun f => if f = 0x3FF0000000000000 then some 0x3C00 else none
  unpackF16 := fun u => if u = 0x3C00 then 0x3FF0000000000000 else 0
  intToF64 := fun i => if i = 1 then some 0x3FF0000000000000 else if i < 2 ^ 250 then some 0x4C70000000000000 else none

/-- `1.0`, `True` and `1` are the same float; too large numbers raise in standard mode, and are infinite in native mode. -/
example : Real floatPlat (.bool true) 0x3FF0000000000000 ∧ (¬ ∃ i, Whole (.float 0x4C70000000000000) i) ∧
    (scalarSer .le 'f').pack floatPlat [.bool true] = .ok [0, 0, 0x80, 0x3F] ∧
    (scalarSer .le 'f').pack floatPlat [.float 0x4C70000000000000] = .error .overflowError ∧
    (scalarSer .native 'f').pack floatPlat [.float 0x4C70000000000000] = .ok [0, 0, 0x80, 0x7F] ∧
    (scalarSer .le 'f').pack floatPlat [.int (2 ^ 200)] = .error .structError ∧
    (scalarSer .be 'e').pack floatPlat [.float 0x3FF0000000000000] = .ok [0x3C, 0] ∧
    (∀ f, ¬ Real floatPlat (.int (2 ^ 250)) f) := by
  refine ⟨.whole .true rfl, fun ⟨i, h⟩ => (by cases h), by rfl, by rfl, by rfl, by rfl, by rfl, fun f h => ?_⟩
  cases h with
  | whole h e =>
    cases h
    simp only [floatPlat] at e
    split at e
    · omega
    · split at e
      · omega
      · cases e

/-- **C43** (values of the integer types).  `True`, `False` and instances of subclasses are packed as the integer they
stand for; whatever stands for no integer - floats, strings, `None` - is a `struct.error`. -/
theorem C43_int_values {ch : Char} {s : Bool} {w : Nat} (h : (ch, s, w) ∈ intTypes) (P : Platform) (bo : ByteOrder) (v : Val) :
    (∀ i, Whole v i → (intSer bo ch).pack P [v] = (intSer bo ch).pack P [.int i]) ∧
    ((∀ i, ¬ Whole v i) → (intSer bo ch).pack P [v] = .error .structError) := by
  obtain ⟨wd, h1, rfl, h3, _⟩ := intSer_facts h bo
  refine ⟨fun i hi => ?_, fun hi => ?_⟩
  · rw [single_pack h1 rfl, single_pack h1 rfl]
    simp [packOne, (Val.asIndex_iff v i).2 hi, (Val.asIndex_iff (.int i) i).2 (.int i)]
  · rw [single_pack h1 rfl]
    simp [packOne, Val.asIndex_none hi]

example : ('H', false, 2) ∈ intTypes ∧ Whole (.bool true) 1 ∧ (intSer .be 'H').pack plat [.bool true] = .ok [0, 1] ∧
    (∀ i, ¬ Whole (.float 0) i) ∧ (intSer .be 'H').pack plat [.float 0] = .error .structError :=
  ⟨by decide, .true, by rfl, fun _ h => (by cases h), by rfl⟩

/-- **C43** (pointers).  `'P'` exists in native mode only.  It takes integers from `-2**63` to `2**64 - 1`, negative ones as
their remainder modulo `2**64`, and is read as the non-negative number. -/
theorem C43_pointer (bo : ByteOrder) (hbo : bo = .default ∨ bo = .native) (P : Platform) (v : Val) :
    (∀ i, Whole v i → -(2 ^ 63) ≤ i → i < 2 ^ 64 → (scalarSer bo 'P').pack P [v] = .ok (intBytes P bo 8 (i % 2 ^ 64))) ∧
    ((∀ i, Whole v i → ¬ (-(2 ^ 63) ≤ i ∧ i < 2 ^ 64)) → (scalarSer bo 'P').pack P [v] = .error .structError) ∧
    ∀ (n : Nat) (r : Bytes), n < 2 ^ 64 → (scalarSer bo 'P').unpack P (intBytes P bo 8 n ++ r) = .ok [.int n] := by
  have hf : (scalarSer bo 'P').toks = [⟨1, .ptr⟩] ∧ (scalarSer bo 'P').byteOrder = bo := by
    rcases hbo with rfl | rfl <;> decide
  refine ⟨fun i hi h1 h2 => ?_, fun hi => ?_, fun n r hn => ?_⟩
  · rw [single_pack hf.1 rfl, hf.2]
    have e : ((i % 2 ^ 64).toNat : Int) = i % 2 ^ 64 := Int.toNat_of_nonneg (Int.emod_nonneg _ (by decide))
    simp only [packOne, (Val.asIndex_iff v i).2 hi]
    rw [if_pos ⟨h1, h2⟩, orderBytes_little, e]
  · rw [single_pack hf.1 rfl, hf.2]
    cases e : v.asIndex with
    | none => simp [packOne, e]
    | some i =>
      have := hi i ((Val.asIndex_iff v i).1 e)
      simp only [packOne, e]
      rw [if_neg this]
  · have hl : (intBytes P bo 8 n).length = Code.bytes (scalarSer bo 'P').byteOrder.isNative .ptr := by
      rw [intBytes_len]; rfl
    rw [single_unpack hf.1 rfl rfl P _ r hl, hf.2]
    simp [unpackOne, leNat_intBytes P bo 8 n hn]

theorem parseAux_native_only {ch : Char} (hch : ch = 'P' ∨ ch = 'n' ∨ ch = 'N') : ∀ (f : List Char) (acc : Option Nat), ch ∈ f → parseAux false f acc = none
  | [], _, h => by cases h
  | x :: f, acc, h => by
    rcases List.mem_cons.1 h with rfl | h
    · have h1 : ch.isWhitespace = false ∧ ch.isDigit = false := by rcases hch with rfl | rfl | rfl <;> decide
      have h2 : ∃ c, Code.ofChar ch = some c ∧ c.nativeOnly = true := by rcases hch with rfl | rfl | rfl <;> exact ⟨_, rfl, rfl⟩
      obtain ⟨c, h2, h3⟩ := h2
      simp [parseAux, h1.1, h1.2, h2, h3]
    · simp only [parseAux, parseAux_native_only hch f _ h, Option.map_none]
      split
      · rfl
      · split
        · rfl
        · split
          · rfl
          · split <;> rfl

/-- **C43** (native types).  A format with `'P'`, `'n'` or `'N'` is refused in byte orders other than the default and native ones, where it means a
pointer and the signed and unsigned integers of eight bytes. -/
theorem C43_native_only {ch : Char} (hch : ch = 'P' ∨ ch = 'n' ∨ ch = 'N') (bo : ByteOrder) :
    (bo ≠ .default → bo ≠ .native → ∀ f, ch ∈ f → StructSer.mkPlain f bo = .error .structError) ∧
    (bo = .default ∨ bo = .native → StructSer.mkPlain [ch] bo = .ok (scalarSer bo ch) ∧ (scalarSer bo ch).size = 8) := by
  constructor
  · intro h1 h2 f hf
    have hp := parseAux_native_only hch f none hf
    have hsplit : StructSer.formatOk (bo.value ++ f) = false := by
      cases bo <;> first | exact absurd rfl h1 | exact absurd rfl h2 | skip
      all_goals
        show (parse false f).isSome = false
        rw [parse, hp]; rfl
    unfold StructSer.mkPlain
    simp [hsplit]
  · rintro (rfl | rfl) <;> rcases hch with rfl | rfl | rfl <;> exact ⟨by rfl, by rfl⟩

/-- `C43_native_only` applies to a pointer behind other things: `Struct('<2H P')`. -/
example : StructSer.mkPlain "2H P".toList .le = .error .structError ∧ StructSer.mkPlain "2H P".toList .native = .ok ⟨"@2H P".toList, none⟩ :=
  ⟨(C43_native_only (.inl rfl) .le).1 (by decide) (by decide) _ (by decide), by rfl⟩

/-- A negative pointer does not survive. -/
theorem C43_pointer_round_trip_is_false : ¬ ∀ (P : Platform) (i : Int) (d : Bytes),
    (scalarSer .native 'P').pack P [.int i] = .ok d → (scalarSer .native 'P').unpack P d = .ok [.int i] := by
  intro h
  have := h plat (-1) [255, 255, 255, 255, 255, 255, 255, 255] (by rfl)
  have e : (scalarSer .native 'P').unpack plat [255, 255, 255, 255, 255, 255, 255, 255] = .ok [.int 18446744073709551615] := by rfl
  rw [e] at this
  cases this

/-! ### C44: byte strings of fixed length -/

/-- **C44** (hints).  `char[n]` and `pascal[n]` with `n > 0` is one serializer with the one item `ns` or `np`, and keeps it
in any byte order; 0 is no field at all, a negative number a `ValueError`. -/
theorem C44_hint (ctx : HintCtx) (n : Nat) (hn : 0 < n) :
    (∃ s, mkChar ctx (.int n) = .ok (.annot (.plain "bytes") [.ser (.struct s)]) ∧ s.toks = [⟨n, .str⟩] ∧ s.actions = none ∧
      ∀ bo r, s.withByteOrder bo = .ok r → r.byteOrder = bo ∧ r.toks = [⟨n, .str⟩] ∧ r.actions = none) ∧
    ∃ s, mkPascal n = .ok (.annot (.plain "bytes") [.ser (.struct s)]) ∧ s.toks = [⟨n, .pas⟩] ∧ s.actions = none ∧
      ∀ bo r, s.withByteOrder bo = .ok r → r.byteOrder = bo ∧ r.toks = [⟨n, .pas⟩] ∧ r.actions = none := by
  obtain ⟨s, h1, h2, h3, h4, h5⟩ := matmul_char (ch := 's') (c := .str) rfl rfl rfl rfl n hn
  obtain ⟨p, p1, p2, p3, p4, p5⟩ := matmul_char (ch := 'p') (c := .pas) rfl rfl rfl rfl n hn
  refine ⟨⟨s, ?_, h2, h3, fun bo r h => ?_⟩, p, ?_, p2, p3, fun bo r h => ?_⟩
  · show (do Except.ok (Hint.annot (.plain "bytes") [.ser (optSer (← singleChar.matmul n))])) = _
    rw [show singleChar.matmul n = .ok (some s) from h1]; rfl
  · obtain ⟨a, b, c⟩ := toks_wbo h4 h5 h
    exact ⟨a, b.trans h2, c.trans h3⟩
  · rw [mkPascal, p1]; rfl
  · obtain ⟨a, b, c⟩ := toks_wbo p4 p5 h
    exact ⟨a, b.trans p2, c.trans p3⟩

/-- **C44** (hints, other counts). -/
theorem C44_hint_zero (ctx : HintCtx) :
    mkChar ctx (.int 0) = .ok (.annot (.plain "bytes") [.ser .null]) ∧ mkPascal 0 = .ok (.annot (.plain "bytes") [.ser .null]) ∧
    ∀ i : Int, i < 0 → mkChar ctx (.int i) = .error .valueError ∧ mkPascal i = .error .valueError := by
  refine ⟨rfl, rfl, fun i hi => ?_⟩
  have h0 : i ≠ 0 := by omega
  refine ⟨?_, ?_⟩
  · show (do Except.ok (Hint.annot (.plain "bytes") [.ser (optSer (← singleChar.matmul i))])) = _
    simp [StructSer.matmul, StructSer.mulImpl, h0, hi, bind, Except.bind]
  · simp [mkPascal, StructSer.matmul, StructSer.mulImpl, h0, hi, bind, Except.bind]

/-- `char[5]` is `'5s'`, in `'>'` it is `'>5s'`. -/
example : StructSer.matmul ⟨['s'], none⟩ 5 = .ok (some ⟨"5s".toList, none⟩) ∧
    StructSer.withByteOrder ⟨"5s".toList, none⟩ .be = .ok ⟨">5s".toList, none⟩ := ⟨by rfl, by rfl⟩

/-- **C44** (`char[n]`, packing).  A byte string is written as exactly `n` bytes: its own, cut off after `n` or filled up with
zeros.  Anything else is a `struct.error`. -/
theorem C44_char_pack {s : StructSer} {n : Nat} (hs : s.toks = [⟨n, .str⟩]) (P : Platform) (v : Val) :
    (∀ b, ByteString v b → ∃ d, s.pack P [v] = .ok d ∧ Fitted n b d) ∧
    ((∀ b, ¬ ByteString v b) → s.pack P [v] = .error .structError) := by
  refine ⟨fun b hb => ⟨fitTo n b, ?_, fitTo_fitted n b⟩, fun hb => ?_⟩
  · rw [str_pack hs, (Val.asBytes_iff v b).2 hb]
  · rw [str_pack hs, Val.asBytes_none hb]

/-- **C44** (`char[n]`, reading).  The `n` bytes are the value, zeros included; with fewer bytes there is nothing to read. -/
theorem C44_char_unpack {s : StructSer} {n : Nat} (hs : s.toks = [⟨n, .str⟩]) (ha : s.actions = none) (P : Platform) :
    (∀ d r : Bytes, d.length = n → s.unpack P (d ++ r) = .ok [.bytes d]) ∧
    ∀ d : Bytes, d.length < n → s.unpack P d = .error .structError := by
  refine ⟨fun d r hd => strs_unpack hs (.inl rfl) ha P d r hd, fun d hd => ?_⟩
  have hsz := strs_size hs (.inl rfl)
  have h2 := hsz
  rw [StructSer.size] at h2
  simp only [StructSer.unpack, structUnpack, hsz, h2, List.length_take]
  rw [if_neg (by omega)]
  rfl

/-- **C44** (`char[n]`, round trip).  Exactly the byte strings of length `n` survive. -/
theorem C44_char_round_trip {s : StructSer} {n : Nat} (hs : s.toks = [⟨n, .str⟩]) (ha : s.actions = none) (P : Platform) (b r : Bytes) :
    (∃ d, s.pack P [.bytes b] = .ok d ∧ s.unpack P (d ++ r) = .ok [.bytes b]) ↔ b.length = n := by
  obtain ⟨d, hp, hd⟩ := (C44_char_pack hs P (.bytes b)).1 b (.bytes b)
  have hu := (C44_char_unpack hs ha P).1 d r hd.1
  refine ⟨fun ⟨d', h1, h2⟩ => ?_, fun h => ⟨d, hp, ?_⟩⟩
  · rw [hp] at h1; cases h1
    rw [hu] at h2
    have : d = b := by injection h2 with h2; injection h2 with h2; injection h2
    rw [← this]; exact hd.1
  · subst h
    rw [hu, fitted_unique hd ⟨rfl, fun i hi => by simp [hi]⟩]

/-- `char[3]`: `b'abcde'` is cut off, `b'a'` is filled up and comes back longer. -/
example : (⟨"3s".toList, none⟩ : StructSer).toks = [⟨3, .str⟩] ∧
    StructSer.pack plat ⟨"3s".toList, none⟩ [.bytes [97, 98, 99, 100, 101]] = .ok [97, 98, 99] ∧
    StructSer.pack plat ⟨"3s".toList, none⟩ [.bytes [97]] = .ok [97, 0, 0] ∧
    StructSer.unpack plat ⟨"3s".toList, none⟩ [97, 0, 0, 5] = .ok [.bytes [97, 0, 0]] ∧
    StructSer.pack plat ⟨"3s".toList, none⟩ [.str [97]] = .error .structError :=
  ⟨by decide, by rfl, by rfl, by rfl, by rfl⟩

/-- **C44** (`pascal[n]`, packing).  `n` bytes are written: the number of bytes kept - at most `n - 1` and at most 255 - then the
bytes of the string as far as there is room, then zeros. -/
theorem C44_pascal_pack {s : StructSer} {n : Nat} (hs : s.toks = [⟨n + 1, .pas⟩]) (P : Platform) (v : Val) :
    (∀ b, ByteString v b → ∃ d, s.pack P [v] = .ok (UInt8.ofNat (min (min b.length n) 255) :: d) ∧ Fitted n b d) ∧
    ((∀ b, ¬ ByteString v b) → s.pack P [v] = .error .structError) := by
  refine ⟨fun b hb => ⟨fitTo n b, ?_, fitTo_fitted n b⟩, fun hb => ?_⟩
  · rw [pas_pack hs, (Val.asBytes_iff v b).2 hb]
    simp only [Nat.add_sub_cancel, fitTo, List.take_succ_cons, List.length_cons, List.length_take, List.cons_append, List.take_take,
      Nat.min_self]
    rw [show n + 1 - (min n b.length + 1) = n - b.length by omega]
  · rw [pas_pack hs, Val.asBytes_none hb]

/-- **C44** (`pascal[n]`, reading).  The first byte says how many of the following bytes are the value; more than there are
means all of them. -/
theorem C44_pascal_unpack {s : StructSer} {n : Nat} (hs : s.toks = [⟨n + 1, .pas⟩]) (ha : s.actions = none) (P : Platform)
    (k : UInt8) (d r : Bytes) (hd : d.length = n) :
    s.unpack P (k :: (d ++ r)) = .ok [.bytes (d.take (min k.toNat n))] := by
  have := strs_unpack hs (.inr rfl) ha P (k :: d) r (by simp [hd])
  rw [← List.cons_append, this, ← hd]
  simp [unpackTok, List.take_eq_take_iff]

/-- **C44** (`pascal[n]`, round trip).  Exactly the byte strings with at most `n - 1` and at most 255 bytes survive; of others
the first so many bytes are kept. -/
theorem C44_pascal_round_trip {s : StructSer} {n : Nat} (hs : s.toks = [⟨n + 1, .pas⟩]) (ha : s.actions = none) (P : Platform) (b r : Bytes) :
    ∃ d, s.pack P [.bytes b] = .ok d ∧ s.unpack P (d ++ r) = .ok [.bytes (b.take (min n 255))] := by
  obtain ⟨d, hp, hd⟩ := (C44_pascal_pack hs P (.bytes b)).1 b (.bytes b)
  refine ⟨_, hp, ?_⟩
  rw [List.cons_append, C44_pascal_unpack hs ha P _ d r hd.1]
  have hk : (UInt8.ofNat (min (min b.length n) 255)).toNat = min (min b.length n) 255 := by
    rw [UInt8.toNat_ofNat', Nat.mod_eq_of_lt (by omega)]
  rw [hk]
  have e : d.take (min (min (min b.length n) 255) n) = b.take (min n 255) := by
    rw [fitted_unique hd (fitTo_fitted n b), fitTo, List.take_append_of_le_length (by simp; omega), List.take_take,
      List.take_eq_take_iff]
    omega
  rw [e]

/-- `pascal[4]`: `b'abcde'` keeps three bytes, a length byte that is too large reads what there is. -/
example : (⟨"4p".toList, none⟩ : StructSer).toks = [⟨3 + 1, .pas⟩] ∧
    StructSer.pack plat ⟨"4p".toList, none⟩ [.bytes [97, 98, 99, 100, 101]] = .ok [3, 97, 98, 99] ∧
    StructSer.pack plat ⟨"4p".toList, none⟩ [.bytes [97]] = .ok [1, 97, 0, 0] ∧
    StructSer.unpack plat ⟨"4p".toList, none⟩ [9, 97, 0, 98] = .ok [.bytes [97, 0, 98]] :=
  ⟨by decide, by rfl, by rfl, by rfl⟩

/-- **C44** (`'c'`).  A single byte is written only from a byte string of length one. -/
theorem C44_byte (bo : ByteOrder) (P : Platform) (v : Val) :
    (∀ x, ByteString v [x] → (scalarSer bo 'c').pack P [v] = .ok [x]) ∧
    ((∀ x, ¬ ByteString v [x]) → (scalarSer bo 'c').pack P [v] = .error .structError) ∧
    ∀ (x : UInt8) (r : Bytes), (scalarSer bo 'c').unpack P (x :: r) = .ok [.bytes [x]] := by
  rw [scalar_pack bo (c := .chr) (by decide)]
  refine ⟨fun x h => ?_, fun h => ?_, fun x r => ?_⟩
  · simp [packOne, (Val.asBytes_iff v [x]).2 h]
  · cases e : v.asBytes with
    | none => simp [packOne, e]
    | some b =>
      match b with
      | [] => simp [packOne, e]
      | [x] => exact absurd ((Val.asBytes_iff v [x]).1 e) (h x)
      | _ :: _ :: _ => simp [packOne, e]
  · have := scalar_unpack bo (ch := 'c') (c := .chr) (by decide) P [x] r rfl
    rw [show x :: r = [x] ++ r from rfl, this]; rfl

example : (scalarSer .le 'c').pack plat [.bytes [7]] = .ok [7] ∧ (scalarSer .le 'c').pack plat [.bytes []] = .error .structError :=
  ⟨by rfl, by rfl⟩

end Verif
