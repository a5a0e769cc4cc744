import Verif.Proofs.IntLemmas
import Verif.Proofs.AddLemmas
/-
C13: encoding of integers; and the bytes of concatenated formats (part of C09).
-/
namespace Verif
open Spec

/-- **C13** (`<`).  In range integers are written as their base-256 digits, least significant first,
on every host. -/
theorem C13_little_endian {ch : Char} {s : Bool} {w : Nat} (h : (ch, s, w) ∈ intTypes) (P : Platform)
    (i : Int) (hi : InRange s w i) : (intSer .le ch).pack P [.int i] = .ok (digitsLE w i) := by
  rw [intSer_pack h, encodeInt_eq, if_pos ((intInRange_iff s w i).2 hi)]; rfl

/-- **C13** (`>` and `!`).  The same digits in the opposite order, on every host. -/
theorem C13_big_endian {ch : Char} {s : Bool} {w : Nat} (h : (ch, s, w) ∈ intTypes) (P : Platform)
    (i : Int) (hi : InRange s w i) (bo : ByteOrder) (hbo : bo = .be ∨ bo = .network) :
    (intSer bo ch).pack P [.int i] = .ok (digitsLE w i).reverse := by
  rw [intSer_pack h, encodeInt_eq, if_pos ((intInRange_iff s w i).2 hi)]
  rcases hbo with rfl | rfl <;> rfl

/-- **C13** (other orders).  `''`, `'@'` and `'='` use the order of the host. -/
theorem C13_native_order {ch : Char} {s : Bool} {w : Nat} (h : (ch, s, w) ∈ intTypes) (P : Platform)
    (i : Int) (hi : InRange s w i) (bo : ByteOrder)
    (hbo : bo = .default ∨ bo = .native ∨ bo = .nativeStd) :
    (intSer bo ch).pack P [.int i] = .ok (if P.le then digitsLE w i else (digitsLE w i).reverse) := by
  rw [intSer_pack h, encodeInt_eq, if_pos ((intInRange_iff s w i).2 hi)]
  rcases hbo with rfl | rfl | rfl <;> rfl

/-- **C13** (range).  An integer outside the range of the type raises `struct.error` in every byte
order: nothing wraps around. -/
theorem C13_out_of_range {ch : Char} {s : Bool} {w : Nat} (h : (ch, s, w) ∈ intTypes) (P : Platform)
    (i : Int) (hi : ¬ InRange s w i) (bo : ByteOrder) :
    (intSer bo ch).pack P [.int i] = .error .structError := by
  rw [intSer_pack h, encodeInt_eq, if_neg (by rw [intInRange_iff]; exact hi)]

/-- **C13** (inverse).  Whatever was packed unpacks to the same integer, whatever follows. -/
theorem C13_unpack_pack {ch : Char} {s : Bool} {w : Nat} (h : (ch, s, w) ∈ intTypes) (P : Platform)
    (bo : ByteOrder) (i : Int) (b rest : Bytes) (hp : (intSer bo ch).pack P [.int i] = .ok b) :
    (intSer bo ch).unpack P (b ++ rest) = .ok [.int i] := by
  rw [intSer_pack h] at hp
  obtain ⟨_, _, _, _, _, hw, _⟩ := intSer_facts h bo
  rw [intSer_unpack h bo P b rest (encodeInt_length hp), decodeInt_encodeInt hw hp]

/-- **C13** (sizes).  In the byte orders `'<'`, `'>'`, `'='`, `'!'` every type has its standard size. -/
theorem C13_standard_sizes {ch : Char} {w : Nat} (h : (ch, w) ∈ standardSizes) (bo : ByteOrder) (hbo : bo.isNative = false) :
    (intSer bo ch).size = w := by
  simp only [standardSizes, List.mem_cons, Prod.mk.injEq, List.not_mem_nil, or_false] at h
  rcases h with ⟨rfl, rfl⟩ | ⟨rfl, rfl⟩ | ⟨rfl, rfl⟩ | ⟨rfl, rfl⟩ | ⟨rfl, rfl⟩ | ⟨rfl, rfl⟩ | ⟨rfl, rfl⟩ | ⟨rfl, rfl⟩ | ⟨rfl, rfl⟩ |
    ⟨rfl, rfl⟩ | ⟨rfl, rfl⟩ | ⟨rfl, rfl⟩ | ⟨rfl, rfl⟩ | ⟨rfl, rfl⟩ | ⟨rfl, rfl⟩ | ⟨rfl, rfl⟩ | ⟨rfl, rfl⟩ | ⟨rfl, rfl⟩ <;>
  cases bo <;> first | rfl | cases hbo

example : ('q', 8) ∈ standardSizes ∧ ByteOrder.isNative .be = false ∧ (intSer .be 'q').size = 8 := by decide

/-- `-2` as `int16`, `'<'`: `FE FF`; `40000` does not fit `int16`. -/
example : ('h', true, 2) ∈ intTypes ∧ InRange true 2 (-2) ∧ digitsLE 2 (-2) = [0xFE, 0xFF] ∧
    ¬ InRange true 2 40000 ∧ InRange false 2 40000 ∧ digitsLE 2 40000 = [0x40, 0x9C] := by
  refine ⟨by decide, by decide, by decide, by decide, by decide, by decide⟩

/-- **C09** (bytes).  In byte orders without alignment the concatenated format packs the
concatenated values to the concatenated bytes. -/
theorem C09_concat_bytes (a b : StructSer) (ha : a.Valid) (hb : b.Valid)
    (hbo : a.byteOrder = b.byteOrder) (hstd : a.byteOrder.isNative = false) (P : Platform)
    (vs ws : List Val) (hv : vs.length = a.numValues) (hw : ws.length = b.numValues) :
    (concat a b).pack P (vs ++ ws) = (do
      let x ← a.pack P vs
      let y ← b.pack P ws
      .ok (x ++ y)) := by
  have h1 := StructSer.parse_base ha.fmt
  have h2 := StructSer.parse_base hb.fmt
  rw [← hbo] at h2
  have hcat : parse a.byteOrder.isNative (a.baseFormat ++ b.baseFormat) = some (a.toks ++ b.toks) := by
    rw [parse_append h1, h2]; rfl
  obtain ⟨_, c1, _, c2⟩ := StructSer.of_parse (a := none) hcat
  have hpk : (concat a b).pack P (vs ++ ws) = structPack P a.byteOrder (a.toks ++ b.toks) (vs ++ ws) := by
    rw [StructSer.pack]
    show structPack P (concat a b).byteOrder (concat a b).toks _ = _
    rw [show (concat a b).byteOrder = a.byteOrder from c1, show (concat a b).toks = _ from c2]
  rw [hpk]
  simp only [StructSer.pack, structPack, ← hbo, numVals_append, List.length_append]
  have hv' : vs.length = numVals a.toks := hv
  have hw' : ws.length = numVals b.toks := hw
  rw [if_pos hv', if_pos (by omega), if_pos hw', packToks_append]
  rw [packToks_take P _ _ _ vs ws (by omega)]
  cases packToks P a.byteOrder a.toks 0 vs with
  | error e => rfl
  | ok x =>
    simp only [bind, Except.bind]
    rw [← hv', List.drop_left' rfl, packToks_offset hstd b.toks (0 + x.length) 0]

example : (⟨"<h".toList, none⟩ : StructSer).Valid ∧ (⟨"<I".toList, none⟩ : StructSer).Valid ∧
    (⟨"<h".toList, none⟩ : StructSer).byteOrder.isNative = false :=
  ⟨⟨by decide, by simp⟩, ⟨by decide, by simp⟩, by decide⟩

end Verif
