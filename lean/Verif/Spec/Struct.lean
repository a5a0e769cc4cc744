import Verif.Structs
/-
Specifications used in the theorems about basic (struct) fields.
-/
namespace Verif

/-- A format consisting of one item: optional digits and a code. -/
def SingleItem (f : List Char) : Prop :=
  ∃ ds ch, f = ds ++ [ch] ∧ (∀ d ∈ ds, d.isDigit = true) ∧ isStructChar ch = true

end Verif
namespace Verif.Spec

/-- Two struct serializers that cannot be told apart by using them. -/
structure SameStruct (s t : StructSer) : Prop where
  size : s.size = t.size
  numValues : s.numValues = t.numValues
  pack : ∀ P vs, s.pack P vs = t.pack P vs
  packInto : ∀ P buf off vs, s.packInto P buf off vs = t.packInto P buf off vs
  unpack : ∀ P buf, s.unpack P buf = t.unpack P buf
  unpackFrom : ∀ P buf off, s.unpackFrom P buf off = t.unpackFrom P buf off
  unpackRead : ∀ P data, s.unpackRead P data = t.unpackRead P data

/-- The two format texts written one after the other, in the byte order of the first. -/
def concat (a b : StructSer) : StructSer :=
  ⟨a.byteOrder.value ++ (a.baseFormat ++ b.baseFormat), none⟩

/-- The two formats meet in the same code, which is not a string: `a` ends with the character, `b` starts with a count
and the character; `rest` is what follows in `b`. -/
def Meets (a b : StructSer) (es : List Char) (ch : Char) (rest : List Char) : Prop :=
  (∃ p, a.baseFormat = p ++ [ch]) ∧ b.baseFormat = es ++ ch :: rest ∧ (∀ d ∈ es, d.isDigit = true) ∧
    isStructChar ch = true ∧ ch ≠ 's' ∧ ch ≠ 'p'

/-- The format text written `n` times. -/
def repeated (a : StructSer) (n : Nat) : StructSer :=
  ⟨a.byteOrder.value ++ (List.replicate n a.baseFormat).flatten, none⟩

/-- Base-256 digits of an integer, least significant first.  Division rounds down, so for negative
numbers these are the digits of the two's complement representation. -/
def digitsLE (w : Nat) (i : Int) : Bytes :=
  (List.range w).map fun k => UInt8.ofNat (i / 256 ^ k % 256).toNat

/-- The integer types of `hint_types/basic_types.py:27-34`: format character, signed, width. -/
def intTypes : List (Char × Bool × Nat) :=
  [('b', true, 1), ('B', false, 1), ('h', true, 2), ('H', false, 2), ('i', true, 4), ('I', false, 4),
   ('q', true, 8), ('Q', false, 8)]

/-- The serializer of an integer type in a byte order. -/
def intSer (bo : ByteOrder) (ch : Char) : StructSer := ⟨bo.value ++ [ch], none⟩

/-- The sizes in the standard modes, as documented for Python's `struct` module. -/
def standardSizes : List (Char × Nat) :=
  [('x', 1), ('c', 1), ('b', 1), ('B', 1), ('?', 1), ('h', 2), ('H', 2), ('i', 4), ('I', 4), ('l', 4), ('L', 4),
   ('q', 8), ('Q', 8), ('e', 2), ('f', 4), ('d', 8), ('s', 1), ('p', 1)]

/-- The values of an integer type. -/
def InRange (signed : Bool) (w : Nat) (i : Int) : Prop :=
  if signed then -(2 ^ (8 * w - 1)) ≤ i ∧ i < 2 ^ (8 * w - 1) else 0 ≤ i ∧ i < 2 ^ (8 * w)

instance (s : Bool) (w : Nat) (i : Int) : Decidable (InRange s w i) := by
  unfold InRange; infer_instance

/-- What unpacking several fields should give: each serializer's own transformation on its own
share of the raw values. -/
def applyBoth (a b : StructSer) (raw : List Val) : Except Err (List Val) := do
  let x ← a.applyActions (raw.take a.numValues)
  let y ← b.applyActions (raw.drop a.numValues)
  .ok (x ++ y)

/-- The same for `n` fields with the same serializer. -/
def applyN (a : StructSer) : Nat → List Val → Except Err (List Val)
  | 0, _ => .ok []
  | n + 1, raw => do
    let x ← a.applyActions (raw.take a.numValues)
    let y ← applyN a n (raw.drop a.numValues)
    .ok (x ++ y)

end Verif.Spec
