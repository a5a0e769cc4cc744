import Verif.Spec.Strings
/-
Specifications used in the theorems about the basic types other than integers, and about strings of fixed length.
-/
namespace Verif.Spec

/-- The serializer of a type with one format character in a byte order (`hint_types/basic_types.py:26-37`). -/
def scalarSer (bo : ByteOrder) (ch : Char) : StructSer := ⟨bo.value ++ [ch], none⟩

/-- The values whose truth value is false: `None`, zero, `False`, the two zeros among the floats, everything empty;
an instance of a subclass of one of these types with such a value. -/
inductive Falsy : Val → Prop
  | none : Falsy .none
  | zero : Falsy (.int 0)
  | false : Falsy (.bool false)
  | posZero : Falsy (.float 0)
  | negZero : Falsy (.float 0x8000000000000000)
  | bytes : Falsy (.bytes [])
  | str : Falsy (.str [])
  | list : Falsy (.list [])
  | tup : Falsy (.tup [])
  | custom {n v} : Falsy v → Falsy (.custom n v)

/-- The integer a value stands for: an integer, `True` and `False`, instances of subclasses. -/
inductive Whole : Val → Int → Prop
  | int (i) : Whole (.int i) i
  | true : Whole (.bool true) 1
  | false : Whole (.bool false) 0
  | custom {n v i} : Whole v i → Whole (.custom n v) i

/-- The float a value stands for, as the bits of a binary64 number: a float, an integer that is converted, instances
of subclasses. -/
inductive Real (P : Platform) : Val → UInt64 → Prop
  | float (f) : Real P (.float f) f
  | whole {v i f} : Whole v i → P.intToF64 i = some f → Real P v f
  | custom {n v f} : Real P v f → Real P (.custom n v) f

/-- The byte string a value stands for. -/
inductive ByteString : Val → Bytes → Prop
  | bytes (b) : ByteString (.bytes b) b
  | custom {n v b} : ByteString v b → ByteString (.custom n v) b

/-- Exactly `n` bytes: those of `b` as far as they go, zeros after them. -/
def Fitted (n : Nat) (b d : Bytes) : Prop :=
  d.length = n ∧ ∀ i, i < n → d[i]? = some (b[i]?.getD 0)

end Verif.Spec
