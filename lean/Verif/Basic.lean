/-
Python values, exceptions, streams and the mutable state the library works on.
No library code is modelled in this file; it is the vocabulary of the model.
-/
namespace Verif

abbrev Byte := UInt8
abbrev Bytes := List UInt8

/-- A Python `str`: its list of code points. -/
abbrev PyStr := List Nat

/-- Attribute names. -/
abbrev Name := String

/-- Identity of a class object. -/
abbrev ClassId := Nat

/-- Identity of a serializer object (`id(obj)`).  `with_byte_order` makes new objects; the copy of
object `i` for byte order number `k` gets the id `k :: i`, so that two calls with the same byte order are taken to make
the same object: where the code makes two, the model lets them share their attributes. -/
abbrev SerId := List Nat

/-- The exception classes that can leave the library (messages are not modelled). -/
inductive Err
  | structError       -- struct.error
  | valueError
  | typeError
  | indexError
  | attributeError
  | keyError
  | notImplementedError
  | recursionError
  | overflowError
  | unicodeError
  | user (n : Nat)    -- anything raised by user supplied callables
  deriving DecidableEq, Repr, Inhabited

/-- `structured/base_types.py:15-27` `class ByteOrder`. -/
inductive ByteOrder
  | default | le | be | nativeStd | native | network
  deriving DecidableEq, Repr, Inhabited

/-- Python values that can be packed or come out of unpacking. -/
inductive Val
  | none
  | int (i : Int)
  | bool (b : Bool)
  /-- IEEE-754 double, by its bits -/
  | float (bits : UInt64)
  | bytes (b : Bytes)
  | str (s : PyStr)
  | list (vs : List Val)
  | tup (vs : List Val)
  /-- instance of a `Structured` class; `bo` is the instance-level byte order set by
  `Structured.with_byte_order` (`none`: the class's own serializer is used) -/
  | obj (cls : ClassId) (bo : Option ByteOrder) (attrs : List (Name × Val))
  /-- instance of a user type wrapping `v`, whose `__index__`/`__float__`/buffer is `v`'s -/
  | custom (tag : Nat) (v : Val)
  /-- a not yet started generator object -/
  | gen
  deriving Repr, Inhabited

/-- The `partial_object` handed to `prepack`/`preunpack`: a `Structured` instance or a `_Proxy`
with the attributes set so far. -/
structure PObj where
  cls : ClassId
  isProxy : Bool
  attrs : List (Name × Val)
  deriving Inhabited

/-- Attribute lookup; `none` is `AttributeError`. -/
def getAttr? (attrs : List (Name × Val)) (a : Name) : Option Val :=
  (attrs.find? (fun p => p.1 == a)).map (·.2)

/-- `setattr`: replace the value in place, or add a new attribute. -/
def setAttr : List (Name × Val) → Name → Val → List (Name × Val)
  | [], a, v => [(a, v)]
  | (b, w) :: rest, a, v => if b == a then (a, v) :: rest else (b, w) :: setAttr rest a v

/-- A `BytesIO`-like binary stream. -/
structure Stream where
  data : Bytes
  pos : Nat
  deriving Inhabited, DecidableEq, Repr

/-- `BytesIO.write` (zero fill when the position is past the end; empty writes do nothing). -/
def Stream.write (s : Stream) (b : Bytes) : Stream :=
  if b = [] then s else
  { data := s.data.take s.pos ++ List.replicate (s.pos - s.data.length) 0 ++ b
            ++ s.data.drop (s.pos + b.length)
    pos := s.pos + b.length }

/-- `BytesIO.read(n)`. -/
def Stream.read (s : Stream) (n : Nat) : Bytes × Stream :=
  let d := (s.data.drop s.pos).take n
  (d, { s with pos := s.pos + d.length })

/-- `BytesIO.read()`. -/
def Stream.readAll (s : Stream) : Bytes × Stream :=
  let d := s.data.drop s.pos
  (d, { s with pos := s.pos + d.length })

/-- `BytesIO.seek(delta, SEEK_CUR)` (a negative result is clipped to 0, as `BytesIO` does). -/
def Stream.seekCur (s : Stream) (delta : Int) : Stream :=
  { s with pos := ((s.pos : Int) + delta).toNat }

/-- The mutable attributes of one serializer object. -/
structure Cell where
  /-- the `.size` attribute -/
  size : Nat := 0
  /-- the `_partial_object`/`_partial_obj` attribute (`none`: not set, reading is AttributeError) -/
  part : Option PObj := none
  deriving Inhabited

/-- Everything an operation can read or change besides its arguments. -/
structure St where
  cells : SerId → Cell
  /-- the buffer that `pack_into` writes to -/
  buf : Bytes
  /-- the stream that `pack_write` writes to and `unpack_read` reads from -/
  io : Stream
  deriving Inhabited

inductive Res (α : Type) where
  | ok (a : α) (s : St)
  | err (e : Err) (s : St)

/-- State and exceptions; the state survives an exception (as in Python). -/
def M (α : Type) := St → Res α

namespace M

def pure (a : α) : M α := fun s => .ok a s

def bind (x : M α) (f : α → M β) : M β := fun s =>
  match x s with
  | .ok a s' => f a s'
  | .err e s' => .err e s'

instance : Monad M where
  pure := M.pure
  bind := M.bind

def throw (e : Err) : M α := fun s => .err e s

/-- A pure computation that may raise. -/
def lift (x : Except Err α) : M α := fun s =>
  match x with
  | .ok a => .ok a s
  | .error e => .err e s

def get : M St := fun s => .ok s s

def modify (f : St → St) : M Unit := fun s => .ok () (f s)

end M

/-- `self.size = n` -/
def setSize (i : SerId) (n : Nat) : M Unit :=
  M.modify fun s => { s with cells := fun j => if j = i then { s.cells j with size := n } else s.cells j }

/-- `self._partial_object = p` -/
def setPart (i : SerId) (p : PObj) : M Unit :=
  M.modify fun s => { s with cells := fun j => if j = i then { s.cells j with part := some p } else s.cells j }

/-- read `self._partial_object` -/
def getPart (i : SerId) : M PObj := fun s =>
  match (s.cells i).part with
  | some p => .ok p s
  | none => .err .attributeError s

/-- read `self.size` -/
def getCellSize (i : SerId) : M Nat := fun s => .ok (s.cells i).size s

/-- The C float conversions used by `struct` and the host byte order.  Nothing is assumed of them. -/
structure Platform where
  /-- host is little endian -/
  le : Bool
  /-- double to binary32 for `'f'` (argument: native mode); `none` is OverflowError -/
  packF32 : Bool → UInt64 → Option UInt32
  unpackF32 : UInt32 → UInt64
  /-- double to binary16 for `'e'`; `none` is OverflowError -/
  packF16 : UInt64 → Option UInt16
  unpackF16 : UInt16 → UInt64
  /-- `int.__float__`; `none`: too large -/
  intToF64 : Int → Option UInt64

end Verif
