import Verif.StructMod
/-
`structured/serializers/structs.py`: format string folding, `StructSerializer` and
`StructActionSerializer`.
-/
namespace Verif

/-- `structs.py:57` `_struct_chars` -/
def isStructChar (c : Char) : Bool := (Code.ofChar c).isSome

/-- Decimal value of digits, `int(digits)`. -/
def digitsVal (ds : List Char) : Nat := ds.foldl (fun a d => a * 10 + (d.toNat - '0'.toNat)) 0

/-- `structs.py:58` `_re_end.match(format1).groups()`: (prelude, digits, code) with the longest run
of digits before the last character. -/
def reEnd (cs : List Char) : Option (List Char × List Char × Char) :=
  match cs.reverse with
  | [] => none
  | c :: rest =>
    if isStructChar c then
      some ((rest.dropWhile Char.isDigit).reverse, (rest.takeWhile Char.isDigit).reverse, c)
    else none

/-- `structs.py:59` `_re_start.match(format2).groups()`: (digits, code, epilogue).  The last group
`(.*?)` is lazy and nothing follows it, so it always matches the empty string. -/
def reStart (cs : List Char) : Option (List Char × Char × List Char) :=
  match cs.dropWhile Char.isDigit with
  | [] => none
  | c :: _ => if isStructChar c then some (cs.takeWhile Char.isDigit, c, []) else none

/-- `int(count) if count else 1` (`structs.py:77-78`) -/
def countVal (ds : List Char) : Nat := if ds = [] then 1 else digitsVal ds

/-- `structs.py:62-80` `fold_overlaps` -/
def foldOverlaps (combineStrings : Bool) (format1 format2 : List Char) : List Char :=
  match reStart format2, reEnd format1 with
  | some (count2, overlap2, epilogue), some (prelude, count1, overlap1) =>
    if overlap1 = overlap2 ∧ (combineStrings ∨ ¬ (overlap1 = 's' ∨ overlap1 = 'p')) then
      prelude ++ Nat.toDigits 10 (countVal count1 + countVal count2) ++ [overlap1] ++ epilogue
    else format1 ++ format2
  | _, _ => format1 ++ format2

/-- `base_types.py:15-27` `ByteOrder.value` -/
def ByteOrder.value : ByteOrder → List Char
  | .default => []
  | .le => ['<']
  | .be => ['>']
  | .nativeStd => ['=']
  | .native => ['@']
  | .network => ['!']

/-- `ByteOrder(char)` -/
def ByteOrder.ofChar (c : Char) : Option ByteOrder :=
  if c = '<' then some .le
  else if c = '>' then some .be
  else if c = '=' then some .nativeStd
  else if c = '@' then some .native
  else if c = '!' then some .network
  else none

/-- `structs.py:83-89` `split_byte_order` -/
def splitByteOrder (format : List Char) : ByteOrder × List Char :=
  match format with
  | [] => (.default, format)
  | c :: rest => match ByteOrder.ofChar c with
    | some bo => (bo, rest)
    | none => (.default, format)

/-- A value transformation of a `StructActionSerializer`; it may raise. -/
abbrev Action := Val → Except Err Val

/-- `structs.py:37-41` `noop_action` -/
def noopAction : Action := .ok

/-- A `StructSerializer` (`actions = none`) or `StructActionSerializer` object: `structs.py:92-315`.
`format` is the `struct.Struct.format` attribute, byte order character included. -/
structure StructSer where
  format : List Char
  actions : Option (List Action)

namespace StructSer

/-- `structs.py:97-99` -/
def byteOrder (s : StructSer) : ByteOrder := (splitByteOrder s.format).1

/-- `structs.py:101-103` -/
def baseFormat (s : StructSer) : List Char := (splitByteOrder s.format).2

/-- The format is accepted by `struct.Struct.__init__`. -/
def formatOk (format : List Char) : Bool :=
  let (bo, base) := splitByteOrder format
  (parse bo.isNative base).isSome

/-- The compiled format (every `StructSer` object was accepted by `struct.Struct.__init__`). -/
def toks (s : StructSer) : List Tok := (parse s.byteOrder.isNative s.baseFormat).getD []

/-- `struct.Struct.size` -/
def size (s : StructSer) : Nat := sizeToks s.byteOrder.isNative s.toks

/-- `structs.py:44-54` `compute_num_values`: the number of values unpacked from a zeroed buffer.  `NumValues.lean` has the function
with its cache. -/
def numValues (s : StructSer) : Nat := numVals s.toks

/-- `structs.py:109-115` `StructSerializer.__init__` -/
def mkPlain (format : List Char) (bo : ByteOrder) : Except Err StructSer :=
  let f := bo.value ++ format
  if formatOk f then .ok ⟨f, none⟩ else .error .structError

/-- `structs.py:227-238` `StructActionSerializer.__init__` -/
def mkActions (format : List Char) (bo : ByteOrder) (actions : List Action) : Except Err StructSer :=
  let f := bo.value ++ format
  if formatOk f then
    let n := numValues ⟨f, none⟩
    if actions.length < n then
      .ok ⟨f, some (actions ++ List.replicate (n - actions.length) noopAction)⟩
    else .ok ⟨f, some actions⟩
  else .error .structError

/-- `type(self)(fmt, byte_order)` -/
def remake (s : StructSer) (format : List Char) (bo : ByteOrder) : Except Err StructSer :=
  match s.actions with
  | none => mkPlain format bo
  | some _ => mkActions format bo []

/-- `structs.py:120-125` and `259-263` `with_byte_order` -/
def withByteOrder (s : StructSer) (bo : ByteOrder) : Except Err StructSer :=
  if s.byteOrder = bo then .ok s
  else do
    let r ← s.remake s.baseFormat bo
    .ok { r with actions := s.actions }

/-- `structs.py:156-170`, `275-286`, `288-299`: adding two struct serializers.  For
`StructSerializer + StructActionSerializer` Python tries the reflected method of the subclass first. -/
def add (a b : StructSer) : Except Err StructSer :=
  let fmt := foldOverlaps false a.baseFormat b.baseFormat
  match a.actions, b.actions with
  | none, none =>
    if a.byteOrder = b.byteOrder then mkPlain fmt a.byteOrder else .error .valueError
  | none, some acts => mkActions fmt a.byteOrder (List.replicate a.numValues noopAction ++ acts)
  | some acts, none => mkActions fmt a.byteOrder acts
  | some acts, some acts' => mkActions fmt a.byteOrder (acts ++ acts')

/-- `structs.py:187-200` `_mul_impl`; `none` is `NullSerializer()`. -/
def mulImpl (s : StructSer) (other : Int) (combineStrings : Bool) : Except Err (Option StructSer) :=
  if other = 0 then .ok none
  else if other < 0 then .error .valueError
  else if other = 1 then .ok (some s)
  else do
    -- `reduce(fold_overlaps, repeat(fmt, other))`
    let fmt := (List.replicate (other.toNat - 1) s.baseFormat).foldl (foldOverlaps combineStrings)
      s.baseFormat
    let r ← s.remake fmt s.byteOrder
    .ok (some r)

/-- `structs.py:172-178` and `301-304` `__mul__` -/
def mul (s : StructSer) (other : Int) : Except Err (Option StructSer) := do
  let r ← s.mulImpl other false
  match r, s.actions with
  | some t, some acts => .ok (some { t with actions := some (List.replicate other.toNat acts).flatten })
  | r, _ => .ok r

/-- `structs.py:180-185` `__matmul__` -/
def matmul (s : StructSer) (other : Int) : Except Err (Option StructSer) := s.mulImpl other true

/-- `self + x` where `x` is a struct serializer or `NullSerializer()` (`api.py:229-230`). -/
def addN (s : StructSer) : Option StructSer → Except Err StructSer
  | none => .ok s
  | some t => s.add t

/-- `zip(self.actions, values)` with the action applied (`structs.py:241-257`). -/
def runActions : List Action → List Val → Except Err (List Val)
  | a :: as, v :: vs => do
    let w ← a v
    let ws ← runActions as vs
    .ok (w :: ws)
  | _, _ => .ok []

def applyActions (s : StructSer) (vs : List Val) : Except Err (List Val) :=
  match s.actions with
  | none => .ok vs
  | some as => runActions as vs

/-- `struct.Struct.pack` (inherited) -/
def pack (P : Platform) (s : StructSer) (vs : List Val) : Except Err Bytes :=
  structPack P s.byteOrder s.toks vs

/-- `struct.Struct.pack_into` (inherited) -/
def packInto (P : Platform) (s : StructSer) (buf : Bytes) (off : Nat) (vs : List Val) :
    Bytes × Option Err :=
  structPackInto P s.byteOrder s.toks buf off vs

/-- `structs.py:127-128` and `240-243` `unpack` -/
def unpack (P : Platform) (s : StructSer) (buf : Bytes) : Except Err (List Val) := do
  let vs ← structUnpack P s.byteOrder s.toks (buf.take s.size)
  s.applyActions vs

/-- `structs.py:245-251` and `struct.Struct.unpack_from` -/
def unpackFrom (P : Platform) (s : StructSer) (buf : Bytes) (off : Nat) : Except Err (List Val) := do
  let vs ← structUnpackFrom P s.byteOrder s.toks buf off
  s.applyActions vs

/-- `structs.py:136-139` and `253-257` `unpack_read`, on the bytes `readable.read(self.size)` gave. -/
def unpackRead (P : Platform) (s : StructSer) (data : Bytes) : Except Err (List Val) := do
  let vs ← structUnpack P s.byteOrder s.toks data
  s.applyActions vs

/-- `structs.py:202-206` and `306-312`; `actEq` is the identity comparison of the action tuples. -/
def eq (actEq : List Action → List Action → Bool) (a b : StructSer) : Bool :=
  match a.actions, b.actions with
  | none, none => a.format == b.format && a.numValues == b.numValues
  | some x, some y => a.format == b.format && actEq x y
  | some _, none => false
  | none, some _ => false   -- the reflected method of the subclass is tried first

/-- `structs.py:208-209` and `314-315` `__hash__`: `hash` of a tuple; `h2`, `h3` are the hash functions
of `(format, num_values)` and `(format, num_values, actions)` tuples. -/
def hash (h2 : List Char → Nat → Int) (h3 : List Char → Nat → List Action → Int) (s : StructSer) : Int :=
  match s.actions with
  | none => h2 s.format s.numValues
  | some as => h3 s.format s.numValues as

end StructSer
end Verif
