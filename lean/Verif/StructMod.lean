import Verif.Basic
/-
The part of CPython's `struct` module the library relies on (`struct.Struct(format)`, `pack`,
`pack_into`, `unpack`, `unpack_from`, `size`).  This is the trusted description of the standard
library: `/repo/structured/serializers/structs.py:92` subclasses `struct.Struct`.
Reading `'?'` from a byte other than 0 or 1 is undefined behaviour of C in native mode; it is
modelled as `True` in every mode.
Not modelled: `'0p'` (CPython mishandles it), `__index__`-like protocols of foreign types other
than `Val.custom`.
-/
namespace Verif

/-- Width classes of the integer codes. -/
inductive Width
  | one | two | four | long | eight | ssize
  deriving DecidableEq, Repr, Inhabited

/-- Format characters.  `structured/serializers/structs.py:57` lists them. -/
inductive Code
  | pad                                   -- x
  | chr                                   -- c
  | int (signed : Bool) (w : Width)       -- b B h H i I l L q Q n N
  | bool                                  -- ?
  | half | single | double                -- e f d
  | str                                   -- s
  | pas                                   -- p
  | ptr                                   -- P
  deriving DecidableEq, Repr, Inhabited

def Code.ofChar (c : Char) : Option Code :=
  if c = 'x' then some .pad
  else if c = 'c' then some .chr
  else if c = 'b' then some (.int true .one)
  else if c = 'B' then some (.int false .one)
  else if c = '?' then some .bool
  else if c = 'h' then some (.int true .two)
  else if c = 'H' then some (.int false .two)
  else if c = 'i' then some (.int true .four)
  else if c = 'I' then some (.int false .four)
  else if c = 'l' then some (.int true .long)
  else if c = 'L' then some (.int false .long)
  else if c = 'q' then some (.int true .eight)
  else if c = 'Q' then some (.int false .eight)
  else if c = 'n' then some (.int true .ssize)
  else if c = 'N' then some (.int false .ssize)
  else if c = 'e' then some .half
  else if c = 'f' then some .single
  else if c = 'd' then some .double
  else if c = 's' then some .str
  else if c = 'p' then some .pas
  else if c = 'P' then some .ptr
  else none

/-- Codes that only exist in native mode. -/
def Code.nativeOnly : Code → Bool
  | .int _ .ssize => true
  | .ptr => true
  | _ => false

/-- Bytes of an integer of each width (LP64 host in native mode). -/
def Width.bytes (native : Bool) : Width → Nat
  | .one => 1
  | .two => 2
  | .four => 4
  | .long => if native then 8 else 4
  | .eight => 8
  | .ssize => 8

/-- Bytes per element of a code. -/
def Code.bytes (native : Bool) : Code → Nat
  | .pad => 1
  | .chr => 1
  | .int _ w => w.bytes native
  | .bool => 1
  | .half => 2
  | .single => 4
  | .double => 8
  | .str => 1
  | .pas => 1
  | .ptr => 8

/-- Alignment: native mode aligns numbers to their size, the other modes do not align. -/
def Code.align (native : Bool) (c : Code) : Nat :=
  if native then c.bytes true else 1

/-- One (repeat count, code) item of a format. -/
structure Tok where
  n : Nat
  c : Code
  deriving DecidableEq, Repr, Inhabited

/-- Parse the part of a format after the byte order character; `acc` holds the digits read so far.
`none` is `struct.error`. -/
def parseAux (native : Bool) : List Char → Option Nat → Option (List Tok)
  | [], none => some []
  | [], some _ => none
  | ch :: cs, acc =>
    if acc = none ∧ ch.isWhitespace then parseAux native cs none
    else if ch.isDigit then parseAux native cs (some (acc.getD 0 * 10 + (ch.toNat - '0'.toNat)))
    else match Code.ofChar ch with
      | none => none
      | some c =>
        if c.nativeOnly ∧ native = false then none
        else (parseAux native cs none).map (⟨acc.getD 1, c⟩ :: ·)

def parse (native : Bool) (cs : List Char) : Option (List Tok) := parseAux native cs none

/-- Whether a byte order means native sizes and alignment. -/
def ByteOrder.isNative : ByteOrder → Bool
  | .default => true
  | .native => true
  | _ => false

/-- Whether multi-byte values are written least significant byte first. -/
def ByteOrder.little (P : Platform) : ByteOrder → Bool
  | .le => true
  | .be => false
  | .network => false
  | _ => P.le

/-- Zero bytes in front of an item at offset `o`. -/
def padLen (align o : Nat) : Nat := (align - o % align) % align

/-- Number of Python values for an item. -/
def Tok.numVals (t : Tok) : Nat :=
  match t.c with
  | .pad => 0
  | .str => 1
  | .pas => 1
  | _ => t.n

/-- Bytes occupied by an item, without padding. -/
def Tok.bytes (native : Bool) (t : Tok) : Nat := t.n * t.c.bytes native

def numVals (ts : List Tok) : Nat := (ts.map Tok.numVals).sum

/-- End offset of a list of items laid out from offset `o`. -/
def endOff (native : Bool) : List Tok → Nat → Nat
  | [], o => o
  | t :: ts, o => endOff native ts (o + padLen (t.c.align native) o + t.bytes native)

/-- `struct.Struct.size` -/
def sizeToks (native : Bool) (ts : List Tok) : Nat := endOff native ts 0

/-- The `n` base-256 digits of `u`, least significant first. -/
def leBytes : Nat → Nat → Bytes
  | 0, _ => []
  | n + 1, u => UInt8.ofNat (u % 256) :: leBytes n (u / 256)

/-- Value of base-256 digits, least significant first. -/
def leNat : Bytes → Nat
  | [] => 0
  | b :: bs => b.toNat + 256 * leNat bs

/-- Order the digits. -/
def orderBytes (little : Bool) (b : Bytes) : Bytes := if little then b else b.reverse

/-- Smallest/largest value of an integer format with `n` bytes. -/
def intInRange (signed : Bool) (n : Nat) (i : Int) : Bool :=
  if signed then decide (-(2 ^ (8 * n - 1) : Int) ≤ i ∧ i < 2 ^ (8 * n - 1))
  else decide (0 ≤ i ∧ i < 2 ^ (8 * n))

/-- Two's complement encoding; out of range is `struct.error`. -/
def encodeInt (little signed : Bool) (n : Nat) (i : Int) : Except Err Bytes :=
  if intInRange signed n i then
    .ok (orderBytes little (leBytes n (i % (2 ^ (8 * n) : Int)).toNat))
  else .error .structError

def decodeInt (little signed : Bool) (n : Nat) (b : Bytes) : Int :=
  let u := leNat (orderBytes little b)
  if signed && decide (2 ^ (8 * n - 1) ≤ u) then (u : Int) - 2 ^ (8 * n) else u

/-- The object `struct` sees for a value: subclasses of `int`/`float`/`bytes` behave as their base. -/
def Val.strip : Val → Val
  | .custom _ v => v.strip
  | v => v

/-- `operator.index` -/
def Val.asIndex (v : Val) : Option Int :=
  match v.strip with
  | .int i => some i
  | .bool b => some (if b then 1 else 0)
  | _ => Option.none

/-- `float(x)` as done by `PyFloat_AsDouble` -/
def Val.asFloat (P : Platform) (v : Val) : Option UInt64 :=
  match v.strip with
  | .float f => some f
  | .int i => P.intToF64 i
  | .bool b => P.intToF64 (if b then 1 else 0)
  | _ => Option.none

def Val.asBytes (v : Val) : Option Bytes :=
  match v.strip with
  | .bytes b => some b
  | _ => Option.none

/-- Truth value of a Python object. -/
def Val.truthy : Val → Bool
  | .none => false
  | .int i => i != 0
  | .bool b => b
  | .float f => f != 0 && f != 0x8000000000000000
  | .bytes b => !b.isEmpty
  | .str s => !s.isEmpty
  | .list vs => !vs.isEmpty
  | .tup vs => !vs.isEmpty
  | .obj .. => true
  | .custom _ v => v.truthy
  | .gen => true

/-- A number too large for a float format: `OverflowError`, but `s_pack_internal` of `_struct.c` turns it into
`struct.error` if the value is an `int`. -/
def tooLarge (v : Val) : Err := if v.asIndex.isSome then .structError else .overflowError

/-- Pack one value with a non-string code. -/
def packOne (P : Platform) (bo : ByteOrder) (c : Code) (v : Val) : Except Err Bytes :=
  let little := bo.little P
  match c with
  | .pad => .ok [0]
  | .chr => match v.asBytes with
    | some [b] => .ok [b]
    | _ => .error .structError
  | .int signed w => match v.asIndex with
    | some i => encodeInt little signed (w.bytes bo.isNative) i
    | none => .error .structError
  | .bool => .ok [if v.truthy then 1 else 0]
  | .half => match v.asFloat P with
    | some f => match P.packF16 f with
      | some u => .ok (orderBytes little (leBytes 2 u.toNat))
      | none => .error (tooLarge v)
    | none => .error .structError
  | .single => match v.asFloat P with
    | some f => match P.packF32 bo.isNative f with
      | some u => .ok (orderBytes little (leBytes 4 u.toNat))
      | none => .error (tooLarge v)
    | none => .error .structError
  | .double => match v.asFloat P with
    | some f => .ok (orderBytes little (leBytes 8 f.toNat))
    | none => .error .structError
  | .ptr => match v.asIndex with
    | some i => if -(2 ^ 63) ≤ i ∧ i < 2 ^ 64 then
        .ok (orderBytes little (leBytes 8 (i % (2 ^ 64)).toNat))
      else .error .structError
    | none => .error .structError
  | .str => .error .structError   -- not used: strings are packed as a whole item
  | .pas => .error .structError

/-- Unpack one element of a non-string code from its bytes. -/
def unpackOne (P : Platform) (bo : ByteOrder) (c : Code) (b : Bytes) : Val :=
  let little := bo.little P
  match c with
  | .pad => .none
  | .chr => .bytes b
  | .int signed w => .int (decodeInt little signed (w.bytes bo.isNative) b)
  | .bool => .bool (b.any (· != 0))
  | .half => .float (P.unpackF16 (UInt16.ofNat (leNat (orderBytes little b))))
  | .single => .float (P.unpackF32 (UInt32.ofNat (leNat (orderBytes little b))))
  | .double => .float (UInt64.ofNat (leNat (orderBytes little b)))
  | .ptr => .int (leNat (orderBytes little b))
  | .str => .bytes b
  | .pas => .bytes b

/-- Cut or zero-fill to exactly `n` bytes. -/
def fitTo (n : Nat) (b : Bytes) : Bytes := b.take n ++ List.replicate (n - b.length) 0

/-- Pack `k` values of one code. -/
def packMany (P : Platform) (bo : ByteOrder) (c : Code) : Nat → List Val → Except Err (Bytes × List Val)
  | 0, vs => .ok ([], vs)
  | _ + 1, [] => .error .structError
  | k + 1, v :: vs => do
    let b ← packOne P bo c v
    let (bs, rest) ← packMany P bo c k vs
    .ok (b ++ bs, rest)

/-- Pack one item, returning its bytes and the unused values. -/
def packTok (P : Platform) (bo : ByteOrder) (t : Tok) (vs : List Val) : Except Err (Bytes × List Val) :=
  match t.c with
  | .pad => .ok (List.replicate t.n 0, vs)
  | .str => match vs with
    | [] => .error .structError
    | v :: rest => match v.asBytes with
      | some b => .ok (fitTo t.n b, rest)
      | none => .error .structError
  | .pas => match vs with
    | [] => .error .structError
    | v :: rest => match v.asBytes with
      | some b =>
        let k := min (min b.length (t.n - 1)) 255
        .ok (fitTo t.n (UInt8.ofNat k :: b.take (t.n - 1)), rest)
      | none => .error .structError
  | c => packMany P bo c t.n vs

/-- Pack all items from offset `o`. -/
def packToks (P : Platform) (bo : ByteOrder) : List Tok → Nat → List Val → Except Err Bytes
  | [], _, _ => .ok []
  | t :: ts, o, vs => do
    let pad := padLen (t.c.align bo.isNative) o
    let (b, rest) ← packTok P bo t vs
    let r ← packToks P bo ts (o + pad + b.length) rest
    .ok (List.replicate pad 0 ++ b ++ r)

/-- Unpack `k` elements of one code. -/
def unpackMany (P : Platform) (bo : ByteOrder) (c : Code) : Nat → Bytes → List Val
  | 0, _ => []
  | k + 1, b =>
    let w := c.bytes bo.isNative
    unpackOne P bo c (b.take w) :: unpackMany P bo c k (b.drop w)

/-- Unpack one item from exactly its bytes. -/
def unpackTok (P : Platform) (bo : ByteOrder) (t : Tok) (b : Bytes) : List Val :=
  match t.c with
  | .pad => []
  | .str => [.bytes b]
  | .pas => match b with
    | [] => [.bytes []]
    | k :: rest => [.bytes (rest.take k.toNat)]
  | c => unpackMany P bo c t.n b

/-- Unpack all items; `b` starts at offset `o` and is long enough. -/
def unpackToks (P : Platform) (bo : ByteOrder) : List Tok → Nat → Bytes → List Val
  | [], _, _ => []
  | t :: ts, o, b =>
    let pad := padLen (t.c.align bo.isNative) o
    let k := t.bytes bo.isNative
    unpackTok P bo t ((b.drop pad).take k)
      ++ unpackToks P bo ts (o + pad + k) (b.drop (pad + k))

/-- `struct.Struct.pack(*values)` -/
def structPack (P : Platform) (bo : ByteOrder) (ts : List Tok) (vs : List Val) : Except Err Bytes :=
  if vs.length = numVals ts then packToks P bo ts 0 vs else .error .structError

/-- `struct.Struct.unpack(buffer)`: the buffer must have exactly the right size. -/
def structUnpack (P : Platform) (bo : ByteOrder) (ts : List Tok) (b : Bytes) : Except Err (List Val) :=
  if b.length = sizeToks bo.isNative ts then .ok (unpackToks P bo ts 0 b) else .error .structError

/-- `struct.Struct.unpack_from(buffer, offset)` for `offset ≥ 0` -/
def structUnpackFrom (P : Platform) (bo : ByteOrder) (ts : List Tok) (b : Bytes) (off : Nat) :
    Except Err (List Val) :=
  if off ≤ b.length ∧ sizeToks bo.isNative ts ≤ b.length - off then
    .ok (unpackToks P bo ts 0 ((b.drop off).take (sizeToks bo.isNative ts)))
  else .error .structError

/-- `b[off:off+len(d)] = d` for a range inside the buffer. -/
def splice (b : Bytes) (off : Nat) (d : Bytes) : Bytes :=
  b.take off ++ d ++ b.drop (off + d.length)

/-- Bytes of the elements in front of the first value that cannot be packed. -/
def packManyPrefix (P : Platform) (bo : ByteOrder) (c : Code) : Nat → List Val → Bytes
  | 0, _ => []
  | _ + 1, [] => []
  | k + 1, v :: vs => match packOne P bo c v with
    | .ok b => b ++ packManyPrefix P bo c k vs
    | .error _ => []

/-- What a failing `pack_into` has already written when it raises. -/
def packToksPrefix (P : Platform) (bo : ByteOrder) : List Tok → Nat → List Val → Bytes
  | [], _, _ => []
  | t :: ts, o, vs =>
    let pad := padLen (t.c.align bo.isNative) o
    match packTok P bo t vs with
    | .ok (b, rest) => List.replicate pad 0 ++ b ++ packToksPrefix P bo ts (o + pad + b.length) rest
    | .error _ => List.replicate pad 0 ++ packManyPrefix P bo t.c t.n vs

/-- `struct.Struct.pack_into(buffer, offset, *values)` for `offset ≥ 0`: the new buffer and the
exception, if any.  CPython zero-fills the region first and then packs value after value, so a
value that cannot be packed leaves the region partly written. -/
def structPackInto (P : Platform) (bo : ByteOrder) (ts : List Tok) (b : Bytes) (off : Nat)
    (vs : List Val) : Bytes × Option Err :=
  if vs.length = numVals ts then
    if off ≤ b.length ∧ sizeToks bo.isNative ts ≤ b.length - off then
      match packToks P bo ts 0 vs with
      | .ok d => (splice b off d, none)
      | .error e =>
        (splice b off (fitTo (sizeToks bo.isNative ts) (packToksPrefix P bo ts 0 vs)), some e)
    else (b, some .structError)
  else (b, some .structError)

end Verif
