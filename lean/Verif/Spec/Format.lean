import Verif.Classes
import Verif.Spec.Classes
import Verif.Spec.Strings
/-
The byte format that the documentation promises, without serializers: a small language of formats, what one writes in a class
statement for each of them, and the bytes of a value.
-/
namespace Verif.Spec

/-- The widths of the integer types. -/
inductive Size
  | one | two | four | eight
  deriving DecidableEq

/-- In bytes. -/
def Size.bytes : Size → Nat
  | .one => 1
  | .two => 2
  | .four => 4
  | .eight => 8

/-- The format character of an integer type. -/
def Size.code : Bool → Size → Char
  | true, .one => 'b'
  | true, .two => 'h'
  | true, .four => 'i'
  | true, .eight => 'q'
  | false, .one => 'B'
  | false, .two => 'H'
  | false, .four => 'I'
  | false, .eight => 'Q'

/-- The types that a union may look ahead for. -/
inductive Ahead
  /-- an integer -/
  | int (signed : Bool) (w : Size)
  /-- `char[n]` -/
  | chars (n : Nat)

/-- A format. -/
inductive Fmt
  /-- an integer, signed or not: `int8`, `uint8` and so on -/
  | int (signed : Bool) (w : Size)
  /-- `bool8` -/
  | bool
  /-- `float16` -/
  | half
  /-- `float32` -/
  | single
  /-- `float64` -/
  | double
  /-- `char[n]` -/
  | chars (n : Nat)
  /-- `pascal[n]` -/
  | pascal (n : Nat)
  /-- `Annotated[name, SerializeAs(type)]` if `own`, and `Annotated[name, SerializeAs(type).with_factory(make)]` otherwise, for one of
  the types above; `id` is the `SerializeAs` object.  `make` does not raise; if `own`, it is the type of that name itself -/
  | via (id : SerId) (f : Fmt) (name : String) (own : Bool) (make : Val → Val)
  /-- `char[uint8]` and so on: the length, then the bytes -/
  | counted (w : Size)
  /-- `char[b'\0']`: the bytes up to a terminator -/
  | until (t : Byte)
  /-- `char[math.inf]`: the remaining bytes -/
  | rest
  /-- `char[NET]`: the length in one or two bytes, then the bytes -/
  | net
  /-- `unicode[..., encoding]` for one of the five kinds of byte strings -/
  | text (f : Fmt) (enc : Val → Except Err Bytes) (dec : Bytes → Except Err PyStr)
  /-- `array[Header[n], item]` -/
  | fixed (n : Nat) (item : Fmt)
  /-- `array[Header[uintN], item]` -/
  | list (w : Size) (item : Fmt)
  /-- `array[Header[uintN, uintM], item]`: the number of items, the number of bytes of the items, the items -/
  | sized (w w2 : Size) (item : Fmt)
  /-- `tuple[...]` -/
  | tup (items : List Fmt)
  /-- a `Structured` class -/
  | obj (c : ClassId)
  /-- `Self`: the class that is being defined -/
  | me
  /-- `Annotated[Union[args], LookbackDecider(decider, {keys: opts}, other)]`, or `LookaheadDecider(ahead, decider, ...)`;
  `other` has at most one format.  `id` is the decider object -/
  | choice (id : SerId) (args : List Hint) (ahead : Option Ahead) (decider : Decider) (keys : List Val) (opts other : List Fmt)

/-- The five kinds of byte strings, by what one writes in the brackets. -/
def Fmt.bracket : Fmt → Option Hint
  | .chars n => some (.int n)
  | .counted w => some (basicHint "int" (w.code false))
  | .until t => some (.bytes [t])
  | .rest => some .inf
  | .net => some .net
  | _ => none

/-- The type to look ahead for, as evaluated by Python. -/
def Ahead.hint (ctx : HintCtx) : Ahead → Except Err Hint
  | .int s w => .ok (basicHint "int" (w.code s))
  | .chars n => mkChar ctx (.int n)

mutual
/-- What one writes in a class statement, as evaluated by Python. -/
def Fmt.hint (ctx : HintCtx) (N : Nat) : Fmt → Except Err Hint
  | .int s w => .ok (basicHint "int" (w.code s))
  | .bool => .ok (basicHint "bool" '?')
  | .half => .ok (basicHint "float" 'e')
  | .single => .ok (basicHint "float" 'f')
  | .double => .ok (basicHint "float" 'd')
  | .chars n => mkChar ctx (.int n)
  | .pascal n => mkPascal n
  | .via id f name own make => do
    let s ← mkSerializeAs ctx N id (← f.hint ctx N)
    if own then .ok (.annot (.plain name) [s])
    else .ok (.annot (.plain name) [← withFactory s fun v => .ok (make v)])
  | .counted w => mkChar ctx (basicHint "int" (w.code false))
  | .until t => mkChar ctx (.bytes [t])
  | .rest => mkChar ctx .inf
  | .net => mkChar ctx .net
  | .text f en de => match f.bracket with
    | some b => mkUnicode ctx N b (.codec en de)
    | none => .error .typeError
  | .fixed n item => do mkArray ctx N (← mkHeader (.int n) .noneT) (← item.hint ctx N)
  | .list w item => do mkArray ctx N (← mkHeader (basicHint "int" (w.code false)) .noneT) (← item.hint ctx N)
  | .sized w w2 item => do
    mkArray ctx N (← mkHeader (basicHint "int" (w.code false)) (basicHint "int" (w2.code false))) (← item.hint ctx N)
  | .tup items => do .ok (.tup (← Fmt.hints ctx N items) false)
  | .obj c => .ok (.cls c)
  | .me => .ok .selfT
  | .choice id args ahead decider keys opts other => do
    let os ← Fmt.hints ctx N opts
    let d ← Fmt.hints ctx N other
    match ahead with
    | none => do .ok (.annot (.union args) [← mkLookback ctx N id decider keys os d.head?])
    | some a => do .ok (.annot (.union args) [← mkLookahead ctx N id (← a.hint ctx) decider keys os d.head?])
def Fmt.hints (ctx : HintCtx) (N : Nat) : List Fmt → Except Err (List Hint)
  | [] => .ok []
  | f :: fs => do
    let h ← f.hint ctx N
    let hs ← Fmt.hints ctx N fs
    .ok (h :: hs)
end

/-! ### The bytes -/

/-- The bytes of the values one after the other. -/
def gather (f : Val → Option Bytes) : List Val → Option Bytes
  | [] => some []
  | v :: vs => match f v, gather f vs with
    | some b, some bs => some (b ++ bs)
    | _, _ => none

/-- A length in front of something. -/
def prefixed (P : Platform) (bo : ByteOrder) (w : Size) (k : Nat) (b : Bytes) : Option Bytes :=
  if k < 256 ^ w.bytes then some (intBytes P bo w.bytes k ++ b) else none

/-- The length of a .NET string: one byte below 128, else two, the lower seven bits with the flag 0x80 first.  Long strings are
as documented on little-endian hosts only. -/
def netLength (P : Platform) (k : Nat) : Option Bytes :=
  if k < 128 then some [UInt8.ofNat k]
  else if P.le && k < 0x8000 then some [UInt8.ofNat (128 + k % 128), UInt8.ofNat (k / 128)]
  else none

/-- Which of the keys it is, if any; keys of a dictionary are hashable. -/
def keyAt (keys : List Val) (r : Val) : Option Nat :=
  if r.hashable then keys.findIdx? (·.keyEq r) else none

mutual
/-- The types that are called with what is read, and what they make of it. -/
def Fmt.calls : Fmt → List (String × (Val → Val))
  | .via _ f name own make => (if own then [(name, make)] else []) ++ f.calls
  | .text f _ _ => f.calls
  | .fixed _ item | .list _ item | .sized _ _ item => item.calls
  | .tup items => Fmt.allCalls items
  | .choice _ _ _ _ _ opts other => Fmt.allCalls opts ++ Fmt.allCalls other
  | _ => []
def Fmt.allCalls : List Fmt → List (String × (Val → Val))
  | [] => []
  | f :: fs => f.calls ++ Fmt.allCalls fs
end

/-- Width and alignment of a basic type. -/
def Fmt.basic : Fmt → Option (Nat × Nat)
  | .int _ w => some (w.bytes, w.bytes)
  | .bool => some (1, 1)
  | .half => some (2, 2)
  | .single => some (4, 4)
  | .double => some (8, 8)
  | .chars n | .pascal n => some (n, 1)
  | .via _ f _ _ _ => f.basic
  | _ => none

/-- What an object stands for, if its type is made from numbers or bytes. -/
def meant : Val → Val
  | .custom _ v => meant v
  | v => v

/-- The byte orders with alignment: none given, and `@`. -/
def aligned : ByteOrder → Bool
  | .default | .native => true
  | .nativeStd | .le | .be | .network => false

/-- The bytes in front of a basic type, `k` bytes behind the start of its run of basic types: up to the next multiple of its
alignment. -/
def gap (bo : ByteOrder) (k : Nat) : Option (Nat × Nat) → Nat
  | some (_, a) => if aligned bo then (k + a - 1) / a * a - k else 0
  | none => 0

/-- Where the type ends, counted from the start of the run; anything that is not a basic type ends the run. -/
def after (bo : ByteOrder) (k : Nat) : Option (Nat × Nat) → Nat
  | some (w, a) => k + gap bo k (some (w, a)) + w
  | none => 0

mutual
/-- The bytes of a value; `cls` gives those of the objects of a class, `o` is the object that the value belongs to. -/
def Fmt.write (P : Platform) (bo : ByteOrder) (cls : ClassId → Val → Option Bytes) (o : PObj) : Fmt → Val → Option Bytes
  | .int s w, v => match v with
    | .int i => if InRange s w.bytes i then some (intBytes P bo w.bytes i) else none
    | _ => none
  | .bool, v => match v with
    | .bool b => some [if b then 1 else 0]
    | _ => none
  | .half, v => match v with
    | .float f => (P.packF16 f).map fun u => intBytes P bo 2 u.toNat
    | _ => none
  | .single, v => match v with
    | .float f => (P.packF32 bo.isNative f).map fun u => intBytes P bo 4 u.toNat
    | _ => none
  | .double, v => match v with
    | .float f => some (intBytes P bo 8 f.toNat)
    | _ => none
  | .chars n, v => match v with
    | .bytes b => if b.length ≤ n then some (b ++ List.replicate (n - b.length) 0) else none
    | _ => none
  | .pascal n, v => match v with
    | .bytes b => if b.length < n ∧ b.length < 256 then some (UInt8.ofNat b.length :: b ++ List.replicate (n - 1 - b.length) 0) else none
    | _ => none
  | .via _ f _ _ _, v => f.write P bo cls o (meant v)
  | .counted w, v => match v with
    | .bytes b => if b = [] then none else prefixed P bo w b.length b
    | _ => none
  | .until t, v => match v with
    | .bytes b => if t ∈ b then none else some (b ++ [t])
    | _ => none
  | .rest, v => match v with
    | .bytes b => some b
    | _ => none
  | .net, v => match v with
    | .bytes b => if b = [] then none else (netLength P b.length).map (· ++ b)
    | _ => none
  | .text f en _, v => match en v with
    | .ok b => f.write P bo cls o (.bytes b)
    | .error _ => none
  | .fixed n item, v => match v with
    | .list vs => if vs.length = n then gather (item.write P bo cls o) vs else none
    | _ => none
  | .list w item, v => match v with
    | .list vs => match gather (item.write P bo cls o) vs with
      | some b => prefixed P bo w vs.length b
      | none => none
    | _ => none
  | .sized w w2 item, v => match v with
    | .list vs => match gather (item.write P bo cls o) vs with
      | some b => match prefixed P bo w2 b.length b with
        | some b' => prefixed P bo w vs.length (List.replicate (gap bo w.bytes (some (w2.bytes, w2.bytes))) 0 ++ b')
        | none => none
      | none => none
    | _ => none
  | .tup items, v => match v with
    | .tup vs => Fmt.writes P bo cls o 0 items vs
    | _ => none
  | .obj c, v => cls c v
  | .me, v => cls o.cls v
  | .choice _ _ _ decider keys opts other, v => match decider o with
    | .ok r => match keyAt keys r with
      | some k => Fmt.writeAt P bo cls o opts k v
      | none => if r.hashable then Fmt.writeAt P bo cls o other 0 v else none
    | .error _ => none
/-- One value for each format, `k` bytes behind the start of a run of basic types. -/
def Fmt.writes (P : Platform) (bo : ByteOrder) (cls : ClassId → Val → Option Bytes) (o : PObj) : Nat → List Fmt → List Val → Option Bytes
  | _, [], [] => some []
  | k, f :: fs, v :: vs => match f.write P bo cls o v, Fmt.writes P bo cls o (after bo k f.basic) fs vs with
    | some b, some bs => some (List.replicate (gap bo k f.basic) 0 ++ b ++ bs)
    | _, _ => none
  | _, _, _ => none
/-- The `k`-th format. -/
def Fmt.writeAt (P : Platform) (bo : ByteOrder) (cls : ClassId → Val → Option Bytes) (o : PObj) : List Fmt → Nat → Val → Option Bytes
  | [], _, _ => none
  | f :: _, 0, v => f.write P bo cls o v
  | _ :: fs, k + 1, v => Fmt.writeAt P bo cls o fs k v
end

/-- A field in a class statement. -/
inductive Field
  /-- `a: type` -/
  | value (a : Name) (f : Fmt)
  /-- `a: pad[n]` -/
  | pad (a : Name) (n : Nat)
  /-- `a: Annotated[type, Condition(condition, default)]` -/
  | when (a : Name) (condition : Decider) (f : Fmt) (default : Val)

def Field.name : Field → Name
  | .value a _ | .pad a _ | .when a _ _ _ => a

/-- Pads have no attribute. -/
def Field.isPad : Field → Bool
  | .pad _ _ => true
  | _ => false

/-- What one writes in a class statement, as evaluated by Python. -/
def Field.hint (ctx : HintCtx) (N : Nat) : Field → Except Err Hint
  | .value _ f => f.hint ctx N
  | .pad _ n => mkPad n
  | .when _ c f d => do .ok (annotate (← f.hint ctx N) [.cond c [d]])

/-- The types that are called when the field is read. -/
def Field.calls : Field → List (String × (Val → Val))
  | .value _ f => f.calls
  | .pad _ _ => []
  | .when _ _ f _ => f.calls

/-- The documentation of a class: its byte order and its fields. -/
structure ClassDoc where
  byteOrder : ByteOrder
  fields : List Field

/-- The attributes of its objects. -/
def ClassDoc.attrs (d : ClassDoc) : List Name := (d.fields.filter (!·.isPad)).map Field.name

/-- The values of these attributes. -/
def pick (attrs : List (Name × Val)) : List Name → Option (List Val)
  | [] => some []
  | a :: as => match attrs.lookup a, pick attrs as with
    | some v, some vs => some (v :: vs)
    | _, _ => none

/-- Width and alignment of a basic field. -/
def Field.basic : Field → Option (Nat × Nat)
  | .value _ f => f.basic
  | .pad _ n => some (n, 1)
  | .when .. => none

/-- The fields one after the other, `k` bytes behind the start of a run of basic fields; pads are zeros, and a field whose condition
does not hold has no bytes. -/
def writeFields (P : Platform) (bo : ByteOrder) (cls : ClassId → Val → Option Bytes) (o : PObj) : Nat → List Field → List Val → Option Bytes
  | _, [], [] => some []
  | k, .value _ f :: fs, v :: vs => match f.write P bo cls o v, writeFields P bo cls o (after bo k f.basic) fs vs with
    | some b, some bs => some (List.replicate (gap bo k f.basic) 0 ++ b ++ bs)
    | _, _ => none
  | k, .pad _ n :: fs, vs => match writeFields P bo cls o (k + n) fs vs with
    | some bs => some (List.replicate n 0 ++ bs)
    | none => none
  | _, .when _ c f _ :: fs, v :: vs => match c o with
    | .ok (.bool true) => match f.write P bo cls o v, writeFields P bo cls o 0 fs vs with
      | some b, some bs => some (b ++ bs)
      | _, _ => none
    | .ok (.bool false) => writeFields P bo cls o 0 fs vs
    | _ => none
  | _, _, _ => none

/-- The bytes of an object (to depth `k`): its fields one after the other. -/
def writeObj (P : Platform) (docs : ClassId → Option ClassDoc) : Nat → ClassId → Val → Option Bytes
  | 0, _, _ => none
  | k + 1, c, v => match v, docs c with
    | .obj c' none attrs, some d =>
      if c' = c then match pick attrs d.attrs with
        | some vs => writeFields P d.byteOrder (writeObj P docs k) ⟨c, false, attrs⟩ 0 d.fields vs
        | none => none
      else none
    | _, _ => none

/-! ### Where the documentation is kept -/

/-- `tuple[Self]` -/
def Fmt.onlyMe : List Fmt → Bool
  | [.me] => true
  | _ => false

/-- There is something to look ahead for. -/
def Ahead.good : Option Ahead → Bool
  | some (.chars n) => 0 < n
  | _ => true

/-- The basic types, and not those that are made from one. -/
def Fmt.direct : Fmt → Bool
  | .via .. => false
  | f => f.basic.isSome

mutual
/-- The format is one that the library handles as documented, in byte order `bo`. -/
def Fmt.good (bo : ByteOrder) : Fmt → Bool
  | .int .. | .bool | .half | .single | .double | .until _ | .rest | .net | .obj _ | .me => true
  | .chars n | .pascal n => 0 < n
  | .via _ f _ _ _ => f.direct && f.good bo
  | .counted _ => bo = .default
  | .text f _ _ => bo = .default && f.bracket.isSome && f.good bo
  | .fixed _ item => item.good bo
  | .list _ item => item.good bo && item.basic.isNone
  | .sized _ _ item => item.good bo && item.basic.isNone
  | .tup items => bo = .default && Fmt.goods bo items && !items.isEmpty && !Fmt.onlyMe items
  | .choice _ _ ahead _ keys opts other => bo = .default && Fmt.goods bo opts && Fmt.goods bo other && keys.length = opts.length &&
      (other.length ≤ 1 && Ahead.good ahead)
def Fmt.goods (bo : ByteOrder) : List Fmt → Bool
  | [] => true
  | f :: fs => f.good bo && Fmt.goods bo fs
end

/-- The format does not ask for the object that a value belongs to. -/
def Fmt.plain : Fmt → Bool
  | .list .. | .sized .. | .tup _ | .me | .choice .. => false
  | .fixed _ item => item.basic.isSome
  | _ => true

/-- So is a field. -/
def Field.good (bo : ByteOrder) : Field → Bool
  | .value _ f => f.good bo
  | .when _ _ f _ => f.good bo && f.plain
  | .pad _ n => 0 < n

/-- The only field is a condition, or `Self`. -/
def Field.lone : List Field → Bool
  | [.when ..] => true
  | [.value _ f] => match f with
    | .me => true
    | _ => false
  | _ => false

/-- So are the fields of a class. -/
def ClassDoc.good (d : ClassDoc) : Bool :=
  d.fields.all (Field.good d.byteOrder) && !d.fields.isEmpty && !Field.lone d.fields

/-- `ClassVar[...]`, or a type that says nothing about serialization: `int`, `None`, `list[...]`. -/
def unserialized : Hint → Bool
  | .classVar _ => true
  | .plain _ => true
  | _ => false

/-- A class was made by a class statement, possibly with base classes, whose declarations in order are those of the
documentation (and others that are not serialized).  The types that it names make of a value what the documentation says. -/
structure Documented (ctx : HintCtx) (N : Nat) (d : ClassDoc) (o : ClassObj) : Prop where
  names : (firsts (o.decls.map (·.1))).filter (fun a => !unserialized (evalHint (lastDecl o.decls a))) = d.fields.map Field.name
  hints : ∀ f ∈ d.fields, f.hint ctx N = .ok (evalHint (lastDecl o.decls f.name))
  self : ∀ f ∈ d.fields, f.name ≠ "self"
  calls : ∀ p ∈ d.fields.flatMap Field.calls, ctx.call p.1 = fun v => .ok (p.2 v)
  made : ∃ m id w dec, createClass ctx m id w dec = .ok o ∧ dec.byteOrder = d.byteOrder

/-- The classes of a program are those of the documentation. -/
def Documents (env : Env) (ctx : HintCtx) (N : Nat) (docs : ClassId → Option ClassDoc) : Prop :=
  ∀ c d, docs c = some d → d.good = true ∧ ∃ o, env.classes c = some o.info ∧ Documented ctx N d o

end Verif.Spec
