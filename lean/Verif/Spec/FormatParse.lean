import Verif.Spec.FormatBack
/-
What the documentation promises about reading any bytes at all: a parser for the formats, without serializers.
-/
namespace Verif.Spec

/-- What reading comes to. -/
inductive Parsed (α : Type)
  | ok (a : α)
  | err (e : Err)
  /-- nested deeper than asked -/
  | deep
  /-- the library is known not to do what is documented -/
  | odd

namespace Parsed

def bind (x : Parsed α) (f : α → Parsed β) : Parsed β :=
  match x with
  | .ok a => f a
  | .err e => .err e
  | .deep => .deep
  | .odd => .odd

instance : Monad Parsed where
  pure := .ok
  bind := bind

def ofE : Except Err α → Parsed α
  | .ok a => .ok a
  | .error e => .err e

end Parsed

/-- The number with these digits, most significant first. -/
def natOf (b : Bytes) : Nat := b.foldl (fun n x => 256 * n + x.toNat) 0

/-- The digits in the order in which we write numbers: the most significant first. -/
def bigFirst (P : Platform) (bo : ByteOrder) (b : Bytes) : Bytes :=
  match bo with
  | .le => b.reverse
  | .be | .network => b
  | _ => if P.le then b.reverse else b

/-- A number without sign. -/
def natFrom (P : Platform) (bo : ByteOrder) (b : Bytes) : Nat := natOf (bigFirst P bo b)

/-- A number of so many bytes in two's complement. -/
def intFrom (P : Platform) (bo : ByteOrder) (signed : Bool) (b : Bytes) : Int :=
  let u := natFrom P bo b
  if signed ∧ 256 ^ b.length ≤ 2 * u then (u : Int) - 256 ^ b.length else u

/-- The first `n` bytes, which must be there. -/
def takes (n : Nat) (b : Bytes) (f : Bytes → Val) : Parsed (Val × Nat) :=
  if n ≤ b.length then .ok (f (b.take n), n) else .err .structError

/-- `n` values one after the other. -/
def readMany (f : Bytes → Parsed (Val × Nat)) : Nat → Bytes → Parsed (List Val × Nat)
  | 0, _ => .ok ([], 0)
  | n + 1, b => do
    let (v, k) ← f b
    let (vs, m) ← readMany f n (b.drop k)
    .ok (v :: vs, k + m)

/-- How many bytes a union looks ahead. -/
def Ahead.bytes : Ahead → Nat
  | .int _ w => w.bytes
  | .chars n => n

/-- The key that they are. -/
def Ahead.key (P : Platform) (bo : ByteOrder) : Ahead → Bytes → Val
  | .int s _, d => .int (intFrom P bo s d)
  | .chars _, d => .bytes d

mutual
/-- The value in front of some bytes, and how many of them are its bytes.  `cls` reads the objects of a class, `o` is what has
been read of the object that the value belongs to.  Strings with a length take what is there when bytes are missing. -/
def Fmt.read (P : Platform) (bo : ByteOrder) (cls : ClassId → Bytes → Parsed (Val × Nat)) (o : PObj) : Fmt → Bytes → Parsed (Val × Nat)
  | .int s w, b => takes w.bytes b fun d => .int (intFrom P bo s d)
  | .bool, b => takes 1 b fun d => .bool (d != [0])
  | .half, b => takes 2 b fun d => .float (P.unpackF16 (UInt16.ofNat (natFrom P bo d)))
  | .single, b => takes 4 b fun d => .float (P.unpackF32 (UInt32.ofNat (natFrom P bo d)))
  | .double, b => takes 8 b fun d => .float (UInt64.ofNat (natFrom P bo d))
  | .chars n, b => takes n b .bytes
  | .pascal n, b => takes n b fun d => .bytes (d.tail.take (natOf (d.take 1)))
  | .via _ f _ _ make, b => do
    let (v, n) ← f.read P bo cls o b
    .ok (make v, n)
  | .counted w, b =>
    if w.bytes ≤ b.length then
      let n := natFrom P bo (b.take w.bytes)
      .ok (.bytes ((b.drop w.bytes).take n), w.bytes + n)
    else .err .structError
  | .until t, b =>
    if t ∈ b then .ok (.bytes (b.takeWhile (· != t)), (b.takeWhile (· != t)).length + 1) else .err .valueError
  | .rest, b => .ok (.bytes b, b.length)
  | .net, b => match b with
    | [] => .err .structError
    | c :: b =>
      if c.toNat < 128 then .ok (.bytes (b.take c.toNat), 1 + c.toNat)
      else match b with
        | [] => .err .structError
        | c' :: b =>
          if P.le then
            let n := (c.toNat - 128) + 128 * c'.toNat
            .ok (.bytes (b.take n), 2 + n)
          else .odd
  | .text f _ de, b => do
    let (v, n) ← f.read P bo cls o b
    match v with
    | .bytes d => do
      let s ← .ofE (de d)
      .ok (.str (dropNuls s), n)
    | _ => .odd
  | .fixed n item, b => do
    let (vs, k) ← readMany (item.read P bo cls o) n b
    .ok (.list vs, k)
  | .list w item, b =>
    if w.bytes ≤ b.length then do
      let (vs, k) ← readMany (item.read P bo cls o) (natFrom P bo (b.take w.bytes)) (b.drop w.bytes)
      .ok (.list vs, w.bytes + k)
    else .err .structError
  | .sized w w2 item, b =>
    let g := gap bo w.bytes (some (w2.bytes, w2.bytes))
    let h := w.bytes + g + w2.bytes
    if h ≤ b.length then do
      let (vs, k) ← readMany (item.read P bo cls o) (natFrom P bo (b.take w.bytes)) (b.drop h)
      if k = natFrom P bo ((b.drop (w.bytes + g)).take w2.bytes) then .ok (.list vs, h + k) else .err .valueError
    else .err .structError
  | .tup items, b =>
    if items.all (·.basic.isSome) || items.length == 1 then do
      let (vs, k) ← Fmt.reads P bo cls o 0 items b
      .ok (.tup vs, k)
    else .odd
  | .obj c, b => cls c b
  | .me, b => cls o.cls b
  | .choice _ _ ahead decider keys opts other, b => do
    let r ← match ahead with
      | none => .ofE (decider o)
      | some a => if a.bytes ≤ b.length then .ok (a.key P bo (b.take a.bytes)) else .err .structError
    if ¬ r.hashable then .err .typeError
    else match keyAt keys r with
      | some k => Fmt.readAt P bo cls o opts k b
      | none => Fmt.readAt P bo cls o other 0 b
/-- One value for each format, `k` bytes behind the start of a run of basic types. -/
def Fmt.reads (P : Platform) (bo : ByteOrder) (cls : ClassId → Bytes → Parsed (Val × Nat)) (o : PObj) :
    Nat → List Fmt → Bytes → Parsed (List Val × Nat)
  | _, [], _ => .ok ([], 0)
  | k, f :: fs, b => do
    let g := gap bo k f.basic
    let (v, n) ← f.read P bo cls o (b.drop g)
    let (vs, m) ← Fmt.reads P bo cls o (after bo k f.basic) fs (b.drop (g + n))
    .ok (v :: vs, g + n + m)
/-- The `k`-th format; none is not among the formats of the union. -/
def Fmt.readAt (P : Platform) (bo : ByteOrder) (cls : ClassId → Bytes → Parsed (Val × Nat)) (o : PObj) :
    List Fmt → Nat → Bytes → Parsed (Val × Nat)
  | [], _, _ => .err .valueError
  | f :: _, 0, b => f.read P bo cls o b
  | _ :: fs, k + 1, b => Fmt.readAt P bo cls o fs k b
end

/-- The fields one after the other, `k` bytes behind the start of a run of basic fields; `o` is what has been read so far.  Pads
may be any bytes.  A field whose condition does not hold has its default. -/
def readFields (P : Platform) (bo : ByteOrder) (cls : ClassId → Bytes → Parsed (Val × Nat)) :
    PObj → Nat → List Field → Bytes → Parsed (List Val × Nat)
  | _, _, [], _ => .ok ([], 0)
  | o, k, .value a f :: fs, b => do
    let g := gap bo k f.basic
    let (v, n) ← f.read P bo cls o (b.drop g)
    let (vs, m) ← readFields P bo cls (o.with a v) (after bo k f.basic) fs (b.drop (g + n))
    .ok (v :: vs, g + n + m)
  | o, k, .pad _ n :: fs, b =>
    if n ≤ b.length then do
      let (vs, m) ← readFields P bo cls o (k + n) fs (b.drop n)
      .ok (vs, n + m)
    else .err .structError
  | o, _, .when a c f d :: fs, b => do
    let r ← .ofE (c o)
    if ¬ r.hashable then .err .typeError
    else match keyAt [.bool true, .bool false] r with
      | some 0 => do
        let (v, n) ← f.read P bo cls o b
        let (vs, m) ← readFields P bo cls (o.with a v) 0 fs (b.drop n)
        .ok (v :: vs, n + m)
      | some _ => do
        let (vs, m) ← readFields P bo cls (o.with a d) 0 fs b
        .ok (d :: vs, m)
      | none => .err .keyError

/-- The object in front of some bytes (to depth `k`), and how many of them are its bytes. -/
def readObj (P : Platform) (docs : ClassId → Option ClassDoc) : Nat → ClassId → Bytes → Parsed (Val × Nat)
  | 0, _, _ => .deep
  | k + 1, c, b => match docs c with
    | none => .err .attributeError
    | some d =>
      if d.fields.any Field.usesSelf ∧ "cls" ∈ d.attrs then .odd
      else do
        let (vs, n) ← readFields P d.byteOrder (readObj P docs k) ⟨c, true, []⟩ 0 d.fields b
        .ok (.obj c none (d.attrs.zip vs), n)

/-- The library does what the parser says.  Where the parser gives up (`odd`) nothing is said. -/
def Parsed.Is (r : Parsed (Val × Nat)) (x : Except Err Val) : Prop :=
  match r with
  | .ok a => x = .ok a.1
  | .err e => x = .error e
  | .deep => False
  | .odd => True

/-- A program whose classes are all documented: made by class statements from documented type hints, without `__post_init__`. -/
structure AllDocumented (env : Env) (ctx : HintCtx) (N : Nat) (docs : ClassId → Option ClassDoc) : Prop where
  documents : Documents env ctx N docs
  others : ∀ c, docs c = Option.none → env.classes c = Option.none
  init : ∀ c ci, env.classes c = some ci → ci.postInit = Except.ok

end Verif.Spec
