import Verif.Spec.FormatStore
import Verif.Spec.FormatParse
/-
What packing any object at all comes to: its bytes or an exception, from the formats, without serializers.
-/
namespace Verif.Spec

/-- What cannot be the float of a small type: a number that is no float is the wrong argument. -/
def excess (v : Val) : Err := if (number v).isSome then .structError else .overflowError

/-- A number of bytes that must fit. -/
def fits (x : Option Bytes) : Parsed Bytes :=
  match x with
  | some b => .ok b
  | none => .err .structError

/-- The values one after the other. -/
def putAll (w : Val → Parsed Bytes) : List Val → Parsed Bytes
  | [] => .ok []
  | v :: vs => do
    let b ← w v
    let bs ← putAll w vs
    .ok (b ++ bs)

mutual
/-- The exception if there is no value at all for a format: basic types count the values, other types take the first one, and tuples and
classes exactly one.  A union has decided before. -/
def Fmt.bare (o : PObj) : Fmt → Err
  | .tup _ | .obj _ | .me => .typeError
  | .choice _ _ _ decider keys opts other => match decider o with
    | .error e => e
    | .ok r =>
      if ¬ r.hashable then .typeError
      else match keyAt keys r with
        | some k => Fmt.bareAt o opts k
        | none => Fmt.bareAt o other 0
  | .counted _ | .until _ | .rest | .net | .text .. | .fixed .. | .list .. | .sized .. => .indexError
  | _ => .structError
def Fmt.bareAt (o : PObj) : List Fmt → Nat → Err
  | [], _ => .valueError
  | f :: _, 0 => f.bare o
  | _ :: fs, k + 1 => Fmt.bareAt o fs k
end

/-- The exception for `n` values in a tuple type that has fewer items, if there is one: basic types count the values, and an item that is
alone is given all of them.  Elsewhere further values are dropped. -/
def surplus (o : PObj) (items : List Fmt) (n : Nat) : Option Err :=
  if n ≤ items.length then none
  else if items.all (·.basic.isSome) then some .structError
  else match items with
    | [f] => if f.bare o = .indexError then none else some (f.bare o)
    | _ => none

/-- The number of basic types at the front, which are packed together. -/
def front : List Fmt → Nat
  | [] => 0
  | f :: fs => if f.basic.isSome then front fs + 1 else 0

mutual
/-- What packing a value in byte order `bo` comes to. -/
def Fmt.put (P : Platform) (bo : ByteOrder) (cls : ClassId → Val → Parsed Bytes) (o : PObj) : Fmt → Val → Parsed Bytes
  | .int s w, v => match number v with
    | some i => if InRange s w.bytes i then .ok (intBytes P bo w.bytes i) else .err .structError
    | none => .err .structError
  | .bool, v => .ok [if holds v then 1 else 0]
  | .half, v => match real P v with
    | some f => match P.packF16 f with
      | some u => .ok (intBytes P bo 2 u.toNat)
      | none => .err (excess v)
    | none => .err .structError
  | .single, v => match real P v with
    | some f => match P.packF32 bo.isNative f with
      | some u => .ok (intBytes P bo 4 u.toNat)
      | none => .err (excess v)
    | none => .err .structError
  | .double, v => match real P v with
    | some f => .ok (intBytes P bo 8 f.toNat)
    | none => .err .structError
  | .chars n, v => fits ((octets v).map (cut n))
  | .pascal n, v => fits ((octets v).map fun b => cut n (UInt8.ofNat (min (min b.length (n - 1)) 255) :: b.take (n - 1)))
  | .via _ f _ _ _, v => f.put P bo cls o v
  | .counted w, v => match elements v with
    | none => .err .typeError
    | some vs =>
      if vs = [] then .err .structError
      else if bo ≠ .default then .err .valueError
      else match octets v with
        | some b => fits (prefixed P .default w b.length b)
        | none => .err .structError
  | .until t, v => match meant v with
    | .bytes b => .ok (b ++ [t])
    | .list _ => .err .structError
    | _ => .err .typeError
  | .rest, v => match octets v with
    | some b => .ok b
    | none => .err .typeError
  | .net, v => match elements v with
    | none => .err .typeError
    | some vs =>
      if 0x7FFF < vs.length then .err .valueError
      else if vs = [] then .err .structError
      else match octets v with
        | some b => fits ((netPrefix P b.length).map (· ++ b))
        | none => .err .structError
  | .text f en _, v => match en v with
    | .ok b => f.put P .default cls o (.bytes b)
    | .error e => .err e
  | .fixed n item, v => match elements v with
    | none => .err .typeError
    | some vs =>
      if item.basic.isSome ∧ vs.length ≠ n then .err .valueError
      else do
        let b ← putAll (item.put P bo cls o) vs
        if vs.length = n then .ok b else .err .valueError
  | .list w item, v => match elements v with
    | none => .err .typeError
    | some vs => do
      let b ← putAll (item.put P bo cls o) vs
      fits (prefixed P bo w vs.length b)
  | .sized w w2 item, v => match elements v with
    | none => .err .typeError
    | some vs => do
      let b ← putAll (item.put P bo cls o) vs
      let b' ← fits (prefixed P bo w2 b.length b)
      fits (prefixed P bo w vs.length (List.replicate (gap bo w.bytes (some (w2.bytes, w2.bytes))) 0 ++ b'))
  | .tup items, v => match elements v with
    | none => .err .typeError
    | some vs => match surplus o items vs.length with
      | some e => .err e
      | none => Fmt.puts P .default cls o 0 items vs
  | .obj c, v => cls c v
  | .me, v => cls o.cls v
  | .choice _ _ _ decider keys opts other, v => match decider o with
    | .error e => .err e
    | .ok r =>
      if ¬ r.hashable then .err .typeError
      else match keyAt keys r with
        | some k => Fmt.putAt P cls o opts k v
        | none => Fmt.putAt P cls o other 0 v
/-- One value for each format, `k` bytes behind the start of a run of basic types.  If there are too few, the types in front of the missing
value are packed, but not those that are packed together with it. -/
def Fmt.puts (P : Platform) (bo : ByteOrder) (cls : ClassId → Val → Parsed Bytes) (o : PObj) : Nat → List Fmt → List Val → Parsed Bytes
  | _, [], _ => .ok []
  | _, f :: _, [] => .err (f.bare o)
  | k, f :: fs, v :: vs =>
    if vs.length + 1 < front (f :: fs) then .err .structError
    else do
      let b ← f.put P bo cls o v
      let bs ← Fmt.puts P bo cls o (after bo k f.basic) fs vs
      .ok (List.replicate (gap bo k f.basic) 0 ++ b ++ bs)
/-- The `k`-th format, in the default byte order; none is not among the formats of the union. -/
def Fmt.putAt (P : Platform) (cls : ClassId → Val → Parsed Bytes) (o : PObj) : List Fmt → Nat → Val → Parsed Bytes
  | [], _, _ => .err .valueError
  | f :: _, 0, v => f.put P .default cls o v
  | _ :: fs, k + 1, v => Fmt.putAt P cls o fs k v
end

/-- The fields one after the other, `k` bytes behind the start of a run of basic fields.  A condition is evaluated when the fields in
front of it have been packed. -/
def putFields (P : Platform) (bo : ByteOrder) (cls : ClassId → Val → Parsed Bytes) (o : PObj) : Nat → List Field → List Val → Parsed Bytes
  | _, [], _ => .ok []
  | k, .value _ f :: fs, v :: vs => do
    let b ← f.put P bo cls o v
    let bs ← putFields P bo cls o (after bo k f.basic) fs vs
    .ok (List.replicate (gap bo k f.basic) 0 ++ b ++ bs)
  | k, .pad _ n :: fs, vs => do
    let bs ← putFields P bo cls o (k + n) fs vs
    .ok (List.replicate n 0 ++ bs)
  | _, .when _ c f _ :: fs, v :: vs => match c o with
    | .error e => .err e
    | .ok r =>
      if ¬ r.hashable then .err .typeError
      else match verdict r with
        | some true => do
          let b ← f.put P bo cls o v
          let bs ← putFields P bo cls o 0 fs vs
          .ok (b ++ bs)
        | some false => putFields P bo cls o 0 fs vs
        | none => .err .keyError
  | _, _, _ => .odd

/-- What packing an object (to depth `k`) comes to, of whatever class it is, in its own byte order if it has one. -/
def putObj (P : Platform) (docs : ClassId → Option ClassDoc) : Nat → Val → Parsed Bytes
  | 0, _ => .deep
  | k + 1, .obj c own attrs => match docs c with
    | none => .err .attributeError
    | some d => match pick attrs d.attrs with
      | none => .err .attributeError
      | some vs => putFields P (own.getD d.byteOrder) (fun _ => putObj P docs k) ⟨c, false, attrs⟩ 0 d.fields vs
  | _ + 1, _ => .err .attributeError

/-! ### What the functions that are called may raise -/

mutual
/-- What the encoders and deciders in a format may raise. -/
def Fmt.PutCalls : Fmt → Err → Prop
  | .text f en _, e => f.PutCalls e ∨ ∃ v, en v = .error e
  | .fixed _ item, e | .list _ item, e | .sized _ _ item, e | .via _ item _ _ _, e => item.PutCalls e
  | .tup items, e => Fmt.PutCallsAny items e
  | .choice _ _ _ decider _ opts other, e => (∃ o, decider o = .error e) ∨ Fmt.PutCallsAny opts e ∨ Fmt.PutCallsAny other e
  | _, _ => False
def Fmt.PutCallsAny : List Fmt → Err → Prop
  | [], _ => False
  | f :: fs, e => f.PutCalls e ∨ Fmt.PutCallsAny fs e
end

/-- What the encoders, deciders and the condition of a field may raise. -/
def Field.PutCalls : Field → Err → Prop
  | .value _ f, e => f.PutCalls e
  | .pad _ _, _ => False
  | .when _ c f _, e => f.PutCalls e ∨ ∃ o, c o = .error e

end Verif.Spec
