import Verif.Spec.Format
/-
What packing accepts: the bytes of every value that a field of a documented format takes, also those that are not of the type of
the field, in every byte order.
-/
namespace Verif.Spec

/-- The number that a value is: `True` is 1. -/
def number (v : Val) : Option Int :=
  match meant v with
  | .int i => some i
  | .bool b => some (if b then 1 else 0)
  | _ => none

/-- The float that a number is. -/
def real (P : Platform) (v : Val) : Option UInt64 :=
  match meant v with
  | .float f => some f
  | .int i => P.intToF64 i
  | .bool b => P.intToF64 (if b then 1 else 0)
  | _ => none

/-- The byte string that a value is. -/
def octets (v : Val) : Option Bytes :=
  match meant v with
  | .bytes b => some b
  | _ => none

/-- Whether Python takes it for true. -/
def holds (v : Val) : Bool :=
  match meant v with
  | .none => false
  | .int i => i ≠ 0
  | .bool b => b
  | .float f => f ≠ 0 && f ≠ 0x8000000000000000
  | .bytes b => b ≠ []
  | .str s => s ≠ []
  | .list vs | .tup vs => !vs.isEmpty
  | _ => true

/-- What one gets from it in a `for` loop. -/
def elements (v : Val) : Option (List Val) :=
  match meant v with
  | .list vs | .tup vs => some vs
  | .bytes b => some (b.map fun x => .int x.toNat)
  | .str s => some (s.map fun c => .str [c])
  | _ => none

/-- The first `n` bytes, filled up with zeros. -/
def cut (n : Nat) (b : Bytes) : Bytes := b.take n ++ List.replicate (n - b.length) 0

/-- The length of a .NET string as it is written: long ones in the byte order of the host. -/
def netPrefix (P : Platform) (k : Nat) : Option Bytes :=
  if k < 128 then some [UInt8.ofNat k]
  else if k < 0x8000 then some (intBytes P .default 2 (128 + k % 128 + 256 * (k / 128) : Nat))
  else none

mutual
/-- The bytes of a value as packed in byte order `bo`.  Text, tuples and unions ignore it, and strings with a length cannot be
packed except in the default order.  A tuple may have more items than its type, unless `strict`. -/
def Fmt.store (strict : Bool) (P : Platform) (bo : ByteOrder) (cls : ClassId → Val → Option Bytes) (o : PObj) : Fmt → Val → Option Bytes
  | .int s w, v => match number v with
    | some i => if InRange s w.bytes i then some (intBytes P bo w.bytes i) else none
    | none => none
  | .bool, v => some [if holds v then 1 else 0]
  | .half, v => match real P v with
    | some f => (P.packF16 f).map fun u => intBytes P bo 2 u.toNat
    | none => none
  | .single, v => match real P v with
    | some f => (P.packF32 bo.isNative f).map fun u => intBytes P bo 4 u.toNat
    | none => none
  | .double, v => match real P v with
    | some f => some (intBytes P bo 8 f.toNat)
    | none => none
  | .chars n, v => (octets v).map (cut n)
  | .pascal n, v => (octets v).map fun b => cut n (UInt8.ofNat (min (min b.length (n - 1)) 255) :: b.take (n - 1))
  | .via _ f _ _ _, v => f.store strict P bo cls o v
  | .counted w, v => match octets v with
    | some b => if b = [] ∨ bo ≠ .default then none else prefixed P .default w b.length b
    | none => none
  | .until t, v => (octets v).map (· ++ [t])
  | .rest, v => octets v
  | .net, v => match octets v with
    | some b => if b = [] then none else (netPrefix P b.length).map (· ++ b)
    | none => none
  | .text f en _, v => match en v with
    | .ok b => f.store strict P .default cls o (.bytes b)
    | .error _ => none
  | .fixed n item, v => match elements v with
    | some vs => if vs.length = n then gather (item.store strict P bo cls o) vs else none
    | none => none
  | .list w item, v => match elements v with
    | some vs => match gather (item.store strict P bo cls o) vs with
      | some b => prefixed P bo w vs.length b
      | none => none
    | none => none
  | .sized w w2 item, v => match elements v with
    | some vs => match gather (item.store strict P bo cls o) vs with
      | some b => match prefixed P bo w2 b.length b with
        | some b' => prefixed P bo w vs.length (List.replicate (gap bo w.bytes (some (w2.bytes, w2.bytes))) 0 ++ b')
        | none => none
      | none => none
    | none => none
  | .tup items, v => match elements v with
    | some vs => if strict && decide (vs.length ≠ items.length) then none else Fmt.stores strict P .default cls o 0 items vs
    | none => none
  | .obj c, v => cls c v
  | .me, v => cls o.cls v
  | .choice _ _ _ decider keys opts other, v => match decider o with
    | .ok r => match keyAt keys r with
      | some k => Fmt.storeAt strict P cls o opts k v
      | none => if r.hashable then Fmt.storeAt strict P cls o other 0 v else none
    | .error _ => none
/-- One value for each format, `k` bytes behind the start of a run of basic types; further values are ignored. -/
def Fmt.stores (strict : Bool) (P : Platform) (bo : ByteOrder) (cls : ClassId → Val → Option Bytes) (o : PObj) : Nat → List Fmt → List Val → Option Bytes
  | _, [], _ => some []
  | k, f :: fs, v :: vs => match f.store strict P bo cls o v, Fmt.stores strict P bo cls o (after bo k f.basic) fs vs with
    | some b, some bs => some (List.replicate (gap bo k f.basic) 0 ++ b ++ bs)
    | _, _ => none
  | _, _, _ => none
/-- The `k`-th format, in the default byte order. -/
def Fmt.storeAt (strict : Bool) (P : Platform) (cls : ClassId → Val → Option Bytes) (o : PObj) : List Fmt → Nat → Val → Option Bytes
  | [], _, _ => none
  | f :: _, 0, v => f.store strict P .default cls o v
  | _ :: fs, k + 1, v => Fmt.storeAt strict P cls o fs k v
end

/-- What a condition says: something equal to `True` or to `False`. -/
def verdict (r : Val) : Option Bool :=
  if r.hashable then
    if r.keyEq (.bool true) then some true else if r.keyEq (.bool false) then some false else none
  else none

/-- The fields one after the other, `k` bytes behind the start of a run of basic fields. -/
def storeFields (strict : Bool) (P : Platform) (bo : ByteOrder) (cls : ClassId → Val → Option Bytes) (o : PObj) : Nat → List Field → List Val → Option Bytes
  | _, [], [] => some []
  | k, .value _ f :: fs, v :: vs => match f.store strict P bo cls o v, storeFields strict P bo cls o (after bo k f.basic) fs vs with
    | some b, some bs => some (List.replicate (gap bo k f.basic) 0 ++ b ++ bs)
    | _, _ => none
  | k, .pad _ n :: fs, vs => match storeFields strict P bo cls o (k + n) fs vs with
    | some bs => some (List.replicate n 0 ++ bs)
    | none => none
  | _, .when _ c f _ :: fs, v :: vs => match c o with
    | .ok r => match verdict r with
      | some true => match f.store strict P bo cls o v, storeFields strict P bo cls o 0 fs vs with
        | some b, some bs => some (b ++ bs)
        | _, _ => none
      | some false => storeFields strict P bo cls o 0 fs vs
      | none => none
    | .error _ => none
  | _, _, _ => none

/-- The bytes of an object (to depth `k`), of whatever class it is: its fields one after the other, in its own byte order if it
has one. -/
def storeObj (strict : Bool) (P : Platform) (docs : ClassId → Option ClassDoc) : Nat → ClassId → Val → Option Bytes
  | 0, _, _ => none
  | k + 1, _, v => match v with
    | .obj c bo attrs => match docs c with
      | some d => match pick attrs d.attrs with
        | some vs => storeFields strict P (bo.getD d.byteOrder) (storeObj strict P docs k) ⟨c, false, attrs⟩ 0 d.fields vs
        | none => none
      | none => none
    | _ => none

/-! ### Where it is so -/

/-- The format is one that the library handles. -/
def Field.sound : Field → Bool := Field.good .default

/-- So are the fields of a class, in any byte order. -/
def ClassDoc.sound (d : ClassDoc) : Bool :=
  d.fields.all Field.sound && !d.fields.isEmpty && !Field.lone d.fields

/-- The classes of a program are those of the documentation, in any byte order. -/
def Describes (env : Env) (ctx : HintCtx) (N : Nat) (docs : ClassId → Option ClassDoc) : Prop :=
  ∀ c d, docs c = some d → d.sound = true ∧ ∃ o, env.classes c = some o.info ∧ Documented ctx N d o

end Verif.Spec
