import Verif.Spec.Format
/-
What the documentation promises about reading: the value that the bytes of a value stand for.
-/
namespace Verif.Spec

/-- What each of the values comes back as. -/
def backAll (f : Val → Option Val) : List Val → Option (List Val)
  | [] => some []
  | v :: vs => match f v, backAll f vs with
    | some w, some ws => some (w :: ws)
    | _, _ => none

/-- A text without the zero characters at its end. -/
def dropNuls (s : PyStr) : PyStr := (s.reverse.dropWhile (· == 0)).reverse

/-- The bytes begin with the key. -/
def Ahead.begins (P : Platform) : Ahead → Val → Bytes → Bool
  | .int s w, .int i, b => InRange s w.bytes i && b.take w.bytes = intBytes P .default w.bytes i
  | .chars n, .bytes d, b => d.length = n && b.take n = d
  | _, _, _ => false

mutual
/-- What a value comes back as: itself, except that `char[n]` is filled up with zeros, texts lose zero characters at their
end and factories make something new.  `t` admits terminated strings, `l` says that nothing follows (so the remaining bytes are its bytes); `cls` says what
objects come back as, `wcls` their bytes.  `o` is the object that the value belongs to, `o'` is what has come back of it so far.
Tuples are of basic types only, or have one item.  A union's decider must choose the same format from what has come back; a
union that looks ahead needs a value that begins with the key. -/
def Fmt.back (P : Platform) (t : Bool) (wcls : ClassId → Val → Option Bytes) (cls : Bool → ClassId → Val → Option Val) (o o' : PObj) :
    Fmt → Bool → Val → Option Val
  | .int _ _, _, v => match v with
    | .int _ => some v
    | _ => none
  | .bool, _, v => match v with
    | .bool _ => some v
    | _ => none
  | .half, _, v => match v with
    | .float f => (P.packF16 f).map fun u => .float (P.unpackF16 u)
    | _ => none
  | .single, _, v => match v with
    | .float f => if P.packF32 true f = P.packF32 false f then (P.packF32 true f).map fun u => .float (P.unpackF32 u) else none
    | _ => none
  | .double, _, v => match v with
    | .float _ => some v
    | _ => none
  | .chars n, _, v => match v with
    | .bytes b => if b.length ≤ n then some (.bytes (b ++ List.replicate (n - b.length) 0)) else none
    | _ => none
  | .pascal n, _, v => match v with
    | .bytes b => if b.length < n ∧ b.length < 256 then some v else none
    | _ => none
  | .via _ f _ _ make, l, v => (f.back P t wcls cls o o' l (meant v)).map make
  | .counted _, _, v => match v with
    | .bytes _ => some v
    | _ => none
  | .until _, _, v => match v with
    | .bytes _ => if t then some v else none
    | _ => none
  | .rest, l, v => match v with
    | .bytes _ => if l then some v else none
    | _ => none
  | .net, _, v => match v with
    | .bytes _ => some v
    | _ => none
  | .text f en de, l, v => match en v with
    | .ok b => match f.back P t wcls cls o o' l (.bytes b) with
      | some (.bytes b') => match de b' with
        | .ok s => some (.str (dropNuls s))
        | .error _ => none
      | _ => none
    | .error _ => none
  | .fixed _ item, _, v => match v with
    | .list vs => (backAll (item.back P t wcls cls o o' false) vs).map .list
    | _ => none
  | .list _ item, _, v => match v with
    | .list vs => (backAll (item.back P t wcls cls o o' false) vs).map .list
    | _ => none
  | .sized _ _ item, _, v => match v with
    | .list vs => (backAll (item.back P t wcls cls o o' false) vs).map .list
    | _ => none
  | .tup items, l, v => match v with
    | .tup vs => if items.all (·.basic.isSome) || items.length == 1 then (Fmt.backs P t wcls cls o o' items l vs).map .tup else none
    | _ => none
  | .obj c, l, v => cls l c v
  | .me, l, v => cls l o.cls v
  | .choice _ _ ahead decider keys opts other, l, v => match decider o with
    | .ok r => match ahead with
      | none => match decider o' with
        | .ok r' => match keyAt keys r with
          | some k => if keyAt keys r' = some k then Fmt.backAt P t wcls cls o o' opts k l v else none
          | none => if r'.hashable && (keyAt keys r').isNone then Fmt.backAt P t wcls cls o o' other 0 l v else none
        | .error _ => none
      | some a => match keyAt keys r with
        | some k => match Fmt.writeAt P .default wcls o opts k v with
          | some b => if a.begins P r b then Fmt.backAt P t wcls cls o o' opts k l v else none
          | none => none
        | none => match Fmt.writeAt P .default wcls o other 0 v with
          | some b => if a.begins P r b then Fmt.backAt P t wcls cls o o' other 0 l v else none
          | none => none
    | .error _ => none
/-- One value for each format. -/
def Fmt.backs (P : Platform) (t : Bool) (wcls : ClassId → Val → Option Bytes) (cls : Bool → ClassId → Val → Option Val) (o o' : PObj) :
    List Fmt → Bool → List Val → Option (List Val)
  | [], _, [] => some []
  | f :: fs, l, v :: vs => match f.back P t wcls cls o o' (l && fs.isEmpty) v, Fmt.backs P t wcls cls o o' fs l vs with
    | some w, some ws => some (w :: ws)
    | _, _ => none
  | _, _, _ => none
/-- The `k`-th format. -/
def Fmt.backAt (P : Platform) (t : Bool) (wcls : ClassId → Val → Option Bytes) (cls : Bool → ClassId → Val → Option Val) (o o' : PObj) :
    List Fmt → Nat → Bool → Val → Option Val
  | [], _, _, _ => none
  | f :: _, 0, l, v => f.back P t wcls cls o o' l v
  | _ :: fs, k + 1, l, v => Fmt.backAt P t wcls cls o o' fs k l v
end

/-- With one more attribute. -/
def _root_.Verif.PObj.with (o : PObj) (a : Name) (v : Val) : PObj := { o with attrs := o.attrs ++ [(a, v)] }

/-- What the fields come back as, one after the other; a field whose condition does not hold comes back as its default.  The
condition must hold, or not hold, for what has come back as well. -/
def backFields (P : Platform) (t : Bool) (wcls : ClassId → Val → Option Bytes) (cls : Bool → ClassId → Val → Option Val) (o : PObj) :
    List Field → PObj → Bool → List Val → Option (List Val)
  | [], _, _, [] => some []
  | .value a f :: fs, o', l, v :: vs => match f.back P t wcls cls o o' (l && fs.isEmpty) v with
    | some w => match backFields P t wcls cls o fs (o'.with a w) l vs with
      | some ws => some (w :: ws)
      | none => none
    | none => none
  | .pad _ _ :: fs, o', l, vs => backFields P t wcls cls o fs o' l vs
  | .when a c f d :: fs, o', l, v :: vs => match c o, c o' with
    | .ok (.bool true), .ok (.bool true) => match f.back P t wcls cls o o' (l && fs.isEmpty) v with
      | some w => match backFields P t wcls cls o fs (o'.with a w) l vs with
        | some ws => some (w :: ws)
        | none => none
      | none => none
    | .ok (.bool false), .ok (.bool false) => match backFields P t wcls cls o fs (o'.with a d) l vs with
      | some ws => some (d :: ws)
      | none => none
    | _, _ => none
  | _, _, _, _ => none

mutual
/-- `Self` occurs. -/
def Fmt.usesSelf : Fmt → Bool
  | .me => true
  | .text f _ _ | .fixed _ f | .list _ f | .sized _ _ f => f.usesSelf
  | .tup fs => Fmt.anySelf fs
  | .choice _ _ _ _ _ opts other => Fmt.anySelf opts || Fmt.anySelf other
  | _ => false
def Fmt.anySelf : List Fmt → Bool
  | [] => false
  | f :: fs => f.usesSelf || Fmt.anySelf fs
end

def Field.usesSelf : Field → Bool
  | .value _ f | .when _ _ f _ => f.usesSelf
  | .pad .. => false

/-- What an object comes back as (to depth `k`): a new object with the fields only.  A field called `cls` rules out `Self`. -/
def backObj (P : Platform) (t : Bool) (docs : ClassId → Option ClassDoc) : Nat → Bool → ClassId → Val → Option Val
  | 0, _, _, _ => none
  | k + 1, l, c, v => match v, docs c with
    | .obj c' none attrs, some d =>
      if c' = c ∧ ¬ (d.fields.any Field.usesSelf ∧ "cls" ∈ d.attrs) then match pick attrs d.attrs with
        | some vs => (backFields P t (writeObj P docs k) (backObj P t docs k) ⟨c, false, attrs⟩ d.fields ⟨c, true, []⟩ l vs).map
            fun ws => .obj c none (d.attrs.zip ws)
        | none => none
      else none
    | _, _ => none

end Verif.Spec
