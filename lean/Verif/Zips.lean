import Verif.Ops
/-
`zips` of `utils.py:13-50`: the replacement of `zip(..., strict=True)` on Python 3.9, and the methods of `Structured`
that use it (`structured.py:228-260,284-327,479-484`).
-/
namespace Verif.Zips

/-- One round of `zip` over iterators (what is left of each): the values, or `none` if one is exhausted.  The iterators
before that one have already been advanced, and those values are lost. -/
def round : List (List α) → Option (List α) × List (List α)
  | [] => (some [], [])
  | [] :: its => (none, [] :: its)
  | (x :: xs) :: its => match round its with
    | (some t, rest) => (some (x :: t), xs :: rest)
    | (none, rest) => (none, xs :: rest)

/-- `yield from zip(it, *its)`: the tuples, and what is left of the iterators. -/
def zipFrom : List α → List (List α) → List (List α) × List (List α)
  | [], its => ([], [] :: its)
  | x :: xs, its => match round its with
    | (none, rest) => ([], xs :: rest)
    | (some t, rest) => let (ts, left) := zipFrom xs rest
      ((x :: t) :: ts, left)

/-- `zip(*iterators)` -/
def zipAll : List (List α) → List (List α) × List (List α)
  | [] => ([], [])
  | it :: its => zipFrom it its

/-- `zips(*iterables, strict=strict)` on Python 3.9 (`utils.py:33-47`): the tuples, and the exception after them. -/
def zips39 (strict : Bool) (iterables : List (List α)) : List (List α) × Option Err :=
  let (ts, left) := zipAll iterables
  if strict && left.any (fun it => !it.isEmpty) then (ts, some .valueError) else (ts, none)

/-- What the two iterables below give. -/
inductive Item
  | name (a : Name)
  | val (v : Val)

/-- `for attr, value in zips(attrs, values, strict=True): setattr(self, attr, value)` on Python 3.9: the attributes
afterwards and the exception. -/
def assign39 (attrs : List Name) (vals : List Val) (old : List (Name × Val)) : List (Name × Val) × Option Err :=
  let (ts, e) := zips39 true [attrs.map Item.name, vals.map Item.val]
  (ts.foldl (fun as t => match t with
    | [.name a, .val v] => setAttr as a v
    | _ => as) old, e)

/-- `obj.unpack(buffer)` and its variants on Python 3.9.  The values that do not fit are noticed while they are unpacked
(`assignVals`), as on later versions: the names run out first. -/
def unpack39 (env : Env) (n : Nat) (v : Val) (src : Src) : M Val :=
  match v with
  | .obj cls bo attrs => do
    let (ci, ser) ← M.lift (objSer env cls bo)
    let s ← ser.preunpack ⟨cls, false, attrs⟩
    let vals ← Verif.unpack env n (assignVals ci.attrs) s src
    match assign39 ci.attrs vals attrs with
    | (as, none) => pure (.obj cls bo as)
    | (_, some e) => M.throw e
  | _ => M.throw .attributeError

/-- `create_unpack(buffer)` and its variants on Python 3.9: `_Proxy.__call__`, then `cls(*proxy)`, where
`_Proxy.__iter__` reads every attribute. -/
def createUnpack39 (env : Env) (n : Nat) (cls : ClassId) (src : Src) : M Val :=
  match env.classes cls with
  | none => M.throw .attributeError
  | some ci => do
    let s ← ci.serializer.preunpack ⟨cls, true, []⟩
    let vals ← Verif.unpack env n (assignVals ci.attrs) s src
    match assign39 ci.attrs vals [] with
    | (_, some e) => M.throw e
    | (as, none) => do
      let args ← M.lift (getAttrs as ci.attrs)
      M.lift (construct cls ci args)

end Verif.Zips
