import Verif.Instances
/-
`Structured.unpack`, `unpack_from` and `unpack_read` of an existing object (`structured.py:228-260`) once more, as the
loops they are: attribute after attribute is assigned while the values arrive.  `Obj.unpack` (Ops.lean) gives the object
of a successful call; here the object is also known when the call raises.
-/
namespace Verif

/-- `setattr(self, attr, value)` for each pair of `zip(attrs, values)`. -/
def setPairs (as : List (Name × Val)) (names : List Name) (vs : List Val) : List (Name × Val) :=
  (names.zip vs).foldl (fun as nv => setAttr as nv.1 nv.2) as

/-- The loop of `Structured.unpack*` over the generator of a `CompoundSerializer` (`api.py:302-322,400-407`): `names` are
the attributes not yet assigned.  A part is read when the value after the last one is asked for, so the parts in front of
it have been assigned by then.  `pre` is `preunpack` for a specialized compound, which is given the object itself. -/
def inPlaceLoop (unpackN : Ser → Src → M (List Val)) (pre : List (Name × Val) → Ser → M Ser) (id : SerId) (src : Src) :
    List (Name × Val) → List Name → Nat → List Ser → St → List (Name × Val) × Res Unit
  | as, names, size, [], st =>
    (as, (do setSize id size; if names.length = 0 then pure () else M.throw .valueError) st)
  | as, names, size, s :: ss, st =>
    match pre as s st with
    | .err e st => (as, .err e st)
    | .ok s' st => match unpackN s' (src.next size) st with
      | .err e st => (as, .err e st)
      | .ok vs st =>
        if names.length < vs.length then (setPairs as names vs, .err .valueError st)
        else match s'.readSize st with
          | .err e st => (setPairs as names vs, .err e st)
          | .ok sz st =>
            inPlaceLoop unpackN pre id src (setPairs as names vs) (names.drop vs.length) (size + sz) ss st

/-- The loop of `Structured.unpack*` over the values of any serializer (`structured.py:233-236`).  All but compounds
return a finished tuple. -/
def inPlaceVals (env : Env) (src : Src) (as : List (Name × Val)) (names : List Name) :
    Nat → Ser → St → List (Name × Val) × Res Unit
  | n + 1, .compound id ss, st => inPlaceLoop (unpack env n noUpd) (fun _ s st => .ok s st) id src as names 0 ss st
  | n + 1, .specialized id p ss, st =>
    inPlaceLoop (unpack env n noUpd) (fun as s => s.preunpack { p with attrs := as }) id src as names 0 ss st
  | n, s, st => match unpack env n noUpd s src st with
    | .err e st => (as, .err e st)
    | .ok vs st => (setPairs as names vs, (if vs.length = names.length then pure () else M.throw .valueError : M Unit) st)

/-- `obj.unpack(buffer)`, `obj.unpack_from(buffer, offset)`, `obj.unpack_read(readable)` (`structured.py:228-260`): the
object afterwards, and what was returned or raised. -/
def Obj.unpackInPlace (env : Env) (n : Nat) (v : Val) (src : Src) (st : St) : Val × Res Unit :=
  match v with
  | .obj cls bo attrs => match objSer env cls bo with
    | .error e => (v, .err e st)
    | .ok (ci, ser) => match ser.preunpack ⟨cls, false, attrs⟩ st with
      | .err e st => (v, .err e st)
      | .ok s st =>
        let r := inPlaceVals env src attrs ci.attrs n s st
        (.obj cls bo r.1, r.2)
  | _ => (v, .err .attributeError st)

end Verif
