import Verif.Hints
/-
Making `Structured` classes: `structured.py:78-117,170-194,344-464`.
-/
namespace Verif

/-- A Python `dict` with attribute names as keys, in insertion order. -/
abbrev Dict (α : Type) := List (Name × α)

/-- `d[key] = value`: an existing key keeps its place. -/
def Dict.set : Dict α → Name → α → Dict α
  | [], k, v => [(k, v)]
  | (k', v') :: d, k, v => if k' = k then (k, v) :: d else (k', v') :: Dict.set d k v

/-- `d.update(e)`, `d | e` -/
def Dict.update (d e : Dict α) : Dict α := e.foldl (fun d kv => d.set kv.1 kv.2) d

/-- `d.get(key)` -/
def Dict.get (d : Dict α) (k : Name) : Option α := (d.find? (fun kv => kv.1 == k)).map (·.2)

/-- `key in d` -/
def Dict.mem (d : Dict α) (k : Name) : Bool := d.any (fun kv => kv.1 == k)

/-- What may be in the brackets of a class statement. -/
inductive BaseRef
  /-- `Structured` itself -/
  | structured
  /-- a `Structured` class -/
  | cls (c : ClassId)
  /-- `Foo[args]` -/
  | gen (c : ClassId) (args : List Hint)
  /-- `Generic[ts]` -/
  | generic (ts : List TVar)
  /-- any other class; its annotations are not modelled -/
  | other

/-- A class statement deriving from `Structured`. -/
structure ClassDecl where
  bases : List BaseRef
  /-- the annotated names in the body, in order; a name may occur several times -/
  anns : List (Name × Hint) := []
  /-- the value of the counter of `MetaDict` before the statement (`structured.py:175`) -/
  padStart : Nat := 0
  byteOrder : ByteOrder := .default
  /-- `byte_order_mode=ByteOrderMode.OVERRIDE` was given -/
  override : Bool := false
  postInit : List (Name × Val) → Except Err (List (Name × Val)) := .ok

/-- A class object. -/
structure ClassObj where
  /-- its own `__annotations__` -/
  anns : Dict Hint
  /-- the `__annotations__` along `reversed(__mro__)`, its own last -/
  mro : List (Dict Hint)
  /-- what `getattr(cls, '__orig_bases__', ())` gives -/
  origBases : List BaseRef
  /-- `attrs`, `serializer`, `byte_order` -/
  info : ClassInfo

/-- The classes made so far. -/
abbrev World := ClassId → Option ClassObj

/-- The annotations of `Structured` (`structured.py:201-205`). -/
def structuredAnns : Dict Hint :=
  [("serializer", .classVar (.plain "Serializer")), ("attrs", .classVar (.tup [.plain "str"] true)),
   ("_attrgetter", .classVar (.plain "Callable")), ("byte_order", .classVar (.plain "ByteOrder"))]

/-- The name of a pad, `f'{next(self._unique_id)}_pad_'` (`structured.py:181`) -/
def padName (k : Nat) : Name := toString k ++ "_pad_"

/-- Running the annotations of a class body on a `MetaDict` (`structured.py:170-182`); `k` is the counter. -/
def metaDict (ctx : HintCtx) (n : Nat) (id : SerId) : Nat → Dict Hint → List (Name × Hint) → Except Err (Dict Hint)
  | _, d, [] => .ok d
  | k, d, (name, h) :: rest =>
    if name = "_" then do
      if ← ispad ctx n id h then metaDict ctx n id (k + 1) (d.set (padName k) h) rest
      else metaDict ctx n id k (d.set name h) rest
    else metaDict ctx n id k (d.set name h) rest

/-- The class a base is, if it derives from `Structured` and is not it. -/
def BaseRef.origin : BaseRef → Option ClassId
  | .cls c => some c
  | .gen c _ => some c
  | _ => none

/-- `structured.py:97-117` `get_structured_base` -/
def structuredBase (bases : List BaseRef) : Except Err (Option ClassId) :=
  match bases.filterMap BaseRef.origin with
  | [] => .ok none
  | [c] => .ok (some c)
  | _ => .error .typeError

/-- What `typing.get_type_hints` makes of an annotation: strings are evaluated, `None` is its type. -/
def evalHint : Hint → Hint
  | .noneT => .plain "NoneType"
  | .fwd h => h
  | h => h

/-- `typing.get_type_hints(cls, include_extras=True)`: later classes overwrite the values of earlier ones. -/
def typeHints (mro : List (Dict Hint)) : Dict Hint :=
  mro.foldl (fun d anns => d.update (anns.map fun kv => (kv.1, evalHint kv.2))) []

/-- `structured.py:78-94` `filter_typehints`; `j` numbers the hints. -/
def filterHints (ctx : HintCtx) (n : Nat) (id : SerId) : Nat → Dict Hint → Except Err (Dict Ser)
  | _, [] => .ok []
  | j, (name, h) :: rest => do
    let t ← transformTypehint ctx n ((j + 7) :: id) h
    let ts ← filterHints ctx n id (j + 1) rest
    match t with
    | some s => .ok ((name, s) :: ts)
    | none => .ok ts

/-- `alias_tvar_check` (`structured.py:442-446`) -/
def aliasCheck (base ann : Hint) : Hint :=
  if base.isAlias || base.isTvar then base
  else if ann.isAlias || ann.isTvar then ann
  else base

/-- `annotated.with_final(alias_tvar_check).transform(...)` (`structured.py:451`): the check is put at the end of the
list of transforms, hence tried first. -/
def transformAlias (ctx : HintCtx) (n : Nat) (id : SerId) (h : Hint) : Except Err Hint :=
  match h.flatten with
  | [] => .error .valueError
  | base :: anns => steps (fun b a => step ctx (transform ctx n) id (aliasCheck b a) a) base (.noneT :: anns)

/-- The loop over the annotations in `_get_specialization_hints` (`structured.py:448-456`). -/
def ownSpecHints (ctx : HintCtx) (n : Nat) (id : SerId) (own : Dict Hint) (m : TMap) : Dict Hint → Except Err (Dict Hint)
  | [] => .ok []
  | (name, h) :: rest =>
    if own.mem name then do
      let u ← transformAlias ctx n id h
      match u with
      | .tvar t => do
        let ds ← ownSpecHints ctx n id own m rest
        match m.find? (fun p => p.1 == t) with
        | some p => .ok ((name, p.2) :: ds)
        | none => .ok ds
      | .alias .. => do
        let r ← resolve ctx n n m u
        .ok ((name, r) :: (← ownSpecHints ctx n id own m rest))
      | .galias .. => do
        let r ← resolve ctx n n m u
        .ok ((name, r) :: (← ownSpecHints ctx n id own m rest))
      | _ => ownSpecHints ctx n id own m rest
    else ownSpecHints ctx n id own m rest

/-- The generic bases that derive from `Structured`, as a dictionary (`structured.py:429-435`). -/
def genericSupers (bases : List BaseRef) : List (ClassId × List Hint) :=
  bases.filterMap fun
    | .gen c args => some (c, args)
    | _ => none

/-- The variables of `Generic[...]` (`structured.py:432-433`) -/
def genericVars (bases : List BaseRef) : List TVar :=
  bases.foldl (fun ts b => match b with
    | .generic ts' => ts'
    | _ => ts) []

/-- The loop over the generic bases (`structured.py:458-463`), with the merging of `structured.py:464`: earlier bases
overwrite later ones. -/
def superHints (f : ClassId → List Hint → Except Err (Dict Hint)) (m : TMap) :
    List (ClassId × List Hint) → Except Err (Dict Hint)
  | [] => .ok []
  | (c, args) :: rest => do
    let d ← f c (args.map m.get)
    let e ← superHints f m rest
    .ok (e.update d)

/-- `structured.py:421-464` `_get_specialization_hints`; `k` bounds the nesting of calls. -/
def specHints (ctx : HintCtx) (n : Nat) (id : SerId) (w : World) : Nat → ClassId → List Hint → Except Err (Dict Hint)
  | 0, _, _ => .error .recursionError
  | k + 1, c, args => match w c with
    | none => .error .attributeError
    | some o => do
      let m : TMap := (genericVars o.origBases).zip args
      if m.isEmpty then .error .typeError
      else do
        let own ← ownSpecHints ctx n id o.anns m (typeHints o.mro)
        let sup ← superHints (specHints ctx n id w k) m (genericSupers o.origBases)
        .ok (sup.update own)

/-- `base_to_origbase.get(base)` (`structured.py:377-384`): the arguments if the base was written `Base[args]`.  The
bases looked at are those of the attribute `__orig_bases__`, which may be inherited. -/
def origArgs (orig : List BaseRef) (base : ClassId) : Option (List Hint) :=
  ((genericSupers orig).reverse.find? (fun p => p.1 == base)).map (·.2)

/-- `__orig_bases__` is set by a class statement with a base that is not a class; otherwise the attribute is
inherited. -/
def origBasesOf (bases : List BaseRef) (inherited : List BaseRef) : List BaseRef :=
  if bases.any (fun b => match b with | .gen .. => true | .generic _ => true | _ => false) then bases else inherited

/-- `init_vars` without `'self'` (`structured.py:392-401`): `init_vars` starts with `'self'`, so a field of that name
does not become an attribute. -/
def initVars (fields : Dict Ser) : List Name :=
  (fields.filter (fun f => !f.2.isPad && f.1 != "self")).map (·.1)

/-- `Structured.__init_subclass__` (`structured.py:344-419`) for the class statement `d`; `n` bounds the nesting of
calls, `id` is for the identities of the new serializers.  Of `gen_init` only the effect of the generated `__init__`
is used here (`callClass`); its text is in `GenInit.lean`. -/
def createClass (ctx : HintCtx) (n : Nat) (id : SerId) (w : World) (d : ClassDecl) : Except Err ClassObj := do
  let body ← metaDict ctx n id d.padStart [] d.anns
  let base ← structuredBase d.bases
  let finish (anns : Dict Hint) (mro : List (Dict Hint)) (orig : List BaseRef) : Except Err ClassObj := do
    let mro := mro ++ [anns]
    let fields ← filterHints ctx n id 0 (typeHints mro)
    let s ← sumSers ctx.clsFinal id (fields.map (·.2))
    let s ← s.withByteOrder d.byteOrder
    .ok { anns, mro, origBases := orig
          info := { attrs := initVars fields, serializer := s, byteOrder := d.byteOrder, postInit := d.postInit } }
  match base with
  | none => finish body [structuredAnns] (origBasesOf d.bases [])
  | some b => match w b with
    | none => .error .attributeError
    | some o =>
      if ¬ d.override ∧ o.info.byteOrder ≠ d.byteOrder then .error .valueError
      else
        let orig := origBasesOf d.bases o.origBases
        match origArgs orig b with
        | none => finish body o.mro orig
        | some args => do
          let hints ← specHints ctx n id w n b args
          finish (body.update hints) o.mro orig

end Verif
