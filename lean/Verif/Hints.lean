import Verif.Ops
/-
Type hints and how they become serializers: `type_checking.py`, `base_types.py`, `hint_types/*.py`, the `_transform`
methods in `serializers/*.py` and `StructuredAlias` in `utils.py`.
-/
namespace Verif

/-- A `typing.TypeVar` -/
abbrev TVar := Nat

/-- The indexable things that a `StructuredAlias` may hold, other than generic classes. -/
inductive AliasKind
  | char | unicode | header | array | tuple
  deriving DecidableEq, Repr

/-- `Header.count` (`hint_types/arrays.py:31-37`): a fixed length or the serializer of a length. -/
inductive Count
  | static (n : Int)
  | dyn (st : StructSer)

/-- The Python objects that occur in annotations and in the brackets of the library's types. -/
inductive Hint
  /-- `None` -/
  | noneT
  /-- a type the library has no interest in: `int`, `str`, `list[...]`, ... -/
  | plain (name : String)
  /-- `char`, `unicode`, `array`, `pad`, `pascal` without brackets (`base_types.py:37-46`) -/
  | unindexed (name : String)
  /-- a serializer object -/
  | ser (s : Ser)
  /-- `Annotated[base, *metas]` -/
  | annot (base : Hint) (metas : List Hint)
  /-- a string, or an annotation under `from __future__ import annotations`, that evaluates to `h` -/
  | fwd (h : Hint)
  /-- a `Structured` class -/
  | cls (c : ClassId)
  /-- `Foo[args]` for a generic `Structured` class `Foo` -/
  | gen (c : ClassId) (args : List Hint)
  /-- `typing.Self` -/
  | selfT
  /-- `tuple[args]`; `variadic` if the last argument is `...` (which is not in `args`) -/
  | tup (args : List Hint) (variadic : Bool)
  /-- `Union[args]` -/
  | union (args : List Hint)
  /-- `ClassVar[h]` -/
  | classVar (h : Hint)
  /-- `Condition(condition, *defaults)` (`hint_types/condition.py:32-37`) -/
  | cond (c : Decider) (defaults : List Val)
  /-- `SerializeAs(...)`, by its `serializer` (`hint_types/serialize_as.py:15-27`) -/
  | serAs (st : StructSer)
  | tvar (t : TVar)
  /-- `StructuredAlias(char, args)` and so on (`utils.py:67-80`) -/
  | alias (k : AliasKind) (args : List Hint)
  /-- `StructuredAlias(Foo[own], args)` (`serializers/structured.py:109`) -/
  | galias (c : ClassId) (own args : List Hint)
  /-- a `Header` object -/
  | header (count : Count) (size : Option StructSer)
  /-- a number in brackets -/
  | int (i : Int)
  /-- a terminator in brackets -/
  | bytes (b : Bytes)
  /-- `math.inf` -/
  | inf
  /-- the class `NET` -/
  | net
  /-- the name of a codec, or an `EncoderDecoder` -/
  | codec (enc : Val → Except Err Bytes) (dec : Bytes → Except Err PyStr)

instance : Inhabited Hint := ⟨.noneT⟩

/-- What the transformation of hints depends on. -/
structure HintCtx where
  /-- the class's serializer reads to the end -/
  clsFinal : ClassId → Bool
  /-- the class that `StructuredSerializer._transform` makes for `Foo[args]`, or the exception of making it; the same
  one every time because of `_specializations` (`serializers/structured.py:90-104`) -/
  spec : ClassId → List Hint → Except Err ClassId
  /-- the identity of the serializer that comes with it: a new one the first time, afterwards always the one that was
  put into `_specializations` then, whichever class the hint is in (`serializers/structured.py:94-104`) -/
  specIdent : SerId → ClassId → List Hint → SerId := fun id _ _ => id
  /-- the identity of the serializer that `char[...]`, `array[...]` and so on make; the same one every time because of
  `functools.cache` (`hint_types/strings.py:60-62,145-147`, `hint_types/arrays.py:54-56,86-88`) -/
  ident : AliasKind → List Hint → SerId
  /-- calling the type of that name with one argument -/
  call : String → Val → Except Err Val

def Hint.isTvar : Hint → Bool
  | .tvar _ => true
  | _ => false

/-- `isinstance(h, StructuredAlias)` -/
def Hint.isAlias : Hint → Bool
  | .alias .. | .galias .. => true
  | _ => false

/-- `isinstance(h, Serializer)` -/
def Hint.ser? : Hint → Option Ser
  | .ser s => some s
  | _ => none

/-- All are serializers. -/
def Hint.sers? : List Hint → Option (List Ser)
  | [] => some []
  | h :: hs => match h.ser?, Hint.sers? hs with
    | some s, some ss => some (s :: ss)
    | _, _ => none

/-- `Annotated[h, *metas]` as evaluated by `typing`: a directly nested `Annotated` is flattened. -/
def annotate (h : Hint) (metas : List Hint) : Hint :=
  match h with
  | .annot b ms => .annot b (ms ++ metas)
  | h => .annot h metas

/-! ### Flattening and transforming -/

mutual
/-- `_iter(h, start=1)` in `type_checking.py:149-154`: the metadata of an `Annotated`, or the hint itself. -/
def Hint.flatMeta : Hint → List Hint
  | .annot _ ms => Hint.flatMetas ms
  | h => [h]
def Hint.flatMetas : List Hint → List Hint
  | [] => []
  | h :: hs => h.flatMeta ++ Hint.flatMetas hs
end

/-- `type_checking.py:147-156` `flatten_Annotated` -/
def Hint.flatten : Hint → List Hint
  | .annot b ms => b.flatMeta ++ Hint.flatMetas ms
  | h => [h]

/-- `annotated.transform` of each (`hint_types/tuples.py:15`, `unions.py:98`).  `sub` is the transformation, told the
identity for the objects it makes. -/
def subList (sub : SerId → Hint → Except Err Hint) (id : SerId) : Nat → List Hint → Except Err (List Hint)
  | _, [] => .ok []
  | j, h :: hs => do
    let t ← sub ((j + 7) :: id) h
    let ts ← subList sub id (j + 1) hs
    .ok (t :: ts)

/-- `hint_types/tuples.py:10-17` `transform_tuple`.  (In all the steps: the result is the new base type, the old one
when the Python function returns `None`.) -/
def tupleStep (ctx : HintCtx) (sub : SerId → Hint → Except Err Hint) (id : SerId) (base : Hint) : Except Err Hint :=
  match base with
  | .tup args false =>
    if args.isEmpty then .ok base
    else if args.any (fun a => a.isTvar || a.isAlias) then .ok (.alias .tuple args)
    else do
      let ts ← subList sub id 0 args
      match Hint.sers? ts with
      | some ss => do .ok (.ser (.tuple id (← sumSers ctx.clsFinal (6 :: id) ss)))
      | none => .ok base
  | b => .ok b

/-- Calling the base type with an unpacked value, for `SerializeAs` (`hint_types/serialize_as.py:41`).  Serializer
objects, unions and so on cannot be called; `tuple[...]` makes a tuple. -/
def Hint.asAction (ctx : HintCtx) : Hint → Action
  | .plain name => ctx.call name
  | .tup .. => fun v => do .ok (.tup (← pyIter v))
  | _ => fun _ => .error .typeError

/-- `hint_types/serialize_as.py:34-41` `SerializeAs._transform` -/
def serAsStep (ctx : HintCtx) (base ann : Hint) : Except Err Hint :=
  match ann with
  | .serAs st => match st.actions with
    | some _ => .ok (.ser (.struct st))
    | none => do .ok (.ser (.struct (← StructSer.mkActions st.format .default [base.asAction ctx])))
  | _ => .ok base

/-- `hint_types/condition.py:39-47` `Condition._transform` with `conditional.py:39-56` -/
def condStep (base ann : Hint) : Except Err Hint :=
  match ann with
  | .cond c defaults => match base with
    | .ser s => if s.numValues ≠ defaults.length then .error .valueError else .ok (.ser (.cond s c defaults))
    | _ => .error .typeError
  | _ => .ok base

/-- A `LookbackDecider` or `LookaheadDecider` object. -/
def Ser.isUnion : Ser → Bool
  | .lookback .. | .lookahead .. => true
  | _ => false

/-- `unions.py:94-102` `AUnion._transform` -/
def unionStep (sub : SerId → Hint → Except Err Hint) (id : SerId) (base ann : Hint) : Except Err Hint :=
  match ann with
  | .ser s =>
    if s.isUnion then match base with
      | .union args =>
        if args.isEmpty then .error .typeError
        else do
          let ts ← subList sub id 0 args
          match Hint.sers? ts with
          | some _ => .ok ann
          | none => .ok base
      | _ => .error .typeError
    else .ok base
  | _ => .ok base

/-- `serializers/self.py:30-33` `SelfSerializer._transform` -/
def selfStep (id : SerId) (base : Hint) : Except Err Hint :=
  match base with
  | .selfT => .ok (.ser (.selfT id))
  | b => .ok b

/-- `serializers/structured.py:83-109` `StructuredSerializer._transform` -/
def structuredStep (ctx : HintCtx) (id : SerId) (base : Hint) : Except Err Hint :=
  match base with
  | .cls c => .ok (.ser (.structured id c))
  | .gen c args =>
    if args.any Hint.isTvar then .ok (.galias c args args)
    else do .ok (.ser (.structured (ctx.specIdent id c args) (← ctx.spec c args)))
  | b => .ok b

/-- `base_types.py:42-46` `requires_indexing._transform` -/
def indexingStep (base ann : Hint) : Except Err Hint :=
  match base, ann with
  | .unindexed _, _ => .error .typeError
  | _, .unindexed _ => .error .typeError
  | b, _ => .ok b

/-- `structured.py:56-58` `final_transform` -/
def finalStep (base ann : Hint) : Except Err Hint :=
  match ann with
  | .ser _ => .ok ann
  | _ => .ok base

/-- The transforms for one annotation, in the order `reversed(self._transforms)` (`type_checking.py:161-165`).  They were
registered by importing `base_types`, `serializers` (`structured`, `self`, `unions`), `hint_types` (`condition`,
`serialize_as`, `tuples`); `structured.py` puts `final_transform` in front. -/
def step (ctx : HintCtx) (sub : SerId → Hint → Except Err Hint) (id : SerId) (base ann : Hint) : Except Err Hint := do
  let b ← tupleStep ctx sub id base
  let b ← serAsStep ctx b ann
  let b ← condStep b ann
  let b ← unionStep sub id b ann
  let b ← selfStep id b
  let b ← structuredStep ctx id b
  let b ← indexingStep b ann
  finalStep b ann

/-- The loop over the annotations. -/
def steps (f : Hint → Hint → Except Err Hint) : Hint → List Hint → Except Err Hint
  | base, [] => .ok base
  | base, a :: as => do steps f (← f base a) as

/-- `type_checking.py:158-166` `annotated.transform`; `n` bounds the nesting of calls. -/
def transform (ctx : HintCtx) : Nat → SerId → Hint → Except Err Hint
  | 0, _, _ => .error .recursionError
  | n + 1, id, h => match h.flatten with
    | [] => .error .valueError
    | base :: anns => steps (step ctx (transform ctx n) id) base (.noneT :: anns)

/-- `structured.py:64-75` `transform_typehint` -/
def transformTypehint (ctx : HintCtx) (n : Nat) (id : SerId) (h : Hint) : Except Err (Option Ser) :=
  match h with
  | .classVar _ => .ok none
  | h => do .ok (← transform ctx n id h).ser?

/-- `structured.py:46-53` `ispad`, on the result of the transformation -/
def Ser.isPad : Ser → Bool
  | .struct s => s.numValues == 0 && s.format.getLast? == some 'x'
  | _ => false

/-- `structured.py:46-53` `ispad` -/
def ispad (ctx : HintCtx) (n : Nat) (id : SerId) (h : Hint) : Except Err Bool := do
  match ← transform ctx n id h with
  | .ser s => .ok s.isPad
  | _ => .ok false

/-! ### The types users write -/

/-- A basic type such as `uint8 = Annotated[int, StructSerializer('B')]` (`hint_types/basic_types.py:26-37`) -/
def basicHint (name : String) (code : Char) : Hint := .annot (.plain name) [.ser (.struct ⟨[code], none⟩)]

/-- `h in _SizeTypes` (`hint_types/basic_types.py:40`), with the serializer in it.  `Annotated` objects and serializers
are compared by their contents. -/
def sizeType? : Hint → Option StructSer
  | .annot (.plain name) [.ser (.struct ⟨[c], none⟩)] =>
    if name = "int" ∧ (c = 'B' ∨ c = 'H' ∨ c = 'I' ∨ c = 'Q') then some ⟨[c], none⟩ else none
  | _ => none

/-- A struct serializer or `NullSerializer()` as an object. -/
def optSer : Option StructSer → Ser
  | some s => .struct s
  | none => .null

/-- `hint_types/basic_types.py:44-64` `pad[count]` -/
def mkPad (count : Int) : Except Err Hint := do
  .ok (.annot (.plain "NoneType") [.ser (optSer (← StructSer.matmul ⟨['x'], none⟩ count))])

/-- `hint_types/basic_types.py:44-73` `pascal[count]` -/
def mkPascal (count : Int) : Except Err Hint := do
  .ok (.annot (.plain "bytes") [.ser (optSer (← StructSer.matmul ⟨['p'], none⟩ count))])

/-- `hint_types/strings.py:54-84` `char[count]` -/
def mkChar (ctx : HintCtx) (count : Hint) : Except Err Hint :=
  let id := ctx.ident .char [count]
  let wrap (s : Ser) : Hint := .annot (.plain "bytes") [.ser s]
  match sizeType? count with
  | some st => .ok (wrap (.dynChar id st))
  | none => match count with
    | .int i => do .ok (wrap (optSer (← singleChar.matmul i)))
    | .net => .ok (wrap (.net id))
    | .tvar _ => .ok (.alias .char [count])
    | .bytes [b] => .ok (wrap (.terminated id b))
    | .bytes _ => .error .valueError
    | .inf => .ok (wrap (.consuming id))
    | _ => .error .typeError

/-- `hint_types/strings.py:128-177` `unicode[count, encoding]` -/
def mkUnicode (ctx : HintCtx) (n : Nat) (count encoding : Hint) : Except Err Hint :=
  if count.isTvar then .ok (.alias .unicode [count, encoding])
  else match encoding with
    | .codec enc dec => do
      match ← transform ctx n (ctx.ident .unicode [count, encoding]) (← mkChar ctx count) with
      | .ser s => .ok (.annot (.plain "str") [.ser (.unicode s enc dec)])
      | _ => .error .typeError
    | _ => .error .typeError

/-- `hint_types/arrays.py:39-80` `Header[length, size]`; `Header[length]` has `size = None` -/
def mkHeader (length size : Hint) : Except Err Hint :=
  if length.isTvar || size.isTvar then .ok (.alias .header [length, size])
  else do
    let count ← match sizeType? length with
      | some st => .ok (.dyn st)
      | none => match length with
        | .int i => if i < 0 then .error .valueError else .ok (.static i)
        | _ => .error .typeError
    match sizeType? size with
    | some st => .ok (.header count (some st))
    | none => match size with
      | .noneT => .ok (.header count none)
      | _ => .error .typeError

/-- `hint_types/arrays.py:119-137`: the serializer of an array of general items -/
def mkArraySer (id : SerId) (count : Count) (size : Option StructSer) (item : Ser) : Except Err Ser :=
  match count with
  | .static n => .ok (.array id size item n)
  | .dyn c => match size with
    | none => .ok (.array id (some c) item (-1))
    | some d => do .ok (.array id (some (← c.add d)) item (-1))

/-- `hint_types/arrays.py:86-137` `array[header, item_type]` -/
def mkArray (ctx : HintCtx) (n : Nat) (header item : Hint) : Except Err Hint :=
  let id := ctx.ident .array [header, item]
  let wrap (s : Ser) : Hint := .annot (.plain "list") [.ser s]
  if header.isAlias || item.isTvar then .ok (.alias .array [header, item])
  else match header with
    | .header count size => do
      match ← transform ctx n (7 :: id) item with
      | .ser s =>
        if s.isFinal ctx.clsFinal then .error .typeError
        else match s with
          | .struct st =>
            if st.numValues = 1 then match count with
              | .static k => do .ok (wrap (← mkStaticArr k st))
              | .dyn c => .ok (wrap (.dynArr id c st))
            else do .ok (wrap (← mkArraySer id count size s))
          | s => do .ok (wrap (← mkArraySer id count size s))
      | _ => .error .typeError
    | _ => .error .typeError

/-- `hint_types/serialize_as.py:19-27` `SerializeAs(hint)` -/
def mkSerializeAs (ctx : HintCtx) (n : Nat) (id : SerId) (h : Hint) : Except Err Hint := do
  match ← transform ctx n id h with
  | .ser (.struct st) => if st.numValues ≠ 1 then .error .typeError else .ok (.serAs st)
  | _ => .error .typeError

/-- `hint_types/serialize_as.py:29-32` `with_factory` -/
def withFactory (h : Hint) (action : Action) : Except Err Hint :=
  match h with
  | .serAs st => do .ok (.serAs (← StructSer.mkActions st.format .default [action]))
  | _ => .error .attributeError

/-- `unions.py:61-68` `validate_serializer` -/
def validateSerializer (ctx : HintCtx) (n : Nat) (id : SerId) (h : Hint) : Except Err Ser := do
  match ← transform ctx n id h with
  | .ser s => if s.numValues ≠ 1 then .error .valueError else .ok s
  | _ => .error .typeError

def validateList (ctx : HintCtx) (n : Nat) (id : SerId) : Nat → List Hint → Except Err (List Ser)
  | _, [] => .ok []
  | j, h :: hs => do
    let s ← validateSerializer ctx n ((j + 7) :: id) h
    let ss ← validateList ctx n id (j + 1) hs
    .ok (s :: ss)

/-- `unions.py:42-54,115-128` `LookbackDecider(decider, result_map, default)` -/
def mkLookback (ctx : HintCtx) (n : Nat) (id : SerId) (decider : Decider) (keys : List Val) (opts : List Hint)
    (dflt : Option Hint) : Except Err Hint := do
  let d ← match dflt with
    | none => .ok .null
    | some h => validateSerializer ctx n (6 :: id) h
  let os ← validateList ctx n id 0 opts
  .ok (.ser (.lookback id decider keys os d))

/-- `unions.py:42-54,176-191` `LookaheadDecider(read_ahead, write_decider, result_map, default)` -/
def mkLookahead (ctx : HintCtx) (n : Nat) (id : SerId) (readAhead : Hint) (decider : Decider) (keys : List Val)
    (opts : List Hint) (dflt : Option Hint) : Except Err Hint := do
  let d ← match dflt with
    | none => .ok .null
    | some h => validateSerializer ctx n (6 :: id) h
  let os ← validateList ctx n id 0 opts
  match ← transform ctx n (5 :: id) readAhead with
  | .ser r => .ok (.ser (.lookahead id r decider keys os d))
  | _ => .error .typeError

/-! ### Generics -/

/-- A map from type variables to hints; the first entry for a variable counts. -/
abbrev TMap := List (TVar × Hint)

/-- `tvar_map.get(arg, arg)` -/
def TMap.get (m : TMap) (h : Hint) : Hint :=
  match h with
  | .tvar t => match m.find? (fun p => p.1 == t) with
    | some p => p.2
    | none => h
  | h => h

mutual
/-- `__parameters__` of the arguments of a `typing` alias: the variables in it, in order of appearance, as `typing`
collects them.  `StructuredAlias` objects are opaque to `typing`. -/
def Hint.params : Hint → List TVar
  | .tvar t => [t]
  | .annot b _ => b.params
  | .gen _ args => Hint.paramsList args
  | .tup args _ => Hint.paramsList args
  | .union args => Hint.paramsList args
  | _ => []
def Hint.paramsList : List Hint → List TVar
  | [] => []
  | h :: hs => h.params ++ Hint.paramsList hs
end

/-- Without repetitions, first occurrences kept. -/
def dedup [BEq α] : List α → List α
  | [] => []
  | a :: as => a :: (dedup as).filter (fun b => !(b == a))

mutual
/-- What `typing` substitutes when an alias is indexed. -/
def Hint.tsubst (m : TMap) : Hint → Hint
  | .tvar t => m.get (.tvar t)
  | .annot b ms => .annot (b.tsubst m) ms
  | .gen c args => .gen c (Hint.tsubstList m args)
  | .tup args v => .tup (Hint.tsubstList m args) v
  | .union args => .union (Hint.tsubstList m args)
  | h => h
def Hint.tsubstList (m : TMap) : List Hint → List Hint
  | [] => []
  | h :: hs => h.tsubst m :: Hint.tsubstList m hs
end

/-- `Foo[own][args]` as `typing` evaluates it. -/
def indexGeneric (c : ClassId) (own args : List Hint) : Except Err Hint :=
  let ps := dedup (Hint.paramsList own)
  if ps.length ≠ args.length then .error .typeError
  else .ok (.gen c (Hint.tsubstList (ps.zip args) own))

/-- `self.cls[resolved]` (`utils.py:102`) -/
def indexAlias (ctx : HintCtx) (n : Nat) (k : AliasKind) (args : List Hint) : Except Err Hint :=
  match k, args with
  | .char, [count] => mkChar ctx count
  | .unicode, [count, encoding] => mkUnicode ctx n count encoding
  | .header, [length, size] => mkHeader length size
  | .array, [header, item] => mkArray ctx n header item
  | .tuple, args => .ok (.tup args false)
  | _, _ => .error .typeError

/-- The loop of `StructuredAlias.resolve` (`utils.py:90-96`). -/
def resolveArgs (res : Hint → Except Err Hint) (m : TMap) : List Hint → Except Err (List Hint)
  | [] => .ok []
  | a :: as => do
    let b := m.get a
    let r ← if b.isAlias then res b else .ok b
    let rs ← resolveArgs res m as
    .ok (r :: rs)

/-- `utils.py:82-102` `StructuredAlias.resolve`; `n` bounds the nesting of its calls, `N` that of the transformations in
between.  Only called for aliases. -/
def resolve (ctx : HintCtx) (N : Nat) : Nat → TMap → Hint → Except Err Hint
  | 0, _, _ => .error .recursionError
  | n + 1, m, h => match h with
    | .alias k args => do
      let rs ← resolveArgs (resolve ctx N n m) m args
      if rs.any (fun r => r.isTvar || r.isAlias) then .ok (.alias k rs) else indexAlias ctx N k rs
    | .galias c own args => do
      let rs ← resolveArgs (resolve ctx N n m) m args
      if rs.any (fun r => r.isTvar || r.isAlias) then .ok (.galias c own rs) else indexGeneric c own rs
    | _ => .error .attributeError

end Verif
