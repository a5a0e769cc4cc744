import Verif.Instances
/-
Which objects an unpacked object is made of: `unpack` of `Ops.lean` with identities.  `arrays.py:137-174,216-223,273-295`
and `tuples.py:58-67` make a new list or tuple in every call, `structured.py:284-327` a new instance, and
`SkipSerializer.unpack*` (`conditional.py:91-98`) returns the default objects that were given to `Condition`.
-/
namespace Verif.Share

/-- A value with the identities of the mutable objects in it.  `plain`: numbers, strings and what actions make of them.
`shared`: one of the mutable defaults of a `Condition`, that very object.  `list`, `obj`: an object made while unpacking,
with its identity. -/
inductive TVal
  | plain (v : Val)
  | shared (v : Val)
  | list (l : Nat) (vs : List TVal)
  | tup (vs : List TVal)
  | obj (l : Nat) (cls : ClassId) (names : List Name) (vs : List TVal)

mutual
/-- The value without identities. -/
def TVal.erase : TVal → Val
  | .plain v => v
  | .shared v => v
  | .list _ vs => .list (eraseL vs)
  | .tup vs => .tup (eraseL vs)
  | .obj _ cls names vs => .obj cls none (names.zip (eraseL vs))
def eraseL : List TVal → List Val
  | [] => []
  | t :: ts => t.erase :: eraseL ts
end

mutual
/-- Values that cannot be changed in place. -/
def frozen : Val → Bool
  | .list _ => false
  | .obj .. => false
  | .custom .. => false
  | .gen => false
  | .tup vs => frozenL vs
  | _ => true
def frozenL : List Val → Bool
  | [] => true
  | v :: vs => frozen v && frozenL vs
end

/-- Computations that may make new objects: the number is the next free identity. -/
def T (α : Type) := Nat → M (α × Nat)

namespace T

def pure (a : α) : T α := fun c st => .ok (a, c) st

def bind (x : T α) (f : α → T β) : T β := fun c st =>
  match x c st with
  | .ok (a, c') st' => f a c' st'
  | .err e st' => .err e st'

instance : Monad T where
  pure := T.pure
  bind := T.bind

/-- A computation that makes no objects of its own. -/
def lift (x : M α) : T α := fun c st =>
  match x st with
  | .ok a st' => .ok (a, c) st'
  | .err e st' => .err e st'

end T

/-- The identity of a new object. -/
def fresh : T Nat := fun c st => .ok (c, c + 1) st

/-- `SkipSerializer.unpack*` returns `self.values` (`conditional.py:91-98`). -/
def dflt (v : Val) : TVal := if frozen v then .plain v else .shared v

/-- The values of a serializer whose values are immutable or made by actions. -/
def leaf (x : M (List Val)) : T (List TVal) := do
  let vs ← T.lift x
  pure (vs.map TVal.plain)

/-- `return (list,)` with a list made in this call. -/
def newList (ts : List TVal) : T (List TVal) := do
  let l ← fresh
  pure [.list l ts]

/-- `unpackLoop` of `Ops.lean` (`api.py:302-322`) -/
def loop (unpackN : Ser → Src → T (List TVal)) (src : Src) : Nat → List Ser → T (List TVal × Nat)
  | size, [] => pure ([], size)
  | size, s :: ss => do
    let vs ← unpackN s (src.next size)
    let sz ← T.lift s.readSize
    let (rest, total) ← loop unpackN src (size + sz) ss
    pure (vs ++ rest, total)

/-- `unpackLoopSpec` of `Ops.lean` (`api.py:400-407`) -/
def loopSpec (unpackN : Ser → Src → T (List TVal)) (upd : Upd) (src : Src) :
    PObj → Nat → Nat → List Ser → T (List TVal × Nat)
  | _, _, size, [] => pure ([], size)
  | p, done, size, s :: ss => do
    let s' ← T.lift (s.preunpack p)
    let vs ← unpackN s' (src.next size)
    let p' ← T.lift (M.lift (upd p done (eraseL vs)))
    let sz ← T.lift s'.readSize
    let (rest, total) ← loopSpec unpackN upd src p' (done + vs.length) (size + sz) ss
    pure (vs ++ rest, total)

/-- The loop of `ArraySerializer.unpack*` (`arrays.py:143-145,156-158,169-171`) -/
def items (unpackN : Ser → Src → T (List TVal)) (item : Ser) (src : Src) : Nat → Nat → T (List TVal × Nat)
  | size, 0 => pure ([], size)
  | size, k + 1 => do
    let vs ← unpackN item (src.next size)
    let sz ← T.lift item.readSize
    let (rest, total) ← items unpackN item src (size + sz) k
    pure (vs ++ rest, total)

/-- `cls(*proxy)` (`structured.py:157-159,302`): a new instance holding the values themselves.  What `__post_init__`
assigns is not followed. -/
def build (cls : ClassId) (ci : ClassInfo) (vals : List TVal) : T TVal :=
  if vals.length = ci.attrs.length then do
    let _ ← T.lift (M.lift (ci.postInit (ci.attrs.zip (eraseL vals))))
    let l ← fresh
    pure (.obj l cls ci.attrs vals)
  else T.lift (M.throw .valueError)

/-- `create_unpack*` (`structured.py:284-327`) -/
def createWith (env : Env) (unpackN : Upd → Ser → Src → T (List TVal)) (cls : ClassId) (src : Src) : T (TVal × Ser) :=
  match env.classes cls with
  | none => T.lift (M.throw .attributeError)
  | some ci => do
    let s ← T.lift (ci.serializer.preunpack ⟨cls, true, []⟩)
    let vals ← unpackN (assignVals ci.attrs) s src
    let v ← build cls ci vals
    pure (v, ci.serializer)

/-- `unions.py:152-154,215-217` -/
def union (unpackN : Ser → Src → T (List TVal)) (id : SerId) (s : Ser) (src : Src) : T (List TVal) :=
  if s.isLazy then do
    let sz ← T.lift s.readSize
    T.lift (setSize id sz)
    unpackN s src
  else do
    let vs ← unpackN s src
    let sz ← T.lift s.readSize
    T.lift (setSize id sz)
    pure vs

/-- `unpack*` of every serializer with the identities of what it returns; the sources are those of `Verif.unpack`. -/
def unpack (env : Env) : Nat → Upd → Ser → Src → T (List TVal)
  | 0, _, _, _ => T.lift (M.throw .recursionError)
  | n + 1, upd, s, src =>
    match s with
    | .null => pure []
    | .struct st => leaf (structUnpackM env st src)
    | .dynChar id st => leaf (dynCharUnpack env id st src)
    | .consuming id => leaf (consumingUnpack id src)
    | .terminated id term => leaf (terminatedUnpack id term src)
    | .net id => leaf (netUnpack env id src)
    | .unicode inner _ dec => do
      let vs ← unpack env n noUpd inner src
      leaf (M.lift (unicodeDecode dec (eraseL vs)))
    | .array id hdr item sl => do
      let hv ← T.lift (structUnpackOpt env hdr src)
      let (count, dataSize) ← T.lift (M.lift (headerUnpackValues hdr sl hv))
      let p ← T.lift (getPart id)
      let item' ← T.lift (item.preunpack p)
      let (its, size) ← items (unpack env n noUpd) item' src (hdrSize hdr) count.toNat
      T.lift (M.lift (checkDataSize dataSize (size - hdrSize hdr)))
      T.lift (setSize id size)
      newList its
    | .staticArr _ _ ser => do
      let vs ← leaf (structUnpackOpt env ser src)
      newList vs
    | .dynArr id cnt item => do
      let hv ← T.lift (structUnpackM env cnt src)
      let c ← T.lift (match hv with
        | [c] => M.lift (needInt c)
        | _ => M.throw .valueError)
      let s ← T.lift (M.lift (item.mul c))
      let vs ← leaf (structUnpackOpt env s (src.next cnt.size))
      T.lift (setSize id (cnt.size + s.elim 0 StructSer.size))
      newList vs
    | .tuple id inner => do
      let p ← T.lift (getPart id)
      let inner' ← T.lift (inner.preunpack p)
      if inner'.isLazy then pure [.plain .gen]
      else do
        let vs ← unpack env n noUpd inner' src
        pure [.tup vs]
    | .lookback id decider keys opts dflt => do
      let p ← T.lift (getPart id)
      let r ← T.lift (M.lift (decider p))
      let s ← T.lift (getSerializer false id keys opts dflt r)
      union (unpack env n noUpd) id s src
    | .lookahead id readAhead _ keys opts dflt => do
      let hv ← unpack env n noUpd readAhead src
      let r ← T.lift (M.lift (first (eraseL hv)))
      T.lift (src.rewind readAhead)
      let s ← T.lift (getSerializer false id keys opts dflt r)
      union (unpack env n noUpd) id s src
    | .cond .. => T.lift (M.throw .notImplementedError)
    | .skip vals => pure (vals.map dflt)
    | .structured id cls => do
      let (v, ser) ← createWith env (unpack env n) cls src
      let sz ← T.lift ser.readSize
      T.lift (setSize id sz)
      pure [v]
    | .selfT _ => T.lift (M.throw .notImplementedError)
    | .compound id ss => do
      let (vs, total) ← loop (unpack env n noUpd) src 0 ss
      T.lift (setSize id total)
      pure vs
    | .specialized id p ss => do
      let (vs, total) ← loopSpec (unpack env n noUpd) upd src p 0 0 ss
      T.lift (setSize id total)
      pure vs

/-- `cls.create_unpack*` with identities. -/
def create (env : Env) (n : Nat) (cls : ClassId) (src : Src) : T TVal := do
  let (v, _) ← createWith env (unpack env n) cls src
  pure v

/-- A `Structured` instance with its identity, its own byte order if it has one, and its attribute values. -/
structure Inst where
  loc : Nat
  cls : ClassId
  order : Option ByteOrder
  names : List Name
  vals : List TVal

/-- The instance without identities. -/
def Inst.erase (x : Inst) : Val := .obj x.cls x.order (x.names.zip (eraseL x.vals))

/-- `_attrgetter(self)`: the attribute values themselves (`structured.py:216`). -/
def gather (names : List Name) (vals : List TVal) : List Name → Except Err (List TVal)
  | [] => .ok []
  | a :: as => match (names.zip vals).find? (fun p => p.1 == a) with
    | some p => do .ok (p.2 :: (← gather names vals as))
    | none => .error .attributeError

/-- `obj.with_byte_order(byte_order)` (`structured.py:212-219`): the object itself, or a new one with the values themselves.
What `__post_init__` assigns is not followed. -/
def withByteOrder (env : Env) (bo : ByteOrder) (x : Inst) : T Inst := do
  let (ci, ser) ← T.lift (M.lift (objSer env x.cls x.order))
  if bo = x.order.getD ci.byteOrder then pure x
  else do
    let _ ← T.lift (M.lift (ser.withByteOrder bo))
    let vals ← T.lift (M.lift (gather x.names x.vals ci.attrs))
    let _ ← T.lift (M.lift (ci.postInit (ci.attrs.zip (eraseL vals))))
    let l ← fresh
    pure ⟨l, x.cls, some bo, ci.attrs, vals⟩

/-- `setattr` of a value. -/
def setT : List (Name × TVal) → Name → TVal → List (Name × TVal)
  | [], a, t => [(a, t)]
  | (b, u) :: as, a, t => if b = a then (b, t) :: as else (b, u) :: setT as a t

/-- `obj.unpack(buffer)` and its variants (`structured.py:228-260`): the same object with the values themselves. -/
def objUnpack (env : Env) (n : Nat) (x : Inst) (src : Src) : T Inst := do
  let (ci, ser) ← T.lift (M.lift (objSer env x.cls x.order))
  let s ← T.lift (ser.preunpack ⟨x.cls, false, x.names.zip (eraseL x.vals)⟩)
  let vals ← unpack env n (assignVals ci.attrs) s src
  if vals.length = ci.attrs.length then
    let attrs := (ci.attrs.zip vals).foldl (fun as nv => setT as nv.1 nv.2) (x.names.zip x.vals)
    pure ⟨x.loc, x.cls, x.order, attrs.map Prod.fst, attrs.map Prod.snd⟩
  else T.lift (M.throw .valueError)

end Verif.Share
