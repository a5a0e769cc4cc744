import Verif.Ops
/-
`pack_into` and `unpack_from` with offsets that may be negative.

`Ops.lean` models offsets as natural numbers.  Nothing in the library rejects a negative one: it is passed on to
`struct`, which counts it from the end of the buffer, to slices and to indexing.  Containers add sizes to it without
looking at its sign.  This file is the same code with integer offsets; sizes found by unpacking are integers as well,
since `TerminatedCharSerializer.unpack_from` makes them from the offset.
-/
namespace Verif.Neg

/-- Where `struct` starts for an offset: a negative one counts from the end of the buffer, the data must not reach
across it, and it must not lie before its start (CPython `Modules/_struct.c`, `Struct.unpack_from` and
`Struct.pack_into`).  `none` is `struct.error`. -/
def start (len size : Nat) (off : Int) : Option Nat :=
  if off < 0 then
    if 0 < off + size then none
    else if off + len < 0 then none
    else some (off + len).toNat
  else some off.toNat

/-- A slice bound of Python: negative ones count from the end, then it is cut to the buffer. -/
def bound (len : Nat) (i : Int) : Nat :=
  if i < 0 then (i + len).toNat else min i.toNat len

/-- `b[lo:hi]` -/
def slice (b : Bytes) (lo hi : Int) : Bytes :=
  (b.take (bound b.length hi)).drop (bound b.length lo)

/-- `b[lo:hi] = d` for a `bytearray` -/
def assignSlice (b : Bytes) (lo hi : Int) (d : Bytes) : Bytes :=
  b.take (bound b.length lo) ++ d ++ b.drop (max (bound b.length lo) (bound b.length hi))

/-- The bytes `b[off], b[off + 1], …` up to the `IndexError`: for a negative offset the index passes from -1 to 0 and
goes through the buffer once more. -/
def bytesFrom (b : Bytes) (off : Int) : Bytes :=
  if off < 0 then
    if off + b.length < 0 then [] else b.drop (off + b.length).toNat ++ b
  else b.drop off.toNat

/-! ### Packing -/

/-- `StructSerializer.pack_into` on the buffer in the state. -/
def structPackInto (env : Env) (s : StructSer) (off : Int) (vs : List Val) : M Unit := fun st =>
  match start st.buf.length s.size off with
  | none => .err .structError st
  | some o => structPackIntoM env s o vs st

def packIntoOpt (env : Env) (s : Option StructSer) (off : Int) (vs : List Val) : M Unit :=
  match s with
  | none => pure ()
  | some s => structPackInto env s off vs

/-- `CompoundSerializer.pack_into` (`api.py:289-296`) -/
def packIntoLoop (packN : Ser → Int → List Val → M Unit) (pre : Ser → M Ser) (off : Int) :
    Nat → List Ser → List Val → M Nat
  | size, [], _ => pure size
  | size, s :: ss, vals => do
    let s' ← pre s
    packN s' (off + size) (vals.take s'.numValues)
    let sz ← s'.readSize
    packIntoLoop packN pre off (size + sz) ss (vals.drop s'.numValues)

/-- The loop of `ArraySerializer.pack_into` (`arrays.py:126-128`) -/
def packIntoItems (packN : Ser → Int → List Val → M Unit) (item : Ser) (off : Int) : Nat → List Val → M Nat
  | size, [] => pure size
  | size, v :: vs => do
    packN item (off + size) [v]
    let sz ← item.readSize
    packIntoItems packN item off (size + sz) vs

/-- `Structured.pack_into` (`structured.py:274-281`); returns `values.serializer`. -/
def objPackInto (env : Env) (packN : Ser → Int → List Val → M Unit) (off : Int) (v : Val) : M Ser :=
  match v with
  | .obj cls bo attrs => do
    let (ci, ser) ← M.lift (objSer env cls bo)
    let s ← ser.prepack ⟨cls, false, attrs⟩
    let vals ← M.lift (getAttrs attrs ci.attrs)
    packN s off vals
    pure ser
  | _ => M.throw .attributeError

/-- `pack_into(buffer, offset, *values)`: as `Verif.packInto`, same lines. -/
def packInto (env : Env) : Nat → Ser → Int → List Val → M Unit
  | 0, _, _, _ => M.throw .recursionError
  | n + 1, s, off, vs =>
    match s with
    | .null => pure ()
    | .struct st => structPackInto env st off vs
    | .dynChar id st => do
      let (s, vals) ← M.lift (dynCharPrep st vs)
      setSize id s.size
      structPackInto env s off vals
    | .consuming id => do
      let b ← M.lift (consumeData vs)
      setSize id b.length
      -- strings.py:163 `buffer[offset : offset + self.size] = data`
      M.modify fun st => { st with buf := assignSlice st.buf off (off + b.length) b }
    | .terminated id term => do
      let b ← M.lift (termData term vs)
      setSize id b.length
      let s ← M.lift (singleChar.matmul b.length)
      packIntoOpt env s off [.bytes b]
    | .net id => do
      let (s, vals) ← M.lift (netPrep vs)
      setSize id s.size
      structPackInto env s off vals
    | .unicode inner enc _ => do
      let b ← M.lift (do enc (← first vs))
      packInto env n inner off [.bytes b]
    | .array id hdr item sl => do
      let v ← M.lift (first vs)
      let p ← getPart id
      let item' ← item.prepack p
      let items ← M.lift (pyIter v)
      let size ← packIntoItems (packInto env n) item' off (hdrSize hdr) items
      let hv ← M.lift (headerPackValues hdr sl items.length (size - hdrSize hdr))
      setSize id size
      packIntoOpt env hdr off hv
    | .staticArr count _ ser => do
      let items ← M.lift (staticArrPrep count vs)
      packIntoOpt env ser off items
    | .dynArr id cnt item => do
      let (s, vals) ← M.lift (dynArrPrep cnt item vs)
      setSize id s.size
      structPackInto env s off vals
    | .tuple id inner => match vs with
      | [v] => do
        let p ← getPart id
        let inner' ← inner.prepack p
        let vals ← M.lift (pyIter v)
        packInto env n inner' off vals
      | _ => M.throw .typeError
    | .lookback id decider keys opts dflt => do
      let p ← getPart id
      let r ← M.lift (decider p)
      let s ← getSerializer true id keys opts dflt r
      packInto env n s off vs
      setSize id (← s.readSize)
    | .lookahead id _ decider keys opts dflt => do
      let p ← getPart id
      let r ← M.lift (decider p)
      let s ← getSerializer true id keys opts dflt r
      packInto env n s off vs
      setSize id (← s.readSize)
    | .cond .. => M.throw .notImplementedError
    | .skip _ => pure ()
    | .structured id _ => match vs with
      | [v] => do
        let ser ← objPackInto env (packInto env n) off v
        setSize id (← ser.readSize)
      | _ => M.throw .typeError
    | .selfT _ => M.throw .notImplementedError
    | .compound id ss => do
      let total ← packIntoLoop (packInto env n) pure off 0 ss vs
      setSize id total
    | .specialized id p ss => do
      let total ← packIntoLoop (packInto env n) (fun s => s.prepack p) off 0 ss vs
      setSize id total

/-- `obj.pack_into(buffer, offset)` -/
def Obj.packInto (env : Env) (n : Nat) (off : Int) (v : Val) : M Unit := do
  let _ ← objPackInto env (Neg.packInto env n) off v
  pure ()

/-! ### Unpacking

The `size` attributes are integers here, so they are kept beside the state of `Ops.lean`, whose own sizes are not used. -/

structure NSt where
  st : St
  size : SerId → Int

inductive NRes (α : Type) where
  | ok (a : α) (s : NSt)
  | err (e : Err) (s : NSt)

def N (α : Type) := NSt → NRes α

namespace N

def pure (a : α) : N α := fun s => .ok a s

def bind (x : N α) (f : α → N β) : N β := fun s =>
  match x s with
  | .ok a s' => f a s'
  | .err e s' => .err e s'

instance : Monad N where
  pure := N.pure
  bind := N.bind

def throw (e : Err) : N α := fun s => .err e s

/-- An operation that does not touch the sizes. -/
def base (x : M α) : N α := fun s =>
  match x s.st with
  | .ok a st => .ok a { s with st := st }
  | .err e st => .err e { s with st := st }

/-- A pure computation that may raise. -/
def lift (x : Except Err α) : N α := base (M.lift x)

end N

/-- `self.size = n` -/
def setSize (i : SerId) (n : Int) : N Unit := fun s =>
  .ok () { s with size := fun j => if j = i then n else s.size j }

/-- read `self.size` -/
def getSize (i : SerId) : N Int := fun s => .ok (s.size i) s

/-- Reading the `size` attribute, as `Ser.readSize`. -/
def readSize : Ser → N Int
  | .null => pure 0
  | .struct s => pure s.size
  | .dynChar id _ => getSize id
  | .consuming id => getSize id
  | .terminated id _ => getSize id
  | .net id => getSize id
  | .unicode inner _ _ => readSize inner
  | .array id .. => getSize id
  | .staticArr _ _ ser => pure (ser.elim 0 StructSer.size : Nat)
  | .dynArr id .. => getSize id
  | .tuple _ inner => readSize inner
  | .lookback id .. => getSize id
  | .lookahead id .. => getSize id
  | .cond .. => N.throw .attributeError
  | .skip _ => pure 0
  | .structured id _ => getSize id
  | .selfT _ => N.throw .attributeError
  | .compound id _ => getSize id
  | .specialized id .. => getSize id

/-- `StructSerializer.unpack_from(buffer, offset)` -/
def structUnpack (env : Env) (s : StructSer) (b : Bytes) (off : Int) : N (List Val) :=
  match start b.length s.size off with
  | none => N.throw .structError
  | some o => N.lift (s.unpackFrom env.plat b o)

def structUnpackOpt (env : Env) (s : Option StructSer) (b : Bytes) (off : Int) : N (List Val) :=
  match s with
  | none => pure []
  | some s => structUnpack env s b off

/-- `DynamicCharSerializer.unpack_from` (`strings.py:118-130`) -/
def dynCharUnpack (env : Env) (id : SerId) (st : StructSer) (b : Bytes) (off : Int) : N (List Val) := do
  let hv ← structUnpack env st b off
  let count ← N.lift (do needInt (← first hv))
  setSize id ((st.size : Int) + count)
  let s ← N.lift (singleChar.matmul count)
  structUnpackOpt env s b (off + st.size)

/-- `ConsumingCharSerializer.unpack_from` (`strings.py:174-176`) -/
def consumingUnpack (id : SerId) (b : Bytes) (off : Int) : N (List Val) := do
  setSize id (b.length - off)
  pure [.bytes (b.drop (bound b.length off))]

/-- `TerminatedCharSerializer.unpack_from` (`strings.py:223-231`) -/
def terminatedUnpack (id : SerId) (term : Byte) (b : Bytes) (off : Int) : N (List Val) :=
  match findTerm term (bytesFrom b off) with
  | none => N.throw .valueError
  | some k => do
    setSize id (off + k + 1)
    pure [.bytes (slice b off (off + k))]

/-- `NETCharSerializer.unpack_from` (`strings.py:320-333`) -/
def netUnpack (env : Env) (id : SerId) (b : Bytes) (off : Int) : N (List Val) := do
  let hv ← structUnpack env shortLen b off
  let c ← N.lift (do needInt (← first hv))
  let (count, size) ← if 128 ≤ c then do
      let hv ← structUnpack env longLen b off
      let c ← N.lift (do needInt (← first hv))
      let count ← N.lift (netDecode c.toNat)
      pure (count, longLen.size)
    else pure (c.toNat, shortLen.size)
  setSize id (size + count : Nat)
  match start b.length count (off + size) with
  | none => N.throw .structError
  | some o => N.lift (structUnpackFrom env.plat .default [⟨count, .str⟩] b o)

/-- `CompoundSerializer.unpack_from` (`api.py:316-318`) -/
def unpackLoop (unpackN : Ser → Int → N (List Val)) (off : Int) : Int → List Ser → N (List Val × Int)
  | size, [] => pure ([], size)
  | size, s :: ss => do
    let vs ← unpackN s (off + size)
    let sz ← readSize s
    let (rest, total) ← unpackLoop unpackN off (size + sz) ss
    pure (vs ++ rest, total)

/-- The same for `_SpecializedCompoundSerializer` (`api.py:400-407`) -/
def unpackLoopSpec (unpackN : Ser → Int → N (List Val)) (upd : Upd) (off : Int) :
    PObj → Nat → Int → List Ser → N (List Val × Int)
  | _, _, size, [] => pure ([], size)
  | p, done, size, s :: ss => do
    let s' ← N.base (s.preunpack p)
    let vs ← unpackN s' (off + size)
    let p' ← N.lift (upd p done vs)
    let sz ← readSize s'
    let (rest, total) ← unpackLoopSpec unpackN upd off p' (done + vs.length) (size + sz) ss
    pure (vs ++ rest, total)

/-- The loop of `ArraySerializer.unpack_from` (`arrays.py:156-158`) -/
def unpackItems (unpackN : Ser → Int → N (List Val)) (item : Ser) (off : Int) : Int → Nat → N (List Val × Int)
  | size, 0 => pure ([], size)
  | size, k + 1 => do
    let vs ← unpackN item (off + size)
    let sz ← readSize item
    let (rest, total) ← unpackItems unpackN item off (size + sz) k
    pure (vs ++ rest, total)

/-- `ArraySerializer._check_data_size` (`arrays.py:94-98`) -/
def checkDataSize (expected actual : Int) : Except Err Unit :=
  if 0 ≤ expected ∧ expected ≠ actual then .error .valueError else .ok ()

/-- `create_unpack_from` (`structured.py:300-313`); also returns `obj_type.serializer`. -/
def createUnpackWith (env : Env) (unpackN : Upd → Ser → Int → N (List Val)) (cls : ClassId) (off : Int) :
    N (Val × Ser) :=
  match env.classes cls with
  | none => N.throw .attributeError
  | some ci => do
    let s ← N.base (ci.serializer.preunpack ⟨cls, true, []⟩)
    let vals ← unpackN (assignVals ci.attrs) s off
    let v ← N.lift (construct cls ci vals)
    pure (v, ci.serializer)

/-- `unions.py:156-160,219-223`, as `Verif.unionUnpack` -/
def unionUnpack (unpackN : Ser → Int → N (List Val)) (id : SerId) (s : Ser) (off : Int) : N (List Val) :=
  if s.isLazy then do
    setSize id (← readSize s)
    unpackN s off
  else do
    let vs ← unpackN s off
    setSize id (← readSize s)
    pure vs

/-- `unpack_from(buffer, offset)` of every serializer, as `Verif.unpack` for `Src.at`, same lines. -/
def unpack (env : Env) (b : Bytes) : Nat → Upd → Ser → Int → N (List Val)
  | 0, _, _, _ => N.throw .recursionError
  | n + 1, upd, s, off =>
    match s with
    | .null => pure []
    | .struct st => structUnpack env st b off
    | .dynChar id st => dynCharUnpack env id st b off
    | .consuming id => consumingUnpack id b off
    | .terminated id term => terminatedUnpack id term b off
    | .net id => netUnpack env id b off
    | .unicode inner _ dec => do
      let vs ← unpack env b n noUpd inner off
      N.lift (unicodeDecode dec vs)
    | .array id hdr item sl => do
      let hv ← structUnpackOpt env hdr b off
      let (count, dataSize) ← N.lift (headerUnpackValues hdr sl hv)
      let p ← N.base (getPart id)
      let item' ← N.base (item.preunpack p)
      let (items, size) ← unpackItems (unpack env b n noUpd) item' off (hdrSize hdr) count.toNat
      N.lift (checkDataSize dataSize (size - hdrSize hdr))
      setSize id size
      pure [.list items]
    | .staticArr _ _ ser => do
      let vs ← structUnpackOpt env ser b off
      pure [.list vs]
    | .dynArr id cnt item => do
      let hv ← structUnpack env cnt b off
      let c ← match hv with
        | [c] => N.lift (needInt c)
        | _ => N.throw .valueError
      let s ← N.lift (item.mul c)
      let vs ← structUnpackOpt env s b (off + cnt.size)
      setSize id (cnt.size + s.elim 0 StructSer.size : Nat)
      pure [.list vs]
    | .tuple id inner => do
      let p ← N.base (getPart id)
      let inner' ← N.base (inner.preunpack p)
      if inner'.isLazy then pure [.gen]
      else do
        let vs ← unpack env b n noUpd inner' off
        pure [.tup vs]
    | .lookback id decider keys opts dflt => do
      let p ← N.base (getPart id)
      let r ← N.lift (decider p)
      let s ← N.base (getSerializer false id keys opts dflt r)
      unionUnpack (unpack env b n noUpd) id s off
    | .lookahead id readAhead _ keys opts dflt => do
      let hv ← unpack env b n noUpd readAhead off
      let r ← N.lift (first hv)
      let s ← N.base (getSerializer false id keys opts dflt r)
      unionUnpack (unpack env b n noUpd) id s off
    | .cond .. => N.throw .notImplementedError
    | .skip vals => pure vals
    | .structured id cls => do
      let (v, ser) ← createUnpackWith env (unpack env b n) cls off
      setSize id (← readSize ser)
      pure [v]
    | .selfT _ => N.throw .notImplementedError
    | .compound id ss => do
      let (vs, total) ← unpackLoop (unpack env b n noUpd) off 0 ss
      setSize id total
      pure vs
    | .specialized id p ss => do
      let (vs, total) ← unpackLoopSpec (unpack env b n noUpd) upd off p 0 0 ss
      setSize id total
      pure vs

/-- `cls.create_unpack_from(buffer, offset)` -/
def createUnpack (env : Env) (n : Nat) (cls : ClassId) (b : Bytes) (off : Int) : N Val := do
  let (v, _) ← createUnpackWith env (Neg.unpack env b n) cls off
  pure v

/-- `obj.unpack_from(buffer, offset)` (`structured.py:248-260`): the object after the call. -/
def Obj.unpack (env : Env) (n : Nat) (v : Val) (b : Bytes) (off : Int) : N Val :=
  match v with
  | .obj cls bo attrs => do
    let (ci, ser) ← N.lift (objSer env cls bo)
    let s ← N.base (ser.preunpack ⟨cls, false, attrs⟩)
    let vals ← Neg.unpack env b n (assignVals ci.attrs) s off
    if vals.length = ci.attrs.length then
      pure (.obj cls bo ((ci.attrs.zip vals).foldl (fun as nv => setAttr as nv.1 nv.2) attrs))
    else N.throw .valueError
  | _ => N.throw .attributeError

end Verif.Neg
