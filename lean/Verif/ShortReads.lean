import Verif.Ops

/-!
Reading from streams whose `read(n)` may return fewer than `n` bytes before the end of the data, as raw streams, pipes
and sockets do, or `None` if there is no data yet, as raw streams that do not block do, and which may have no position.  `Verif.unpack` with `Src.io` is for streams that return all they can and can
be moved; here the same methods are followed with the stream deciding at every call how much it returns.
-/
namespace Verif.Short

/-- A computation that reads from such a stream: how many bytes the calls of `read` return at most (0 counts as 1; `none` for
a call that returns `None`; calls after the end of the list return all they can), then the state. -/
def R (α : Type) := List (Option Nat) → St → Res α × List (Option Nat)

def R.pure (a : α) : R α := fun cuts st => (.ok a st, cuts)

def R.bind (x : R α) (f : α → R β) : R β := fun cuts st =>
  match x cuts st with
  | (.ok a st', cuts') => f a cuts' st'
  | (.err e st', cuts') => (.err e st', cuts')

instance : Monad R where
  pure := R.pure
  bind := R.bind

/-- What does not read from the stream. -/
def R.of (x : M α) : R α := fun cuts st => (x st, cuts)

/-- The state after reading these bytes. -/
def moved (st : St) (d : Bytes) : St := { st with io := { st.io with pos := st.io.pos + d.length } }

/-- `readable.read(n)`: `None`, or at least one byte unless the data is at its end. -/
def read (n : Nat) : R (Option Bytes) := fun cuts st =>
  let d := (st.io.data.drop st.io.pos).take n
  match cuts with
  | [] => (.ok (some d) (moved st d), [])
  | some c :: cuts => (.ok (some (d.take (max 1 c))) (moved st (d.take (max 1 c))), cuts)
  | none :: cuts => (.ok none st, cuts)

/-- The loop of `RawIOBase.readall`: until the data is at its end or a call returns `None`. -/
def allLoop : List (Option Nat) → Bytes → Bytes × List (Option Nat)
  | [], d => (d, [])
  | none :: cuts, _ => ([], cuts)
  | some c :: cuts, d =>
    if d = [] then ([], cuts)
    else
      let (rest, cuts') := allLoop cuts (d.drop (max 1 c))
      (d.take (max 1 c) ++ rest, cuts')

/-- `readable.read()`: `None` if the first call returned that. -/
def readAll : R (Option Bytes) := fun cuts st =>
  match cuts with
  | none :: cuts => (.ok none st, cuts)
  | cuts =>
    let (d, cuts') := allLoop cuts (st.io.data.drop st.io.pos)
    (.ok (some d) (moved st d), cuts')

/-- `None` is not a bytes-like object and has no `len()`. -/
def needBytes : Option Bytes → M Bytes
  | none => M.throw .typeError
  | some d => pure d

/-- `readable.tell()`; `ns` is what a stream that has no position raises (`io.UnsupportedOperation` for pipes). -/
def tell (ns : Option Err) : R Nat :=
  match ns with
  | some e => R.of (M.throw e)
  | none => do
    let st ← R.of M.get
    R.pure st.io.pos

/-- `readable.seek(…)`, which moves the stream as `x` says. -/
def seek (ns : Option Err) (x : M Unit) : R Unit :=
  match ns with
  | some e => R.of (M.throw e)
  | none => R.of x

/-- `structs.py:136-139,253-257` `unpack_read` of a struct serializer -/
def struct (env : Env) (s : StructSer) : R (List Val) := do
  let r ← read s.size
  let d ← R.of (needBytes r)
  R.of (M.lift (s.unpackRead env.plat d))

def structOpt (env : Env) (s : Option StructSer) : R (List Val) :=
  match s with
  | none => R.pure []
  | some s => struct env s

/-- `strings.py:131-140` -/
def dynChar (env : Env) (id : SerId) (st : StructSer) : R (List Val) := do
  let hv ← struct env st
  let count ← R.of (M.lift (do needInt (← first hv)))
  R.of (setSize id ((st.size : Int) + count).toNat)
  let s ← R.of (M.lift (singleChar.matmul count))
  structOpt env s

/-- The loop of `strings.py:238-249`: the data and the size, which counts 256 for every chunk without the terminator; `None`
ends the loop like an empty chunk; `k` bounds the number of chunks. -/
def termLoop (term : Byte) : Nat → Bytes → Nat → R (Bytes × Nat)
  | 0, _, _ => R.of (M.throw .valueError)
  | k + 1, out, size => do
    let r ← read 256
    let chunk := r.getD []
    if chunk = [] then R.of (M.throw .valueError)
    else match findTerm term chunk with
      | none => termLoop term k (out ++ chunk) (size + 256)
      | some o => R.pure (out ++ chunk.take o, size + (o + 1))

/-- `strings.py:233-251` -/
def terminated (ns : Option Err) (id : SerId) (term : Byte) : R (List Val) := do
  let start ← tell ns
  let st ← R.of M.get
  let (d, size) ← termLoop term ((st.io.data.drop st.io.pos).length + 1) [] 0
  seek ns (M.modify fun s => { s with io := { s.io with pos := start + size } })
  R.of (setSize id size)
  R.pure [.bytes d]

/-- `strings.py:335-346` -/
def net (env : Env) (ns : Option Err) (id : SerId) : R (List Val) := do
  let start ← tell ns
  let hv ← struct env shortLen
  let c ← R.of (M.lift (do needInt (← first hv)))
  let (count, size) ← if 128 ≤ c then do
      seek ns (M.modify fun s => { s with io := { s.io with pos := start } })
      let hv ← struct env longLen
      let c ← R.of (M.lift (do needInt (← first hv)))
      let count ← R.of (M.lift (netDecode c.toNat))
      R.pure (count, longLen.size)
    else R.pure (c.toNat, shortLen.size)
  R.of (setSize id (size + count))
  let r ← read count
  R.pure [r.elim .none .bytes]

/-- `api.py:320-322` -/
def loop (unpackN : Ser → R (List Val)) : Nat → List Ser → R (List Val × Nat)
  | size, [] => R.pure ([], size)
  | size, s :: ss => do
    let vs ← unpackN s
    let sz ← R.of s.readSize
    let (rest, total) ← loop unpackN (size + sz) ss
    R.pure (vs ++ rest, total)

/-- `api.py:320-322,400-407` -/
def loopSpec (unpackN : Ser → R (List Val)) (upd : Upd) : PObj → Nat → Nat → List Ser → R (List Val × Nat)
  | _, _, size, [] => R.pure ([], size)
  | p, done, size, s :: ss => do
    let s' ← R.of (s.preunpack p)
    let vs ← unpackN s'
    let p' ← R.of (M.lift (upd p done vs))
    let sz ← R.of s'.readSize
    let (rest, total) ← loopSpec unpackN upd p' (done + vs.length) (size + sz) ss
    R.pure (vs ++ rest, total)

/-- `arrays.py:169-171` -/
def items (unpackN : Ser → R (List Val)) (item : Ser) : Nat → Nat → R (List Val × Nat)
  | size, 0 => R.pure ([], size)
  | size, k + 1 => do
    let vs ← unpackN item
    let sz ← R.of item.readSize
    let (rest, total) ← items unpackN item (size + sz) k
    R.pure (vs ++ rest, total)

/-- `structured.py:316-327` `create_unpack_read` -/
def createWith (env : Env) (unpackN : Upd → Ser → R (List Val)) (cls : ClassId) : R (Val × Ser) :=
  match env.classes cls with
  | none => R.of (M.throw .attributeError)
  | some ci => do
    let s ← R.of (ci.serializer.preunpack ⟨cls, true, []⟩)
    let vals ← unpackN (assignVals ci.attrs) s
    let v ← R.of (M.lift (construct cls ci vals))
    R.pure (v, ci.serializer)

/-- `unions.py:162-166,225-232` -/
def union (unpackN : Ser → R (List Val)) (id : SerId) (s : Ser) : R (List Val) :=
  if s.isLazy then do
    let size ← R.of s.readSize
    R.of (setSize id size)
    unpackN s
  else do
    let vs ← unpackN s
    let size ← R.of s.readSize
    R.of (setSize id size)
    R.pure vs

/-- `unpack_read(readable)` of every serializer, with the returned iterable run to its end, as `Verif.unpack`:
`api.py:221-222,320-322`, `structs.py:136-139,253-257`, `strings.py:131-140,178-181,233-251,335-346,398-399`,
`arrays.py:163-174,222-223,285-295`, `tuples.py:66-67`, `unions.py:162-166,225-232`, `conditional.py:97-98`,
`serializers/structured.py:78-81`. -/
def unpack (env : Env) (ns : Option Err) : Nat → Upd → Ser → R (List Val)
  | 0, _, _ => R.of (M.throw .recursionError)
  | n + 1, upd, s =>
    match s with
    | .null => R.pure []
    | .struct st => struct env st
    | .dynChar id st => dynChar env id st
    | .consuming id => do
      let r ← readAll
      let d ← R.of (needBytes r)
      R.of (setSize id d.length)
      R.pure [.bytes d]
    | .terminated id term => terminated ns id term
    | .net id => net env ns id
    | .unicode inner _ dec => do
      let vs ← unpack env ns n noUpd inner
      R.of (M.lift (unicodeDecode dec vs))
    | .array id hdr item sl => do
      let hv ← structOpt env hdr
      let (count, dataSize) ← R.of (M.lift (headerUnpackValues hdr sl hv))
      let p ← R.of (getPart id)
      let item' ← R.of (item.preunpack p)
      let (vs, size) ← items (unpack env ns n noUpd) item' (hdrSize hdr) count.toNat
      R.of (M.lift (checkDataSize dataSize (size - hdrSize hdr)))
      R.of (setSize id size)
      R.pure [.list vs]
    | .staticArr _ _ ser => do
      let vs ← structOpt env ser
      R.pure [.list vs]
    | .dynArr id cnt item => do
      let hv ← struct env cnt
      let c ← R.of (match hv with
        | [c] => M.lift (needInt c)
        | _ => M.throw .valueError)
      let s ← R.of (M.lift (item.mul c))
      let vs ← structOpt env s
      R.of (setSize id (cnt.size + s.elim 0 StructSer.size))
      R.pure [.list vs]
    | .tuple id inner => do
      let p ← R.of (getPart id)
      let inner' ← R.of (inner.preunpack p)
      if inner'.isLazy then R.pure [.gen]
      else do
        let vs ← unpack env ns n noUpd inner'
        R.pure [.tup vs]
    | .lookback id decider keys opts dflt => do
      let p ← R.of (getPart id)
      let r ← R.of (M.lift (decider p))
      let s ← R.of (getSerializer false id keys opts dflt r)
      union (unpack env ns n noUpd) id s
    | .lookahead id readAhead _ keys opts dflt => do
      let hv ← unpack env ns n noUpd readAhead
      let r ← R.of (M.lift (first hv))
      seek ns (Src.io.rewind readAhead)
      let s ← R.of (getSerializer false id keys opts dflt r)
      union (unpack env ns n noUpd) id s
    | .cond .. => R.of (M.throw .notImplementedError)
    | .skip vals => R.pure vals
    | .structured id cls => do
      let (v, ser) ← createWith env (unpack env ns n) cls
      let size ← R.of ser.readSize
      R.of (setSize id size)
      R.pure [v]
    | .selfT _ => R.of (M.throw .notImplementedError)
    | .compound id ss => do
      let (vs, total) ← loop (unpack env ns n noUpd) 0 ss
      R.of (setSize id total)
      R.pure vs
    | .specialized id p ss => do
      let (vs, total) ← loopSpec (unpack env ns n noUpd) upd p 0 0 ss
      R.of (setSize id total)
      R.pure vs

/-- `cls.create_unpack_read(readable)` -/
def createUnpack (env : Env) (ns : Option Err) (n : Nat) (cls : ClassId) : R Val := do
  let (v, _) ← createWith env (unpack env ns n) cls
  R.pure v

/-- `obj.unpack_read(readable)` (`structured.py:238-247`): the object after the call. -/
def objUnpack (env : Env) (ns : Option Err) (n : Nat) (v : Val) : R Val :=
  match v with
  | .obj cls bo attrs => do
    let (ci, ser) ← R.of (M.lift (objSer env cls bo))
    let s ← R.of (ser.preunpack ⟨cls, false, attrs⟩)
    let vals ← unpack env ns n (assignVals ci.attrs) s
    if vals.length = ci.attrs.length then
      R.pure (.obj cls bo ((ci.attrs.zip vals).foldl (fun as nv => setAttr as nv.1 nv.2) attrs))
    else R.of (M.throw .valueError)
  | _ => R.of (M.throw .attributeError)

end Verif.Short
