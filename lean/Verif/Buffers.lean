import Verif.Ops
/-
Buffers that are not `bytes`: `unpack` and `unpack_from` of a `bytearray` or a `memoryview`, `pack_into` a `memoryview`.

`Ops.lean` reads from `bytes` and writes to a `bytearray`.  Most of the library makes `bytes` of what it cuts out of a
buffer.  `ConsumingCharSerializer` and `NETCharSerializer.unpack` do not: the field is then a slice of the kind of the
buffer.  This file is the same code with these slices.  Views are one-dimensional, of unsigned bytes.
-/
namespace Verif.Buf

/-- What kind of object the buffer is. -/
inductive Kind
  | bytes
  | bytearray
  /-- `memoryview(bytes)`, or of something that can be changed -/
  | view (writable : Bool)
  deriving DecidableEq, Repr

/-- The types of slices, beside the user types that `Val.custom` is for elsewhere. -/
def Kind.tag : Kind → Nat
  | .bytes => 0
  | .bytearray => 1
  | .view false => 2
  | .view true => 3

/-- A slice of a buffer of this kind. -/
def Kind.wrap (k : Kind) (b : Bytes) : Val :=
  match k with
  | .bytes => .bytes b
  | k => .custom k.tag (.bytes b)

mutual
/-- Hashing a key for `result_map[key]` (`unions.py:82,88`): a `bytearray` cannot be hashed (`TypeError`), nor can a view
of something that can be changed (`ValueError`); any other view is a key equal to its bytes. -/
def asKey : Val → Except Err Val
  | .custom tag (.bytes b) =>
    if tag = Kind.bytearray.tag then .error .typeError
    else if tag = (Kind.view true).tag then .error .valueError
    else if tag = (Kind.view false).tag then .ok (.bytes b)
    else .ok (.custom tag (.bytes b))
  | .tup vs => do .ok (.tup (← asKeys vs))
  | v => .ok v
def asKeys : List Val → Except Err (List Val)
  | [] => .ok []
  | v :: vs => do
    let k ← asKey v
    let ks ← asKeys vs
    .ok (k :: ks)
end

/-- The key for a decider's result.  Only a buffer that is not `bytes` has slices that are not. -/
def keyOf (k : Kind) (r : Val) : Except Err Val :=
  match k with
  | .bytes => .ok r
  | _ => asKey r

/-- `ConsumingCharSerializer.unpack*` (`strings.py:170-181`): `(buffer,)` and `(buffer[offset:],)`.  Streams give
`bytes`. -/
def consumingUnpack (k : Kind) (id : SerId) (src : Src) : M (List Val) :=
  match src with
  | .buf b => do
    setSize id b.length
    pure [k.wrap b]
  | .at b off => do
    setSize id (b.length - off)
    pure [k.wrap (b.drop off)]
  | .io => Verif.consumingUnpack id .io

/-- `NETCharSerializer.unpack*` (`strings.py:309-346`): `cast(bytes, buffer[size : size + count])` does nothing. -/
def netUnpack (env : Env) (k : Kind) (id : SerId) (src : Src) : M (List Val) :=
  match src with
  | .buf b => do
    let hv ← structUnpackM env shortLen (.buf b)
    let c ← M.lift (do needInt (← first hv))
    let (count, size) ← if 128 ≤ c then do
        let hv ← structUnpackM env longLen (.buf b)
        let c ← M.lift (do needInt (← first hv))
        let count ← M.lift (netDecode c.toNat)
        pure (count, longLen.size)
      else pure (c.toNat, shortLen.size)
    setSize id (size + count)
    pure [k.wrap ((b.drop size).take count)]
  | src => Verif.netUnpack env id src

/-- `unpack(buffer)`, `unpack_from(buffer, offset)`, `unpack_read(readable)`, as `Verif.unpack`, same lines.  A codec's
decoder is `bytes.decode` (`hint_types/strings.py:159`), which takes nothing but `bytes` (`unicodeDecode`). -/
def unpack (env : Env) (k : Kind) : Nat → Upd → Ser → Src → M (List Val)
  | 0, _, _, _ => M.throw .recursionError
  | n + 1, upd, s, src =>
    match s with
    | .null => pure []
    | .struct st => structUnpackM env st src
    | .dynChar id st => dynCharUnpack env id st src
    | .consuming id => consumingUnpack k id src
    | .terminated id term => terminatedUnpack id term src
    | .net id => netUnpack env k id src
    | .unicode inner _ dec => do
      let vs ← unpack env k n noUpd inner src
      M.lift (unicodeDecode dec vs)
    | .array id hdr item sl => do
      let hv ← structUnpackOpt env hdr src
      let (count, dataSize) ← M.lift (headerUnpackValues hdr sl hv)
      let p ← getPart id
      let item' ← item.preunpack p
      let (items, size) ← unpackItems (unpack env k n noUpd) item' src (hdrSize hdr) count.toNat
      M.lift (checkDataSize dataSize (size - hdrSize hdr))
      setSize id size
      pure [.list items]
    | .staticArr _ _ ser => do
      let vs ← structUnpackOpt env ser src
      pure [.list vs]
    | .dynArr id cnt item => do
      let hv ← structUnpackM env cnt src
      let c ← match hv with
        | [c] => M.lift (needInt c)
        | _ => M.throw .valueError
      let s ← M.lift (item.mul c)
      let vs ← structUnpackOpt env s (src.next cnt.size)
      setSize id (cnt.size + s.elim 0 StructSer.size)
      pure [.list vs]
    | .tuple id inner => do
      let p ← getPart id
      let inner' ← inner.preunpack p
      if inner'.isLazy then pure [.gen]
      else do
        let vs ← unpack env k n noUpd inner' src
        pure [.tup vs]
    | .lookback id decider keys opts dflt => do
      let p ← getPart id
      let r ← M.lift (decider p)
      let r ← M.lift (keyOf k r)
      let s ← getSerializer false id keys opts dflt r
      unionUnpack (unpack env k n noUpd) id s src
    | .lookahead id readAhead _ keys opts dflt => do
      let hv ← unpack env k n noUpd readAhead src
      let r ← M.lift (first hv)
      src.rewind readAhead
      let r ← M.lift (keyOf k r)
      let s ← getSerializer false id keys opts dflt r
      unionUnpack (unpack env k n noUpd) id s src
    | .cond .. => M.throw .notImplementedError
    | .skip vals => pure vals
    | .structured id cls => do
      let (v, ser) ← createUnpackWith env (unpack env k n) cls src
      setSize id (← ser.readSize)
      pure [v]
    | .selfT _ => M.throw .notImplementedError
    | .compound id ss => do
      let (vs, total) ← unpackLoop (unpack env k n noUpd) src 0 ss
      setSize id total
      pure vs
    | .specialized id p ss => do
      let (vs, total) ← unpackLoopSpec (unpack env k n noUpd) upd src p 0 0 ss
      setSize id total
      pure vs

/-- `cls.create_unpack(buffer)`, `cls.create_unpack_from(buffer, offset)`, `cls.create_unpack_read(readable)` -/
def createUnpack (env : Env) (k : Kind) (n : Nat) (cls : ClassId) (src : Src) : M Val := do
  let (v, _) ← createUnpackWith env (unpack env k n) cls src
  pure v

/-! ### `pack_into` a `memoryview` -/

/-- `buffer[offset : offset + self.size] = data` for a view (`strings.py:158-163`): the slice is cut to the view, and its
length must be that of the data. -/
def assignView (off : Nat) (d : Bytes) : M Unit := fun st =>
  if min (off + d.length) st.buf.length - min off st.buf.length = d.length then .ok () { st with buf := splice st.buf off d }
  else .err .valueError st

/-- `pack_into(buffer, offset, *values)` for a `memoryview`, as `Verif.packInto`, same lines. -/
def packIntoView (env : Env) : Nat → Ser → Nat → List Val → M Unit
  | 0, _, _, _ => M.throw .recursionError
  | n + 1, s, off, vs =>
    match s with
    | .null => pure ()
    | .struct st => structPackIntoM env st off vs
    | .dynChar id st => do
      let (s, vals) ← M.lift (dynCharPrep st vs)
      setSize id s.size
      structPackIntoM env s off vals
    | .consuming id => do
      let b ← M.lift (consumeData vs)
      setSize id b.length
      assignView off b
    | .terminated id term => do
      let b ← M.lift (termData term vs)
      setSize id b.length
      let s ← M.lift (singleChar.matmul b.length)
      packIntoOpt env s off [.bytes b]
    | .net id => do
      let (s, vals) ← M.lift (netPrep vs)
      setSize id s.size
      structPackIntoM env s off vals
    | .unicode inner enc _ => do
      let b ← M.lift (do enc (← first vs))
      packIntoView env n inner off [.bytes b]
    | .array id hdr item sl => do
      let v ← M.lift (first vs)
      let p ← getPart id
      let item' ← item.prepack p
      let items ← M.lift (pyIter v)
      let size ← packIntoItems (packIntoView env n) item' off (hdrSize hdr) items
      let hv ← M.lift (headerPackValues hdr sl items.length (size - hdrSize hdr))
      setSize id size
      packIntoOpt env hdr off hv
    | .staticArr count _ ser => do
      let items ← M.lift (staticArrPrep count vs)
      packIntoOpt env ser off items
    | .dynArr id cnt item => do
      let (s, vals) ← M.lift (dynArrPrep cnt item vs)
      setSize id s.size
      structPackIntoM env s off vals
    | .tuple id inner => match vs with
      | [v] => do
        let p ← getPart id
        let inner' ← inner.prepack p
        let vals ← M.lift (pyIter v)
        packIntoView env n inner' off vals
      | _ => M.throw .typeError
    | .lookback id decider keys opts dflt => do
      let p ← getPart id
      let r ← M.lift (decider p)
      let s ← getSerializer true id keys opts dflt r
      packIntoView env n s off vs
      setSize id (← s.readSize)
    | .lookahead id _ decider keys opts dflt => do
      let p ← getPart id
      let r ← M.lift (decider p)
      let s ← getSerializer true id keys opts dflt r
      packIntoView env n s off vs
      setSize id (← s.readSize)
    | .cond .. => M.throw .notImplementedError
    | .skip _ => pure ()
    | .structured id _ => match vs with
      | [v] => do
        let ser ← objPackInto env (packIntoView env n) off v
        setSize id (← ser.readSize)
      | _ => M.throw .typeError
    | .selfT _ => M.throw .notImplementedError
    | .compound id ss => do
      let total ← packIntoLoop (packIntoView env n) pure off 0 ss vs
      setSize id total
    | .specialized id p ss => do
      let total ← packIntoLoop (packIntoView env n) (fun s => s.prepack p) off 0 ss vs
      setSize id total

/-- `obj.pack_into(memoryview, offset)` -/
def Obj.packIntoView (env : Env) (n : Nat) (off : Nat) (v : Val) : M Unit := do
  let _ ← objPackInto env (Buf.packIntoView env n) off v
  pure ()

end Verif.Buf
