import Verif.Ops
/-
The operations as seen by threads.  Threads share the serializer objects; each has its own values,
buffer and stream.  The definitions of `Ser.lean` and `Ops.lean` are repeated here with one change: every
read and every write of an attribute of a serializer (`.size`, `._partial_object`) is a step of its own,
between which other threads may run.  `Proofs/ThreadRun.lean` proves that a thread running alone does
what `Ops.lean` says.

A `_SpecializedCompoundSerializer` and the `StructuredSerializer` made for `Self` have attributes of their
own, which no other thread sees; here they share the attributes of the object they are made from.  This
adds interference that Python does not have, and takes none away.
-/
namespace Verif.Threads

/-- A program that reads and writes attributes of serializers and ends with a result. -/
inductive Prog (α : Type)
  | ret (a : α)
  /-- `x = serializer.size` -/
  | getSize (id : SerId) (k : Nat → Prog α)
  /-- `x = serializer._partial_object`; `none` if it was never set -/
  | getPart (id : SerId) (k : Option PObj → Prog α)
  /-- `serializer.size = n` -/
  | setSize (id : SerId) (n : Nat) (k : Prog α)
  /-- `serializer._partial_object = p` -/
  | setPart (id : SerId) (p : PObj) (k : Prog α)

def Prog.bind : Prog α → (α → Prog β) → Prog β
  | .ret a, f => f a
  | .getSize id k, f => .getSize id fun n => (k n).bind f
  | .getPart id k, f => .getPart id fun p => (k p).bind f
  | .setSize id n k, f => .setSize id n (k.bind f)
  | .setPart id p k, f => .setPart id p (k.bind f)

/-- The attributes of all serializers. -/
abbrev Cells := SerId → Cell

def Cells.setSize (c : Cells) (i : SerId) (n : Nat) : Cells := fun j => if j = i then { c j with size := n } else c j

def Cells.setPart (c : Cells) (i : SerId) (p : PObj) : Cells := fun j => if j = i then { c j with part := some p } else c j

/-- One step of a thread. -/
def Prog.step (c : Cells) : Prog α → Cells × Prog α
  | .ret a => (c, .ret a)
  | .getSize id k => (c, k (c id).size)
  | .getPart id k => (c, k (c id).part)
  | .setSize id n k => (c.setSize id n, k)
  | .setPart id p k => (c.setPart id p, k)

/-- A thread running alone to its end. -/
def Prog.exec (c : Cells) : Prog α → α × Cells
  | .ret a => (a, c)
  | .getSize id k => (k (c id).size).exec c
  | .getPart id k => (k (c id).part).exec c
  | .setSize id n k => k.exec (c.setSize id n)
  | .setPart id p k => k.exec (c.setPart id p)

/-- Threads taking turns: `schedule` lists whose turn it is. -/
def interleave : List Nat → Cells → List (Prog α) → Cells × List (Prog α)
  | [], c, ts => (c, ts)
  | i :: schedule, c, ts =>
    match ts[i]? with
    | none => interleave schedule c ts
    | some t => let (c', t') := t.step c
      interleave schedule c' (ts.set i t')

/-- What a thread has for itself: the buffer of `pack_into` and its stream. -/
structure Loc where
  buf : Bytes
  io : Stream
  deriving Inhabited

/-- Library code run by a thread. -/
def T (α : Type) := Loc → Prog (Except Err α × Loc)

namespace T

def pure (a : α) : T α := fun l => .ret (.ok a, l)

def bind (x : T α) (f : α → T β) : T β := fun l =>
  (x l).bind fun
    | (.ok a, l') => f a l'
    | (.error e, l') => .ret (.error e, l')

instance : Monad T where
  pure := T.pure
  bind := T.bind

def throw (e : Err) : T α := fun l => .ret (.error e, l)

def lift (x : Except Err α) : T α := fun l => .ret (x, l)

def get : T Loc := fun l => .ret (.ok l, l)

def modify (f : Loc → Loc) : T Unit := fun l => .ret (.ok (), f l)

end T

/-- `self.size = n` -/
def setSize (i : SerId) (n : Nat) : T Unit := fun l => .setSize i n (.ret (.ok (), l))

/-- `self._partial_object = p` -/
def setPart (i : SerId) (p : PObj) : T Unit := fun l => .setPart i p (.ret (.ok (), l))

/-- read `self._partial_object` -/
def getPart (i : SerId) : T PObj := fun l => .getPart i fun
  | some p => .ret (.ok p, l)
  | none => .ret (.error .attributeError, l)

/-- read `self.size` -/
def getCellSize (i : SerId) : T Nat := fun l => .getSize i fun n => .ret (.ok n, l)

/-- A thread's code run alone on a whole state. -/
def T.run (x : T α) : M α := fun st =>
  match (x ⟨st.buf, st.io⟩).exec st.cells with
  | ((.ok a, l), c) => .ok a ⟨c, l.buf, l.io⟩
  | ((.error e, l), c) => .err e ⟨c, l.buf, l.io⟩

/-! ### `Ser.lean` and `Ops.lean` again -/

/-- Reading the `size` attribute.  `ConditionalSerializer` and `SelfSerializer` never set one. -/
def readSize : Ser → T Nat
  | .null => pure 0
  | .struct s => pure s.size
  | .dynChar id _ => getCellSize id
  | .consuming id => getCellSize id
  | .terminated id _ => getCellSize id
  | .net id => getCellSize id
  | .unicode inner _ _ => readSize inner             -- strings.py:375-377
  | .array id .. => getCellSize id
  | .staticArr _ _ ser => pure (ser.elim 0 StructSer.size)   -- arrays.py:189-191
  | .dynArr id .. => getCellSize id
  | .tuple _ inner => readSize inner                 -- tuples.py:35-37
  | .lookback id .. => getCellSize id
  | .lookahead id .. => getCellSize id
  | .cond .. => T.throw .attributeError
  | .skip _ => pure 0
  | .structured id _ => getCellSize id
  | .selfT _ => T.throw .attributeError
  | .compound id _ => getCellSize id
  | .specialized id .. => getCellSize id

/-- `prepack(partial_object)`: `api.py:68-78,255-265,383-384`, `arrays.py:100-102`,
`tuples.py:39-41`, `unions.py:70-72`, `conditional.py:66-67`, `self.py:24-25`. -/
def prepack (s : Ser) (p : PObj) : T Ser :=
  match s with
  | .array id .. => do setPart id p; pure s
  | .tuple id _ => do setPart id p; pure s
  | .lookback id .. => do setPart id p; pure s
  | .lookahead id .. => do setPart id p; pure s
  | .cond ser c defs => T.lift (do condPick ser defs (← c p))
  | .selfT id => pure (.structured id p.cls)
  | .compound id ss => pure (if needsPreprocess ss then .specialized id p ss else .compound id ss)
  | s => pure s

/-- `preunpack(partial_object)`: `api.py:80-90,258-265,383-384`, `arrays.py:104-106`,
`tuples.py:54-56`, `unions.py:74-76`, `conditional.py:69-70`, `self.py:27-28`. -/
def preunpack (s : Ser) (p : PObj) : T Ser :=
  match s with
  | .selfT id => T.lift (do pure (.structured id (← clsOfPartial p)))
  | s => prepack s p

/-- `AUnion.get_serializer` (`unions.py:78-92`) -/
def getSerializer (packing : Bool) (id : SerId) (keys : List Val) (opts : List Ser) (dflt : Ser)
    (r : Val) : T Ser := do
  let s ← T.lift (unionPick keys opts dflt r)
  let p ← getPart id
  if packing then prepack s p else preunpack s p

/-- `_iter_packers` driving `CompoundSerializer.pack` (`api.py:267-287,386-398`): `pre` is `prepack`
for a specialized compound. Returns the bytes and the total of the sizes. -/
def packLoop (packN : Ser → List Val → T Bytes) (pre : Ser → T Ser) :
    List Ser → List Val → T (Bytes × Nat)
  | [], _ => pure ([], 0)
  | s :: ss, vals => do
    let s' ← pre s
    let b ← packN s' (vals.take s'.numValues)
    let sz ← readSize s'
    let (bs, total) ← packLoop packN pre ss (vals.drop s'.numValues)
    pure (b ++ bs, sz + total)

/-- The loop of `ArraySerializer.pack` (`arrays.py:112-114`). -/
def packItems (packN : Ser → List Val → T Bytes) (item : Ser) : List Val → T (Bytes × Nat)
  | [] => pure ([], 0)
  | v :: vs => do
    let b ← packN item [v]
    let sz ← readSize item
    let (bs, total) ← packItems packN item vs
    pure (b ++ bs, sz + total)

/-- `Structured.pack` (`structured.py:262-264`); also returns `values.serializer`. -/
def objPack (env : Env) (packN : Ser → List Val → T Bytes) (v : Val) : T (Bytes × Ser) :=
  match v with
  | .obj cls bo attrs => do
    let (ci, ser) ← T.lift (objSer env cls bo)
    let s ← prepack ser ⟨cls, false, attrs⟩
    let vals ← T.lift (getAttrs attrs ci.attrs)
    let b ← packN s vals
    pure (b, ser)
  | _ => T.throw .attributeError

/-- `pack(*values)` of every serializer: `api.py:204-205,283-287`, `struct.Struct.pack`,
`strings.py:78-81,154-156,206-208,285-287,379-380`, `arrays.py:108-118,202-204,259-261`,
`tuples.py:43-44`, `unions.py:134-138,193-198`, `conditional.py:80-81`,
`serializers/structured.py:51-54`. -/
def pack (env : Env) : Nat → Ser → List Val → T Bytes
  | 0, _, _ => T.throw .recursionError
  | n + 1, s, vs =>
    match s with
    | .null => pure []
    | .struct st => T.lift (st.pack env.plat vs)
    | .dynChar id st => do
      let (s, vals) ← T.lift (dynCharPrep st vs)
      setSize id s.size
      T.lift (s.pack env.plat vals)
    | .consuming id => do
      let b ← T.lift (consumeData vs)
      setSize id b.length
      pure b
    | .terminated id term => do
      let b ← T.lift (termData term vs)
      setSize id b.length
      T.lift (do packOpt env.plat (← singleChar.matmul b.length) [.bytes b])
    | .net id => do
      let (s, vals) ← T.lift (netPrep vs)
      setSize id s.size
      T.lift (s.pack env.plat vals)
    | .unicode inner enc _ => do
      let b ← T.lift (do enc (← first vs))
      pack env n inner [.bytes b]
    | .array id hdr item sl => do
      let p ← getPart id
      let item' ← prepack item p
      let v ← T.lift (first vs)
      let items ← T.lift (pyIter v)
      let (data, size) ← packItems (pack env n) item' items
      let hv ← T.lift (headerPackValues hdr sl items.length size)
      let h ← T.lift (packOpt env.plat hdr hv)
      setSize id (hdrSize hdr + size)
      pure (h ++ data)
    | .staticArr count _ ser => do
      let items ← T.lift (staticArrPrep count vs)
      T.lift (packOpt env.plat ser items)
    | .dynArr id cnt item => do
      let (s, vals) ← T.lift (dynArrPrep cnt item vs)
      setSize id s.size
      T.lift (s.pack env.plat vals)
    | .tuple id inner => match vs with
      | [v] => do
        let p ← getPart id
        let inner' ← prepack inner p
        let vals ← T.lift (pyIter v)
        pack env n inner' vals
      | _ => T.throw .typeError
    | .lookback id decider keys opts dflt => do
      let p ← getPart id
      let r ← T.lift (decider p)
      let s ← getSerializer true id keys opts dflt r
      let b ← pack env n s vs
      setSize id (← readSize s)
      pure b
    | .lookahead id _ decider keys opts dflt => do
      let p ← getPart id
      let r ← T.lift (decider p)
      let s ← getSerializer true id keys opts dflt r
      let b ← pack env n s vs
      setSize id (← readSize s)
      pure b
    | .cond .. => T.throw .notImplementedError
    | .skip _ => pure []
    | .structured id _ => match vs with
      | [v] => do
        let (b, ser) ← objPack env (pack env n) v
        setSize id (← readSize ser)
        pure b
      | _ => T.throw .typeError
    | .selfT _ => T.throw .notImplementedError
    | .compound id ss => do
      let (b, total) ← packLoop (pack env n) pure ss vs
      setSize id total
      pure b
    | .specialized id p ss => do
      let (b, total) ← packLoop (pack env n) (fun s => prepack s p) ss vs
      setSize id total
      pure b

/-! ### `pack_into` -/

/-- `StructSerializer.pack_into` on the buffer in the state. -/
def structPackIntoM (env : Env) (s : StructSer) (off : Nat) (vs : List Val) : T Unit := fun st =>
  match s.packInto env.plat st.buf off vs with
  | (b, none) => .ret (.ok (), { st with buf := b })
  | (b, some e) => .ret (.error e, { st with buf := b })

def packIntoOpt (env : Env) (s : Option StructSer) (off : Nat) (vs : List Val) : T Unit :=
  match s with
  | none => pure ()
  | some s => structPackIntoM env s off vs

/-- `_iter_packers` driving `CompoundSerializer.pack_into` (`api.py:289-296`); returns the end of
the packed region relative to the start. -/
def packIntoLoop (packN : Ser → Nat → List Val → T Unit) (pre : Ser → T Ser) (off : Nat) :
    Nat → List Ser → List Val → T Nat
  | size, [], _ => pure size
  | size, s :: ss, vals => do
    let s' ← pre s
    packN s' (off + size) (vals.take s'.numValues)
    let sz ← readSize s'
    packIntoLoop packN pre off (size + sz) ss (vals.drop s'.numValues)

/-- The loop of `ArraySerializer.pack_into` (`arrays.py:126-128`). -/
def packIntoItems (packN : Ser → Nat → List Val → T Unit) (item : Ser) (off : Nat) :
    Nat → List Val → T Nat
  | size, [] => pure size
  | size, v :: vs => do
    packN item (off + size) [v]
    let sz ← readSize item
    packIntoItems packN item off (size + sz) vs

/-- `Structured.pack_into` (`structured.py:274-281`); returns `values.serializer`. -/
def objPackInto (env : Env) (packN : Ser → Nat → List Val → T Unit) (off : Nat) (v : Val) : T Ser :=
  match v with
  | .obj cls bo attrs => do
    let (ci, ser) ← T.lift (objSer env cls bo)
    let s ← prepack ser ⟨cls, false, attrs⟩
    let vals ← T.lift (getAttrs attrs ci.attrs)
    packN s off vals
    pure ser
  | _ => T.throw .attributeError

/-- `pack_into(buffer, offset, *values)` of every serializer: `api.py:207-210,289-296`,
`struct.Struct.pack_into`, `strings.py:83-96,158-163,210-214,289-296,382-385`,
`arrays.py:120-131,206-210,263-267`, `tuples.py:46-49`, `unions.py:140-143,200-204`,
`conditional.py:83-86`, `serializers/structured.py:56-60`. -/
def packInto (env : Env) : Nat → Ser → Nat → List Val → T Unit
  | 0, _, _, _ => T.throw .recursionError
  | n + 1, s, off, vs =>
    match s with
    | .null => pure ()
    | .struct st => structPackIntoM env st off vs
    | .dynChar id st => do
      let (s, vals) ← T.lift (dynCharPrep st vs)
      setSize id s.size
      structPackIntoM env s off vals
    | .consuming id => do
      let b ← T.lift (consumeData vs)
      setSize id b.length
      -- slice assignment; a `bytearray` grows when the slice reaches past its end
      T.modify fun st => { st with buf := splice st.buf off b }
    | .terminated id term => do
      let b ← T.lift (termData term vs)
      setSize id b.length
      let s ← T.lift (singleChar.matmul b.length)
      packIntoOpt env s off [.bytes b]
    | .net id => do
      let (s, vals) ← T.lift (netPrep vs)
      setSize id s.size
      structPackIntoM env s off vals
    | .unicode inner enc _ => do
      let b ← T.lift (do enc (← first vs))
      packInto env n inner off [.bytes b]
    | .array id hdr item sl => do
      let v ← T.lift (first vs)
      let p ← getPart id
      let item' ← prepack item p
      let items ← T.lift (pyIter v)
      let size ← packIntoItems (packInto env n) item' off (hdrSize hdr) items
      let hv ← T.lift (headerPackValues hdr sl items.length (size - hdrSize hdr))
      setSize id size
      packIntoOpt env hdr off hv
    | .staticArr count _ ser => do
      let items ← T.lift (staticArrPrep count vs)
      packIntoOpt env ser off items
    | .dynArr id cnt item => do
      let (s, vals) ← T.lift (dynArrPrep cnt item vs)
      setSize id s.size
      structPackIntoM env s off vals
    | .tuple id inner => match vs with
      | [v] => do
        let p ← getPart id
        let inner' ← prepack inner p
        let vals ← T.lift (pyIter v)
        packInto env n inner' off vals
      | _ => T.throw .typeError
    | .lookback id decider keys opts dflt => do
      let p ← getPart id
      let r ← T.lift (decider p)
      let s ← getSerializer true id keys opts dflt r
      packInto env n s off vs
      setSize id (← readSize s)
    | .lookahead id _ decider keys opts dflt => do
      let p ← getPart id
      let r ← T.lift (decider p)
      let s ← getSerializer true id keys opts dflt r
      packInto env n s off vs
      setSize id (← readSize s)
    | .cond .. => T.throw .notImplementedError
    | .skip _ => pure ()
    | .structured id _ => match vs with
      | [v] => do
        let ser ← objPackInto env (packInto env n) off v
        setSize id (← readSize ser)
      | _ => T.throw .typeError
    | .selfT _ => T.throw .notImplementedError
    | .compound id ss => do
      let total ← packIntoLoop (packInto env n) pure off 0 ss vs
      setSize id total
    | .specialized id p ss => do
      let total ← packIntoLoop (packInto env n) (fun s => prepack s p) off 0 ss vs
      setSize id total

/-! ### `pack_write` -/

/-- `writable.write(data)` on the stream in the state. -/
def ioWrite (b : Bytes) : T Unit := T.modify fun st => { st with io := st.io.write b }

/-- `_iter_packers` driving `CompoundSerializer.pack_write` (`api.py:298-300`). -/
def packWriteLoop (packN : Ser → List Val → T Unit) (pre : Ser → T Ser) :
    Nat → List Ser → List Val → T Nat
  | size, [], _ => pure size
  | size, s :: ss, vals => do
    let s' ← pre s
    packN s' (vals.take s'.numValues)
    let sz ← readSize s'
    packWriteLoop packN pre (size + sz) ss (vals.drop s'.numValues)

/-- `Structured.pack_write` (`structured.py:266-272`); returns `values.serializer`. -/
def objPackWrite (env : Env) (packN : Ser → List Val → T Unit) (v : Val) : T Ser :=
  match v with
  | .obj cls bo attrs => do
    let (ci, ser) ← T.lift (objSer env cls bo)
    let s ← prepack ser ⟨cls, false, attrs⟩
    let vals ← T.lift (getAttrs attrs ci.attrs)
    packN s vals
    pure ser
  | _ => T.throw .attributeError

/-- `pack_write(writable, *values)` of every serializer: `api.py:212-213,298-300`,
`structs.py:141-144`, `strings.py:98-105,165-168,216-218,298-300,387-388`,
`arrays.py:133-135,212-214,269-271`, `tuples.py:51-52`, `unions.py:145-148,206-210`,
`conditional.py:88-89`, `serializers/structured.py:62-64`. -/
def packWrite (env : Env) : Nat → Ser → List Val → T Unit
  | 0, _, _ => T.throw .recursionError
  | n + 1, s, vs =>
    match s with
    | .null => pure ()
    | .struct st => do ioWrite (← T.lift (st.pack env.plat vs))
    | .dynChar id st => do
      let (s, vals) ← T.lift (dynCharPrep st vs)
      setSize id s.size
      ioWrite (← T.lift (s.pack env.plat vals))
    | .consuming id => do
      let b ← T.lift (consumeData vs)
      setSize id b.length
      ioWrite b
    | .terminated id term => do
      let b ← T.lift (termData term vs)
      setSize id b.length
      ioWrite (← T.lift (do packOpt env.plat (← singleChar.matmul b.length) [.bytes b]))
    | .net id => do
      let (s, vals) ← T.lift (netPrep vs)
      setSize id s.size
      ioWrite (← T.lift (s.pack env.plat vals))
    | .unicode inner enc _ => do
      let b ← T.lift (do enc (← first vs))
      packWrite env n inner [.bytes b]
    | .array .. => do ioWrite (← pack env (n + 1) s vs)
    | .staticArr count _ ser => do
      let items ← T.lift (staticArrPrep count vs)
      ioWrite (← T.lift (packOpt env.plat ser items))
    | .dynArr id cnt item => do
      let (s, vals) ← T.lift (dynArrPrep cnt item vs)
      setSize id s.size
      ioWrite (← T.lift (s.pack env.plat vals))
    | .tuple id inner => match vs with
      | [v] => do
        let p ← getPart id
        let inner' ← prepack inner p
        let vals ← T.lift (pyIter v)
        packWrite env n inner' vals
      | _ => T.throw .typeError
    | .lookback id decider keys opts dflt => do
      let p ← getPart id
      let r ← T.lift (decider p)
      let s ← getSerializer true id keys opts dflt r
      packWrite env n s vs
      setSize id (← readSize s)
    | .lookahead id _ decider keys opts dflt => do
      let p ← getPart id
      let r ← T.lift (decider p)
      let s ← getSerializer true id keys opts dflt r
      packWrite env n s vs
      setSize id (← readSize s)
    | .cond .. => T.throw .notImplementedError
    | .skip _ => pure ()
    | .structured id _ => match vs with
      | [v] => do
        let ser ← objPackWrite env (packWrite env n) v
        setSize id (← readSize ser)
      | _ => T.throw .typeError
    | .selfT _ => T.throw .notImplementedError
    | .compound id ss => do
      let total ← packWriteLoop (packWrite env n) pure 0 ss vs
      setSize id total
    | .specialized id p ss => do
      let total ← packWriteLoop (packWrite env n) (fun s => prepack s p) 0 ss vs
      setSize id total

/-! ### Unpacking -/

/-- `readable.read(n)` on the stream in the state. -/
def ioRead (n : Nat) : T Bytes := fun st =>
  let (d, io) := st.io.read n
  .ret (.ok d, { st with io := io })

def ioReadAll : T Bytes := fun st =>
  let (d, io) := st.io.readAll
  .ret (.ok d, { st with io := io })

/-- `unpack`, `unpack_from` and `unpack_read` of a struct serializer. -/
def structUnpackM (env : Env) (s : StructSer) (src : Src) : T (List Val) :=
  match src with
  | .buf b => T.lift (s.unpack env.plat b)
  | .at b off => T.lift (s.unpackFrom env.plat b off)
  | .io => do
    let d ← ioRead s.size
    T.lift (s.unpackRead env.plat d)

def structUnpackOpt (env : Env) (s : Option StructSer) (src : Src) : T (List Val) :=
  match s with
  | none => pure []
  | some s => structUnpackM env s src

/-- `DynamicCharSerializer.unpack*` (`strings.py:107-140`).  Count types are unsigned; a negative
count is cut to an empty slice in `unpack`. -/
def dynCharUnpack (env : Env) (id : SerId) (st : StructSer) (src : Src) : T (List Val) := do
  let hv ← structUnpackM env st src
  let count ← T.lift (do needInt (← first hv))
  setSize id ((st.size : Int) + count).toNat
  match src with
  | .buf b => pure [.bytes ((b.drop st.size).take count.toNat)]
  | src => do
    let s ← T.lift (singleChar.matmul count)
    structUnpackOpt env s (src.next st.size)

/-- `ConsumingCharSerializer.unpack*` (`strings.py:170-181`).  `len(buffer) - offset` is cut at 0. -/
def consumingUnpack (id : SerId) (src : Src) : T (List Val) :=
  match src with
  | .buf b => do
    setSize id b.length
    pure [.bytes b]
  | .at b off => do
    setSize id (b.length - off)
    pure [.bytes (b.drop off)]
  | .io => do
    let d ← ioReadAll
    setSize id d.length
    pure [.bytes d]

/-- `TerminatedCharSerializer.unpack*` (`strings.py:220-251`).  `unpack_from` sets `size` to the
absolute end position. -/
def terminatedUnpack (id : SerId) (term : Byte) (src : Src) : T (List Val) :=
  match src with
  | .buf b => match findTerm term b with
    | none => T.throw .valueError
    | some k => do
      setSize id (k + 1)
      pure [.bytes (b.take k)]
  | .at b off => match findTerm term (b.drop off) with
    | none => T.throw .valueError
    | some k => do
      setSize id (off + k + 1)
      pure [.bytes ((b.drop off).take k)]
  | .io => do
    let st ← T.get
    let rest := st.io.data.drop st.io.pos
    match termReadLoop term (rest.length + 1) rest [] 0 with
    | none => do
      T.modify fun st => { st with io := { st.io with pos := st.io.pos + rest.length } }
      T.throw .valueError
    | some (d, size) => do
      T.modify fun st => { st with io := { st.io with pos := st.io.pos + size } }
      setSize id size
      pure [.bytes d]

/-- `readable.seek(pos)` when reading from the stream. -/
def seek (src : Src) (pos : Nat) : T Unit :=
  match src with
  | .io => T.modify fun st => { st with io := { st.io with pos := pos } }
  | _ => pure ()

/-- `NETCharSerializer.unpack*` (`strings.py:309-346`). -/
def netUnpack (env : Env) (id : SerId) (src : Src) : T (List Val) := do
  let countPos := (← T.get).io.pos
  let hv ← structUnpackM env shortLen src
  let c ← T.lift (do needInt (← first hv))
  let (count, size) ← if 128 ≤ c then do
      seek src countPos
      let hv ← structUnpackM env longLen src
      let c ← T.lift (do needInt (← first hv))
      let count ← T.lift (netDecode c.toNat)
      pure (count, longLen.size)
    else pure (c.toNat, shortLen.size)
  setSize id (size + count)
  match src with
  | .buf b => pure [.bytes ((b.drop size).take count)]
  | .at b off => T.lift (structUnpackFrom env.plat .default [⟨count, .str⟩] b (off + size))
  | .io => do
    let d ← ioRead count
    pure [.bytes d]

/-- `_iter_unpackers` driving `CompoundSerializer.unpack*` (`api.py:302-322`).  Returns the values
and the total size. -/
def unpackLoop (unpackN : Ser → Src → T (List Val)) (src : Src) :
    Nat → List Ser → T (List Val × Nat)
  | size, [] => pure ([], size)
  | size, s :: ss => do
    let vs ← unpackN s (src.next size)
    let sz ← readSize s
    let (rest, total) ← unpackLoop unpackN src (size + sz) ss
    pure (vs ++ rest, total)

/-- The same for `_SpecializedCompoundSerializer` (`api.py:400-407`): each serializer is specialized
for the partial object as it is when the generator reaches it. -/
def unpackLoopSpec (unpackN : Ser → Src → T (List Val)) (upd : Upd) (src : Src) :
    PObj → Nat → Nat → List Ser → T (List Val × Nat)
  | _, _, size, [] => pure ([], size)
  | p, done, size, s :: ss => do
    let s' ← preunpack s p
    let vs ← unpackN s' (src.next size)
    let p' ← T.lift (upd p done vs)
    let sz ← readSize s'
    let (rest, total) ← unpackLoopSpec unpackN upd src p' (done + vs.length) (size + sz) ss
    pure (vs ++ rest, total)

/-- The loop of `ArraySerializer.unpack*` (`arrays.py:143-145,156-158,169-171`). -/
def unpackItems (unpackN : Ser → Src → T (List Val)) (item : Ser) (src : Src) :
    Nat → Nat → T (List Val × Nat)
  | size, 0 => pure ([], size)
  | size, k + 1 => do
    let vs ← unpackN item (src.next size)
    let sz ← readSize item
    let (rest, total) ← unpackItems unpackN item src (size + sz) k
    pure (vs ++ rest, total)

/-- `create_unpack`, `create_unpack_from`, `create_unpack_read` (`structured.py:284-327`); also
returns `obj_type.serializer`. -/
def createUnpackWith (env : Env) (unpackN : Upd → Ser → Src → T (List Val)) (cls : ClassId)
    (src : Src) : T (Val × Ser) :=
  match env.classes cls with
  | none => T.throw .attributeError
  | some ci => do
    let s ← preunpack ci.serializer ⟨cls, true, []⟩
    let vals ← unpackN (assignVals ci.attrs) s src
    let v ← T.lift (construct cls ci vals)
    pure (v, ci.serializer)

/-- `value = serializer.unpack*(...)`, `self.size = serializer.size` in the unions
(`unions.py:152-154,215-217`).  A generator runs after its consumer gets it, so its size is read
before it has run. -/
def unionUnpack (unpackN : Ser → Src → T (List Val)) (id : SerId) (s : Ser) (src : Src) :
    T (List Val) :=
  if s.isLazy then do
    setSize id (← readSize s)
    unpackN s src
  else do
    let vs ← unpackN s src
    setSize id (← readSize s)
    pure vs

/-- `readable.seek(-self.read_ahead_serializer.size, os.SEEK_CUR)` when reading from the stream
(`unions.py:228`). -/
def rewind (src : Src) (readAhead : Ser) : T Unit :=
  match src with
  | .io => do
    let sz ← readSize readAhead
    T.modify fun st => { st with io := st.io.seekCur (-(sz : Int)) }
  | _ => pure ()

/-- `unpack(buffer)`, `unpack_from(buffer, offset)`, `unpack_read(readable)` of every serializer,
with the returned iterable run to its end: `api.py:215-222,312-322`, `structs.py:127-139,240-257`,
`strings.py:107-140,170-181,220-251,309-346,390-399`, `arrays.py:137-174,216-223,273-295`,
`tuples.py:58-67`, `unions.py:150-166,212-232`, `conditional.py:91-98`,
`serializers/structured.py:66-81`.  `upd` describes the consumer of the values. -/
def unpack (env : Env) : Nat → Upd → Ser → Src → T (List Val)
  | 0, _, _, _ => T.throw .recursionError
  | n + 1, upd, s, src =>
    match s with
    | .null => pure []
    | .struct st => structUnpackM env st src
    | .dynChar id st => dynCharUnpack env id st src
    | .consuming id => consumingUnpack id src
    | .terminated id term => terminatedUnpack id term src
    | .net id => netUnpack env id src
    | .unicode inner _ dec => do
      let vs ← unpack env n noUpd inner src
      T.lift (unicodeDecode dec vs)
    | .array id hdr item sl => do
      let hv ← structUnpackOpt env hdr src
      let (count, dataSize) ← T.lift (headerUnpackValues hdr sl hv)
      let p ← getPart id
      let item' ← preunpack item p
      let (items, size) ← unpackItems (unpack env n noUpd) item' src (hdrSize hdr) count.toNat
      T.lift (checkDataSize dataSize (size - hdrSize hdr))
      setSize id size
      pure [.list items]
    | .staticArr _ _ ser => do
      let vs ← structUnpackOpt env ser src
      pure [.list vs]
    | .dynArr id cnt item => do
      let hv ← structUnpackM env cnt src
      let c ← match hv with
        | [c] => T.lift (needInt c)
        | _ => T.throw .valueError
      let s ← T.lift (item.mul c)
      let vs ← structUnpackOpt env s (src.next cnt.size)
      setSize id (cnt.size + s.elim 0 StructSer.size)
      pure [.list vs]
    | .tuple id inner => do
      let p ← getPart id
      let inner' ← preunpack inner p
      if inner'.isLazy then pure [.gen]
      else do
        let vs ← unpack env n noUpd inner' src
        pure [.tup vs]
    | .lookback id decider keys opts dflt => do
      let p ← getPart id
      let r ← T.lift (decider p)
      let s ← getSerializer false id keys opts dflt r
      unionUnpack (unpack env n noUpd) id s src
    | .lookahead id readAhead _ keys opts dflt => do
      let hv ← unpack env n noUpd readAhead src
      let r ← T.lift (first hv)
      rewind src readAhead
      let s ← getSerializer false id keys opts dflt r
      unionUnpack (unpack env n noUpd) id s src
    | .cond .. => T.throw .notImplementedError
    | .skip vals => pure vals
    | .structured id cls => do
      let (v, ser) ← createUnpackWith env (unpack env n) cls src
      setSize id (← readSize ser)
      pure [v]
    | .selfT _ => T.throw .notImplementedError
    | .compound id ss => do
      let (vs, total) ← unpackLoop (unpack env n noUpd) src 0 ss
      setSize id total
      pure vs
    | .specialized id p ss => do
      let (vs, total) ← unpackLoopSpec (unpack env n noUpd) upd src p 0 0 ss
      setSize id total
      pure vs

/-! ### The `Structured` API -/

/-- `obj.pack()` -/
def packObj (env : Env) (n : Nat) (v : Val) : T Bytes := do
  let (b, _) ← objPack env (pack env n) v
  pure b

/-- `obj.pack_into(buffer, offset)` -/
def packObjInto (env : Env) (n : Nat) (off : Nat) (v : Val) : T Unit := do
  let _ ← objPackInto env (packInto env n) off v
  pure ()

/-- `obj.pack_write(writable)` -/
def packObjWrite (env : Env) (n : Nat) (v : Val) : T Unit := do
  let _ ← objPackWrite env (packWrite env n) v
  pure ()

/-- `cls.create_unpack(buffer)`, `cls.create_unpack_from(buffer, offset)`,
`cls.create_unpack_read(readable)` -/
def createUnpack (env : Env) (n : Nat) (cls : ClassId) (src : Src) : T Val := do
  let (v, _) ← createUnpackWith env (unpack env n) cls src
  pure v

/-- `obj.unpack(buffer)` and its variants (`structured.py:228-260`): the object after the call. -/
def unpackObj (env : Env) (n : Nat) (v : Val) (src : Src) : T Val :=
  match v with
  | .obj cls bo attrs => do
    let (ci, ser) ← T.lift (objSer env cls bo)
    let s ← preunpack ser ⟨cls, false, attrs⟩
    let vals ← unpack env n (assignVals ci.attrs) s src
    if vals.length = ci.attrs.length then
      pure (.obj cls bo ((ci.attrs.zip vals).foldl (fun as nv => setAttr as nv.1 nv.2) attrs))
    else T.throw .valueError
  | _ => T.throw .attributeError

end Verif.Threads
