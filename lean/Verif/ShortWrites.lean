import Verif.Ops

/-!
Writing to streams whose `write(data)` may take fewer bytes than it is given, as raw streams, pipes and sockets do, or
may raise.  `Verif.packWrite` is for streams that take everything; here the same methods are followed with the stream
deciding at every call what happens.  The number that `write` returns is not looked at by the code.
-/
namespace Verif.ShortW

/-- What the stream does with a call of `write`. -/
inductive Answer
  /-- takes at most the first `k` bytes and returns how many it took -/
  | takes (k : Nat)
  /-- takes at most the first `k` bytes and raises -/
  | raises (k : Nat) (e : Err)

/-- A computation that writes to such a stream: what the calls of `write` do (calls after the end of the list take
everything), then the state. -/
def W (α : Type) := List Answer → St → Res α × List Answer

def W.pure (a : α) : W α := fun as st => (.ok a st, as)

def W.bind (x : W α) (f : α → W β) : W β := fun as st =>
  match x as st with
  | (.ok a st', as') => f a as' st'
  | (.err e st', as') => (.err e st', as')

instance : Monad W where
  pure := W.pure
  bind := W.bind

/-- What does not write to the stream. -/
def W.of (x : M α) : W α := fun as st => (x st, as)

/-- `writable.write(data)` -/
def write (b : Bytes) : W Unit := fun as st =>
  match as with
  | [] => (.ok () { st with io := st.io.write b }, [])
  | .takes k :: as => (.ok () { st with io := st.io.write (b.take k) }, as)
  | .raises k e :: as => (.err e { st with io := st.io.write (b.take k) }, as)

/-- `_iter_packers` driving `CompoundSerializer.pack_write` (`api.py:298-300`). -/
def loop (packN : Ser → List Val → W Unit) (pre : Ser → M Ser) : Nat → List Ser → List Val → W Nat
  | size, [], _ => W.pure size
  | size, s :: ss, vals => do
    let s' ← W.of (pre s)
    packN s' (vals.take s'.numValues)
    let sz ← W.of s'.readSize
    loop packN pre (size + sz) ss (vals.drop s'.numValues)

/-- `Structured.pack_write` (`structured.py:266-272`); returns `values.serializer`. -/
def obj (env : Env) (packN : Ser → List Val → W Unit) (v : Val) : W Ser :=
  match v with
  | .obj cls bo attrs => do
    let (ci, ser) ← W.of (M.lift (objSer env cls bo))
    let s ← W.of (ser.prepack ⟨cls, false, attrs⟩)
    let vals ← W.of (M.lift (getAttrs attrs ci.attrs))
    packN s vals
    W.pure ser
  | _ => W.of (M.throw .attributeError)

/-- Both kinds of unions (`unions.py:145-148,206-210`). -/
def union (packN : Ser → List Val → W Unit) (id : SerId) (decider : PObj → Except Err Val) (keys : List Val)
    (opts : List Ser) (dflt : Ser) (vs : List Val) : W Unit := do
  let p ← W.of (getPart id)
  let r ← W.of (M.lift (decider p))
  let s ← W.of (getSerializer true id keys opts dflt r)
  packN s vs
  let sz ← W.of s.readSize
  W.of (setSize id sz)

/-- `pack_write(writable, *values)` of every serializer: `api.py:212-213,298-300`,
`structs.py:141-144`, `strings.py:98-105,165-168,216-218,298-300,387-388`,
`arrays.py:133-135,212-214,269-271`, `tuples.py:51-52`, `unions.py:145-148,206-210`,
`conditional.py:88-89`, `serializers/structured.py:62-64`. -/
def packWrite (env : Env) : Nat → Ser → List Val → W Unit
  | 0, _, _ => W.of (M.throw .recursionError)
  | n + 1, s, vs =>
    match s with
    | .null => W.pure ()
    | .struct st => do write (← W.of (M.lift (st.pack env.plat vs)))
    | .dynChar id st => do
      let (s, vals) ← W.of (M.lift (dynCharPrep st vs))
      W.of (setSize id s.size)
      write (← W.of (M.lift (s.pack env.plat vals)))
    | .consuming id => do
      let b ← W.of (M.lift (consumeData vs))
      W.of (setSize id b.length)
      write b
    | .terminated id term => do
      let b ← W.of (M.lift (termData term vs))
      W.of (setSize id b.length)
      write (← W.of (M.lift (do packOpt env.plat (← singleChar.matmul b.length) [.bytes b])))
    | .net id => do
      let (s, vals) ← W.of (M.lift (netPrep vs))
      W.of (setSize id s.size)
      write (← W.of (M.lift (s.pack env.plat vals)))
    | .unicode inner enc _ => do
      let b ← W.of (M.lift (do enc (← first vs)))
      packWrite env n inner [.bytes b]
    | .array .. => do write (← W.of (pack env (n + 1) s vs))
    | .staticArr count _ ser => do
      let items ← W.of (M.lift (staticArrPrep count vs))
      write (← W.of (M.lift (packOpt env.plat ser items)))
    | .dynArr id cnt item => do
      let (s, vals) ← W.of (M.lift (dynArrPrep cnt item vs))
      W.of (setSize id s.size)
      write (← W.of (M.lift (s.pack env.plat vals)))
    | .tuple id inner => match vs with
      | [v] => do
        let p ← W.of (getPart id)
        let inner' ← W.of (inner.prepack p)
        let vals ← W.of (M.lift (pyIter v))
        packWrite env n inner' vals
      | _ => W.of (M.throw .typeError)
    | .lookback id decider keys opts dflt => union (packWrite env n) id decider keys opts dflt vs
    | .lookahead id _ decider keys opts dflt => union (packWrite env n) id decider keys opts dflt vs
    | .cond .. => W.of (M.throw .notImplementedError)
    | .skip _ => W.pure ()
    | .structured id _ => match vs with
      | [v] => do
        let ser ← obj env (packWrite env n) v
        let sz ← W.of ser.readSize
        W.of (setSize id sz)
      | _ => W.of (M.throw .typeError)
    | .selfT _ => W.of (M.throw .notImplementedError)
    | .compound id ss => do
      let total ← loop (packWrite env n) pure 0 ss vs
      W.of (setSize id total)
    | .specialized id p ss => do
      let total ← loop (packWrite env n) (fun s => s.prepack p) 0 ss vs
      W.of (setSize id total)

/-- `obj.pack_write(writable)` -/
def objPackWrite (env : Env) (n : Nat) (v : Val) : W Unit := do
  let _ ← obj env (packWrite env n) v
  W.pure ()

end Verif.ShortW
