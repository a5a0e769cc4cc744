import Verif.Ops
/-
A functional reading of packing and unpacking, without mutable serializer state: what the bytes, the
values and the sizes *should* be.  The operations of `Verif/Ops.lean` work on shared mutable cells;
`Proofs/Refine*.lean` prove that they compute exactly these functions from every state.

`stuck` marks the few situations in which the operations really depend on what was stored in the
serializer objects earlier, so that no function of the arguments can describe them:
* a serializer that keeps the partial object is used without having been given one
  (inside `Condition`, inside `unicode`, as the read-ahead serializer),
* an array whose items are such serializers, when packing one item hands another partial object to
  the very same serializer object (recursion through `Self`),
* a lookahead union whose read-ahead serializer contains the union itself,
* sizes of generators that have not run yet (`unpack` of a tuple or union of several fields).
-/
namespace Verif

/-- A result, an exception, or "depends on earlier use". -/
inductive Out (α : Type) where
  | ok (a : α)
  | err (e : Err)
  | stuck

namespace Out

def bind (x : Out α) (f : α → Out β) : Out β :=
  match x with
  | .ok a => f a
  | .err e => .err e
  | .stuck => .stuck

instance : Monad Out where
  pure := .ok
  bind := bind

def ofE : Except Err α → Out α
  | .ok a => .ok a
  | .error e => .err e

end Out

/-- The serializers that remember the partial object, with the object that remembers. -/
def Ser.keeper : Ser → Option SerId
  | .array id .. => some id
  | .tuple id _ => some id
  | .lookback id .. => some id
  | .lookahead id .. => some id
  | _ => none

/-- The serializer has a `size` attribute. -/
def Ser.sized : Ser → Bool
  | .unicode inner _ _ => inner.sized
  | .tuple _ inner => inner.sized
  | .cond .. => false
  | .selfT _ => false
  | _ => true

namespace Sem

/-- `prepack`: the serializer to use and the partial object it remembers. -/
def pre (s : Ser) (p : PObj) : Except Err (Ser × Option PObj) :=
  match s with
  | .cond ser c defs => do .ok (← condPick ser defs (← c p), none)
  | .selfT id => .ok (.structured id p.cls, none)
  | .compound id ss => .ok (if needsPreprocess ss then .specialized id p ss else .compound id ss, none)
  | s => .ok (s, s.keeper.map fun _ => p)

/-- `preunpack` -/
def preU (s : Ser) (p : PObj) : Except Err (Ser × Option PObj) :=
  match s with
  | .selfT id => do .ok (.structured id (← clsOfPartial p), none)
  | s => pre s p

/-- Objects whose remembered partial object is replaced by `prepack`/`preunpack`. -/
def touch (s : Ser) : List SerId := s.keeper.toList

/-- Bytes, and the objects whose remembered partial object was replaced. -/
structure Enc where
  bytes : Bytes
  touched : List SerId := []

def encLeaf (x : Except Err Bytes) : Out Enc :=
  match x with
  | .ok b => .ok ⟨b, []⟩
  | .error e => .err e

/-- The parts of a compound one after another. -/
def encLoop (encN : Ser → Option PObj → List Val → Out Enc)
    (preF : Ser → Except Err (Ser × Option PObj)) (tch : Ser → List SerId) :
    List Ser → List Val → Out Enc
  | [], _ => .ok ⟨[], []⟩
  | s :: ss, vals => do
    let (s', q) ← .ofE (preF s)
    let a ← encN s' q (vals.take s'.numValues)
    if ¬ s'.sized then .err .attributeError
    else do
      let r ← encLoop encN preF tch ss (vals.drop s'.numValues)
      .ok ⟨a.bytes ++ r.bytes, tch s ++ a.touched ++ r.touched⟩

/-- The items of an array one after another. -/
def encItems (encN : Ser → Option PObj → List Val → Out Enc) (item : Ser) (q : Option PObj) :
    List Val → Out Enc
  | [] => .ok ⟨[], []⟩
  | v :: vs => do
    let a ← encN item q [v]
    if ¬ item.sized then .err .attributeError
    else if item.keeper.any (a.touched.contains ·) then .stuck
    else do
      let r ← encItems encN item q vs
      .ok ⟨a.bytes ++ r.bytes, a.touched ++ r.touched⟩

/-- An object: its class's serializer on its attributes. -/
def encObj (env : Env) (encN : Ser → Option PObj → List Val → Out Enc) (v : Val) : Out (Enc × Ser) :=
  match v with
  | .obj cls bo attrs => do
    let (ci, ser) ← .ofE (objSer env cls bo)
    let (s, q) ← .ofE (pre ser ⟨cls, false, attrs⟩)
    let vals ← .ofE (getAttrs attrs ci.attrs)
    let r ← encN s q vals
    .ok (⟨r.bytes, touch ser ++ r.touched⟩, ser)
  | _ => .err .attributeError

/-- A union member: chosen by `r`, given the same partial object. -/
def encUnion (encN : Ser → Option PObj → List Val → Out Enc) (keys : List Val) (opts : List Ser)
    (dflt : Ser) (p : PObj) (r : Val) (vs : List Val) : Out Enc := do
  let s ← .ofE (unionPick keys opts dflt r)
  let (s', q) ← .ofE (pre s p)
  let a ← encN s' q vs
  if ¬ s'.sized then .err .attributeError else .ok ⟨a.bytes, touch s ++ a.touched⟩

/-- The bytes for `vs`, when `q` is the partial object the serializer was given. -/
def enc (env : Env) : Nat → Ser → Option PObj → List Val → Out Enc
  | 0, _, _, _ => .err .recursionError
  | n + 1, s, q, vs =>
    match s with
    | .null => .ok ⟨[], []⟩
    | .struct st => encLeaf (st.pack env.plat vs)
    | .dynChar _ st => encLeaf (do let (s, vals) ← dynCharPrep st vs; s.pack env.plat vals)
    | .consuming _ => encLeaf (consumeData vs)
    | .terminated _ term => encLeaf (do
        let b ← termData term vs
        packOpt env.plat (← singleChar.matmul b.length) [.bytes b])
    | .net _ => encLeaf (do let (s, vals) ← netPrep vs; s.pack env.plat vals)
    | .unicode inner en _ => do
      let b ← .ofE (do en (← first vs))
      enc env n inner none [.bytes b]
    | .array _ hdr item sl => match q with
      | none => .stuck
      | some p => do
        let (item', qi) ← .ofE (pre item p)
        let v ← .ofE (first vs)
        let items ← .ofE (pyIter v)
        let r ← encItems (enc env n) item' qi items
        let hv ← .ofE (headerPackValues hdr sl items.length r.bytes.length)
        let h ← .ofE (packOpt env.plat hdr hv)
        .ok ⟨h ++ r.bytes, touch item ++ r.touched⟩
    | .staticArr count _ ser => encLeaf (do
        let items ← staticArrPrep count vs
        packOpt env.plat ser items)
    | .dynArr _ cnt item => encLeaf (do let (s, vals) ← dynArrPrep cnt item vs; s.pack env.plat vals)
    | .tuple _ inner => match vs with
      | [v] => match q with
        | none => .stuck
        | some p => do
          let (inner', qi) ← .ofE (pre inner p)
          let vals ← .ofE (pyIter v)
          let r ← enc env n inner' qi vals
          .ok ⟨r.bytes, touch inner ++ r.touched⟩
      | _ => .err .typeError
    | .lookback _ decider keys opts dflt => match q with
      | none => .stuck
      | some p => do
        let r ← .ofE (decider p)
        encUnion (enc env n) keys opts dflt p r vs
    | .lookahead _ _ decider keys opts dflt => match q with
      | none => .stuck
      | some p => do
        let r ← .ofE (decider p)
        encUnion (enc env n) keys opts dflt p r vs
    | .cond .. => .err .notImplementedError
    | .skip _ => .ok ⟨[], []⟩
    | .structured _ _ => match vs with
      | [v] => do
        let (r, ser) ← encObj env (enc env n) v
        if ¬ ser.sized then .err .attributeError else .ok r
      | _ => .err .typeError
    | .selfT _ => .err .notImplementedError
    | .compound _ ss => encLoop (enc env n) (fun s => .ok (s, none)) (fun _ => []) ss vs
    | .specialized _ p ss => encLoop (enc env n) (fun s => pre s p) touch ss vs

/-! ### What `pack_write` has written when it stops -/

def okBytes (x : Out Enc) : Bytes :=
  match x with
  | .ok r => r.bytes
  | _ => []

/-- The parts in front of the first one that fails, and what that one wrote. -/
def wroteLoop (encN : Ser → Option PObj → List Val → Out Enc)
    (wroteN : Ser → Option PObj → List Val → Bytes) (preF : Ser → Except Err (Ser × Option PObj)) :
    List Ser → List Val → Bytes
  | [], _ => []
  | s :: ss, vals => match preF s with
    | .error _ => []
    | .ok (s', q) => match encN s' q (vals.take s'.numValues) with
      | .ok a => a.bytes ++
        (if s'.sized then wroteLoop encN wroteN preF ss (vals.drop s'.numValues) else [])
      | _ => wroteN s' q (vals.take s'.numValues)

/-- The bytes `pack_write` has written when it returns or raises: containers write field by field,
strings, basic types and arrays write all or nothing. -/
def wrote (env : Env) : Nat → Ser → Option PObj → List Val → Bytes
  | 0, _, _, _ => []
  | n + 1, s, q, vs =>
    match s with
    | .unicode inner en _ => match (do en (← first vs)) with
      | .ok b => wrote env n inner none [.bytes b]
      | .error _ => []
    | .tuple _ inner => match q, vs with
      | some p, [v] => match pre inner p, pyIter v with
        | .ok (inner', qi), .ok vals => wrote env n inner' qi vals
        | _, _ => []
      | _, _ => []
    | .lookback _ decider keys opts dflt
    | .lookahead _ _ decider keys opts dflt => match q with
      | none => []
      | some p => match (do pre (← unionPick keys opts dflt (← decider p)) p) with
        | .ok (s', q') => wrote env n s' q' vs
        | .error _ => []
    | .structured _ _ => match vs with
      | [.obj cls bo attrs] => match objSer env cls bo with
        | .error _ => []
        | .ok (ci, ser) => match pre ser ⟨cls, false, attrs⟩, getAttrs attrs ci.attrs with
          | .ok (s, q'), .ok vals => wrote env n s q' vals
          | _, _ => []
      | _ => []
    | .compound _ ss => wroteLoop (enc env n) (wrote env n) (fun s => .ok (s, none)) ss vs
    | .specialized _ p ss => wroteLoop (enc env n) (wrote env n) (fun s => pre s p) ss vs
    | s => okBytes (enc env (n + 1) s q vs)

/-! ### Unpacking -/

/-- Where values are read from: a buffer, a buffer at an offset, or a stream (content, position). -/
inductive PSrc
  | buf (b : Bytes)
  | at (b : Bytes) (off : Nat)
  | io (data : Bytes) (pos : Nat)

def PSrc.pos : PSrc → Nat
  | .io _ pos => pos
  | _ => 0

def PSrc.isIo : PSrc → Bool
  | .io .. => true
  | _ => false

/-- The source after going back `size` bytes from stream position `pos`. -/
def PSrc.back (src : PSrc) (pos size : Nat) : PSrc :=
  match src with
  | .io data _ => .io data ((pos : Int) - size).toNat
  | s => s

/-- What the next part is read from, `size` bytes further (a stream is already at `pos`). -/
def PSrc.next (src : PSrc) (size pos : Nat) : PSrc :=
  match src with
  | .buf b => .buf (b.drop size)
  | .at b off => .at b (off + size)
  | .io data _ => .io data pos

/-- Values, the size the serializer reports, the new stream position, and the objects whose
remembered partial object was replaced. -/
structure Dec where
  vals : List Val
  size : Nat
  pos : Nat
  touched : List SerId := []

/-- A struct serializer: values and new position. -/
def structDec (env : Env) (s : StructSer) (src : PSrc) : Except Err (List Val × Nat) :=
  match src with
  | .buf b => do .ok (← s.unpack env.plat b, 0)
  | .at b off => do .ok (← s.unpackFrom env.plat b off, 0)
  | .io data pos =>
    let d := (data.drop pos).take s.size
    do .ok (← s.unpackRead env.plat d, pos + d.length)

def structDecOpt (env : Env) (s : Option StructSer) (src : PSrc) : Except Err (List Val × Nat) :=
  match s with
  | none => .ok ([], src.pos)
  | some s => structDec env s src

/-- `char[uint*]` -/
def dynCharDec (env : Env) (st : StructSer) (src : PSrc) : Except Err Dec := do
  let (hv, pos) ← structDec env st src
  let count ← needInt (← first hv)
  let size := ((st.size : Int) + count).toNat
  match src with
  | .buf b => .ok ⟨[.bytes ((b.drop st.size).take count.toNat)], size, 0, []⟩
  | src => do
    let s ← singleChar.matmul count
    let (vs, pos') ← structDecOpt env s (src.next st.size pos)
    .ok ⟨vs, size, pos', []⟩

/-- `char[math.inf]` -/
def consumingDec (src : PSrc) : Dec :=
  match src with
  | .buf b => ⟨[.bytes b], b.length, 0, []⟩
  | .at b off => ⟨[.bytes (b.drop off)], b.length - off, 0, []⟩
  | .io data pos => ⟨[.bytes (data.drop pos)], (data.drop pos).length, pos + (data.drop pos).length, []⟩

/-- `char[b'x']` -/
def terminatedDec (term : Byte) (src : PSrc) : Except Err Dec :=
  match src with
  | .buf b => match findTerm term b with
    | none => .error .valueError
    | some k => .ok ⟨[.bytes (b.take k)], k + 1, 0, []⟩
  | .at b off => match findTerm term (b.drop off) with
    | none => .error .valueError
    | some k => .ok ⟨[.bytes ((b.drop off).take k)], off + k + 1, 0, []⟩
  | .io data pos =>
    match termReadLoop term ((data.drop pos).length + 1) (data.drop pos) [] 0 with
    | none => .error .valueError
    | some (d, size) => .ok ⟨[.bytes d], size, pos + size, []⟩

/-- `char[char.NET]` -/
def netDec (env : Env) (src : PSrc) : Except Err Dec := do
  let (hv, pos) ← structDec env shortLen src
  let c ← needInt (← first hv)
  let (count, size, pos) ← if 128 ≤ c then do
      let (hv, pos) ← structDec env longLen src
      let c ← needInt (← first hv)
      let count ← netDecode c.toNat
      .ok (count, longLen.size, pos)
    else .ok (c.toNat, shortLen.size, pos)
  match src with
  | .buf b => .ok ⟨[.bytes ((b.drop size).take count)], size + count, 0, []⟩
  | .at b off => do
    .ok ⟨← structUnpackFrom env.plat .default [⟨count, .str⟩] b (off + size), size + count, 0, []⟩
  | .io data _ =>
    let d := (data.drop pos).take count
    .ok ⟨[.bytes d], size + count, pos + d.length, []⟩

def decLoop (decN : Ser → Option PObj → PSrc → Out Dec) (src : PSrc) :
    Nat → Nat → List Ser → Out Dec
  | size, pos, [] => .ok ⟨[], size, pos, []⟩
  | size, pos, s :: ss => do
    let a ← decN s none (src.next size pos)
    if ¬ s.sized then .err .attributeError
    else do
      let r ← decLoop decN src (size + a.size) a.pos ss
      .ok ⟨a.vals ++ r.vals, r.size, r.pos, a.touched ++ r.touched⟩

def decLoopSpec (decN : Ser → Option PObj → PSrc → Out Dec) (upd : Upd) (src : PSrc) :
    PObj → Nat → Nat → Nat → List Ser → Out Dec
  | _, _, size, pos, [] => .ok ⟨[], size, pos, []⟩
  | p, done, size, pos, s :: ss => do
    let (s', q) ← .ofE (preU s p)
    let a ← decN s' q (src.next size pos)
    let p' ← .ofE (upd p done a.vals)
    if ¬ s'.sized then .err .attributeError
    else do
      let r ← decLoopSpec decN upd src p' (done + a.vals.length) (size + a.size) a.pos ss
      .ok ⟨a.vals ++ r.vals, r.size, r.pos, touch s ++ a.touched ++ r.touched⟩

def decItems (decN : Ser → Option PObj → PSrc → Out Dec) (item : Ser) (q : Option PObj) (src : PSrc) :
    Nat → Nat → Nat → Out Dec
  | size, pos, 0 => .ok ⟨[], size, pos, []⟩
  | size, pos, k + 1 => do
    let a ← decN item q (src.next size pos)
    if ¬ item.sized then .err .attributeError
    else if item.keeper.any (a.touched.contains ·) then .stuck
    else do
      let r ← decItems decN item q src (size + a.size) a.pos k
      .ok ⟨a.vals ++ r.vals, r.size, r.pos, a.touched ++ r.touched⟩

/-- An object of a class. -/
def decObj (env : Env) (decN : Upd → Ser → Option PObj → PSrc → Out Dec) (cls : ClassId) (src : PSrc) :
    Out (Val × Dec × Ser) :=
  match env.classes cls with
  | none => .err .attributeError
  | some ci => do
    let (s, q) ← .ofE (preU ci.serializer ⟨cls, true, []⟩)
    let r ← decN (assignVals ci.attrs) s q src
    let v ← .ofE (construct cls ci r.vals)
    .ok (v, ⟨r.vals, r.size, r.pos, touch ci.serializer ++ r.touched⟩, ci.serializer)

/-- A union member. -/
def decUnion (decN : Ser → Option PObj → PSrc → Out Dec) (keys : List Val) (opts : List Ser) (dflt : Ser)
    (p : PObj) (r : Val) (src : PSrc) : Out Dec := do
  let s ← .ofE (unionPick keys opts dflt r)
  let (s', q) ← .ofE (preU s p)
  if s'.isLazy then .stuck
  else do
    let a ← decN s' q src
    if ¬ s'.sized then .err .attributeError
    else .ok ⟨a.vals, a.size, a.pos, touch s ++ a.touched⟩

/-- The values read from `src`, when `q` is the partial object the serializer was given. -/
def dec (env : Env) : Nat → Upd → Ser → Option PObj → PSrc → Out Dec
  | 0, _, _, _, _ => .err .recursionError
  | n + 1, upd, s, q, src =>
    match s with
    | .null => .ok ⟨[], 0, src.pos, []⟩
    | .struct st => .ofE (do let (vs, pos) ← structDec env st src; .ok ⟨vs, st.size, pos, []⟩)
    | .dynChar _ st => .ofE (dynCharDec env st src)
    | .consuming _ => .ok (consumingDec src)
    | .terminated _ term => .ofE (terminatedDec term src)
    | .net _ => .ofE (netDec env src)
    | .unicode inner _ de => do
      let r ← dec env n noUpd inner none src
      let vs ← .ofE (unicodeDecode de r.vals)
      .ok ⟨vs, r.size, r.pos, r.touched⟩
    | .array _ hdr item sl => do
      let (hv, pos) ← .ofE (structDecOpt env hdr src)
      let (count, dataSize) ← .ofE (headerUnpackValues hdr sl hv)
      match q with
      | none => .stuck
      | some p => do
        let (item', qi) ← .ofE (preU item p)
        let r ← decItems (dec env n noUpd) item' qi src (hdrSize hdr) pos count.toNat
        let _ ← .ofE (checkDataSize dataSize (r.size - hdrSize hdr))
        .ok ⟨[.list r.vals], r.size, r.pos, touch item ++ r.touched⟩
    | .staticArr _ _ ser => .ofE (do
        let (vs, pos) ← structDecOpt env ser src
        .ok ⟨[.list vs], ser.elim 0 StructSer.size, pos, []⟩)
    | .dynArr _ cnt item => .ofE (do
        let (hv, pos) ← structDec env cnt src
        let c ← match hv with
          | [c] => needInt c
          | _ => .error .valueError
        let s ← item.mul c
        let (vs, pos') ← structDecOpt env s (src.next cnt.size pos)
        .ok ⟨[.list vs], cnt.size + s.elim 0 StructSer.size, pos', []⟩)
    | .tuple _ inner => match q with
      | none => .stuck
      | some p => do
        let (inner', qi) ← .ofE (preU inner p)
        if inner'.isLazy then .stuck
        else do
          let r ← dec env n noUpd inner' qi src
          .ok ⟨[.tup r.vals], r.size, r.pos, touch inner ++ r.touched⟩
    | .lookback _ decider keys opts dflt => match q with
      | none => .stuck
      | some p => do
        let r ← .ofE (decider p)
        decUnion (dec env n noUpd) keys opts dflt p r src
    | .lookahead id readAhead _ keys opts dflt => do
      let hr ← dec env n noUpd readAhead none src
      let r ← .ofE (first hr.vals)
      if src.isIo && !readAhead.sized then .err .attributeError
      else if hr.touched.contains id then .stuck
      else match q with
      | none => .stuck
      | some p => do
        let a ← decUnion (dec env n noUpd) keys opts dflt p r (src.back hr.pos hr.size)
        .ok ⟨a.vals, a.size, a.pos, hr.touched ++ a.touched⟩
    | .cond .. => .err .notImplementedError
    | .skip vals => .ok ⟨vals, 0, src.pos, []⟩
    | .structured _ cls => do
      let (v, r, ser) ← decObj env (dec env n) cls src
      if ¬ ser.sized then .err .attributeError else .ok ⟨[v], r.size, r.pos, r.touched⟩
    | .selfT _ => .err .notImplementedError
    | .compound _ ss => decLoop (dec env n noUpd) src 0 src.pos ss
    | .specialized _ p ss => decLoopSpec (dec env n noUpd) upd src p 0 0 src.pos ss

end Sem
end Verif
