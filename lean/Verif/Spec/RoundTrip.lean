import Verif.Spec.Read
import Verif.Spec.Struct
/-
Which values come back from their bytes, and as what.

`Kept env t l upd s s' q q' vs vs'` says: the values `vs`, packed with `s` (having been given the partial
object `q`), are read back as `vs'` by `s'` (having been given `q'`).  It talks about values, deciders and
types only; bytes occur only for lookahead unions, whose choice is read from the bytes.  That packing and
then unpacking really does this is proved in `Proofs/RoundTrip.lean`.

`t` admits terminated strings, `l` says that nothing follows (so a read-to-end string may be last).
-/
namespace Verif
open Sem

/-! ### Basic types: what a value becomes when stored -/

/-- The value a single element of code `c` holds after storing `v` (for values that can be stored). -/
def storedOne (P : Platform) (c : Code) (native : Bool) (v : Val) : Val :=
  match c with
  | .pad => .none
  | .chr => .bytes (v.asBytes.getD [])
  | .int _ _ => .int (v.asIndex.getD 0)
  | .bool => .bool v.truthy
  | .half => .float (((v.asFloat P).bind P.packF16).elim 0 P.unpackF16)
  | .single => .float (((v.asFloat P).bind (P.packF32 native)).elim 0 P.unpackF32)
  | .double => .float ((v.asFloat P).getD 0)
  | .ptr => .int (v.asIndex.getD 0 % 2 ^ 64)
  | .str => .none
  | .pas => .none

/-- The values one item of a format holds. -/
def storedTok (P : Platform) (native : Bool) (t : Tok) (vs : List Val) : List Val :=
  match t.c with
  | .pad => []
  | .str => vs.map fun v => .bytes (fitTo t.n (v.asBytes.getD []))
  | .pas => vs.map fun v => .bytes ((v.asBytes.getD []).take (min (t.n - 1) 255))
  | c => vs.map (storedOne P c native)

def storedToks (P : Platform) (native : Bool) : List Tok → List Val → List Val
  | [], _ => []
  | t :: ts, vs => storedTok P native t (vs.take t.numVals) ++ storedToks P native ts (vs.drop t.numVals)

/-- What comes back from a struct serializer: the stored values after the actions. -/
def StructSer.kept (P : Platform) (s : StructSer) (vs : List Val) : Except Err (List Val) :=
  s.applyActions (storedToks P s.byteOrder.isNative s.toks vs)

def keptOpt (P : Platform) (s : Option StructSer) (vs : List Val) : Except Err (List Val) :=
  match s with
  | none => .ok []
  | some s => s.kept P vs

/-- The `i`-th value comes back as the `i`-th value, each on its own. -/
inductive KeptEach (P : Platform) (s : StructSer) : List Val → List Val → Prop
  | nil : KeptEach P s [] []
  | cons (v w : Val) (vs ws : List Val) (h1 : s.kept P [v] = .ok [w]) (h2 : KeptEach P s vs ws) :
    KeptEach P s (v :: vs) (w :: ws)

/-- One item holding one value. -/
def StructSer.oneValue (s : StructSer) : Prop := ∃ t, s.toks = [t] ∧ t.numVals = 1

/-- The header of an array: integers, or nothing for arrays of fixed length. -/
def hdrOk (hdr : Option StructSer) (sl : Int) : Bool :=
  match hdr with
  | none => decide (0 ≤ sl)
  | some h => h.actions.isNone && h.toks.all fun t => match t.c with
    | .int _ _ => true
    | _ => false

/-- No padding between the count and the first item: no native alignment, or the count is long enough. -/
def packedTight (cnt item : StructSer) : Bool :=
  item.toks.all fun t => padLen (t.c.align cnt.byteOrder.isNative) cnt.size == 0

/-! ### All types -/

mutual
inductive Kept (env : Env) (t : Bool) : Bool → Upd → Ser → Ser → Option PObj → Option PObj → List Val → List Val → Prop
  | null (l upd q q' vs) : Kept env t l upd .null .null q q' vs []
  | struct (l upd q q' s vs vs') (h : s.kept env.plat vs = .ok vs') :
    Kept env t l upd (.struct s) (.struct s) q q' vs vs'
  | dynChar (l upd q q' id st v b) (hc : st.isCount = true) (h : v.asBytes = some b) :
    Kept env t l upd (.dynChar id st) (.dynChar id st) q q' [v] [.bytes b]
  | consuming (upd q q' id v b) (h : v.asBytes = some b) :
    Kept env t true upd (.consuming id) (.consuming id) q q' [v] [.bytes b]
  | terminated (l upd q q' id term v b) (ht : t = true) (h : v.asBytes = some b) (hn : term ∉ b) :
    Kept env t l upd (.terminated id term) (.terminated id term) q q' [v] [.bytes b]
  | net (l upd q q' id v b) (h : v.asBytes = some b) (hl : b.length < 128 ∨ env.plat.le = true) :
    Kept env t l upd (.net id) (.net id) q q' [v] [.bytes b]
  | unicode (l upd q q' inner en de v b ws vs') (h1 : en v = .ok b)
      (h2 : Kept env t l noUpd inner inner none none [.bytes b] ws) (h3 : unicodeDecode de ws = .ok vs') :
    Kept env t l upd (.unicode inner en de) (.unicode inner en de) q q' [v] vs'
  | array (l upd p p' id hdr item sl v items ws i1 i2 q1 q2) (hh : hdrOk hdr sl = true) (h1 : pyIter v = .ok items)
      (h2 : pre item p = .ok (i1, q1)) (h3 : preU item p' = .ok (i2, q2))
      (h4 : KeptItems env t i1 i2 q1 q2 items ws) :
    Kept env t l upd (.array id hdr item sl) (.array id hdr item sl) (some p) (some p') [v] [.list ws]
  | staticArr (l upd q q' count item ser v items ws) (h1 : pyIter v = .ok items)
      (h2 : keptOpt env.plat ser items = .ok ws) :
    Kept env t l upd (.staticArr count item ser) (.staticArr count item ser) q q' [v] [.list ws]
  | dynArr (l upd q q' id cnt item v items ws) (hc : cnt.isCount = true) (hi : item.oneValue)
      (hs : SingleItem item.baseFormat) (hb : cnt.byteOrder = item.byteOrder) (hp : packedTight cnt item = true)
      (ha : ∀ as, item.actions = some as → as.length = 1)
      (h1 : pyIter v = .ok items) (h2 : KeptEach env.plat item items ws) :
    Kept env t l upd (.dynArr id cnt item) (.dynArr id cnt item) q q' [v] [.list ws]
  | tuple (l upd p p' id inner v items ws i1 i2 q1 q2) (h1 : pyIter v = .ok items)
      (h2 : pre inner p = .ok (i1, q1)) (h3 : preU inner p' = .ok (i2, q2)) (hz : i2.isLazy = false)
      (h4 : Kept env t l noUpd i1 i2 q1 q2 items ws) :
    Kept env t l upd (.tuple id inner) (.tuple id inner) (some p) (some p') [v] [.tup ws]
  | lookback (l upd p p' id decider keys opts dflt r r' s i1 i2 q1 q2 vs vs') (h1 : decider p = .ok r)
      (h2 : decider p' = .ok r') (h3 : unionPick keys opts dflt r = .ok s) (h4 : unionPick keys opts dflt r' = .ok s)
      (h5 : pre s p = .ok (i1, q1)) (h6 : preU s p' = .ok (i2, q2)) (hz : i2.isLazy = false)
      (h7 : Kept env t l noUpd i1 i2 q1 q2 vs vs') :
    Kept env t l upd (.lookback id decider keys opts dflt) (.lookback id decider keys opts dflt) (some p) (some p') vs vs'
  | lookahead (l upd p p' id ra decider keys opts dflt r s i1 i2 q1 q2 vs vs') (hs : ra.solid = true)
      (h1 : decider p = .ok r) (h2 : unionPick keys opts dflt r = .ok s)
      (h3 : ∀ n e, enc env n i1 q1 vs = .ok e → ∃ hr key, dec env 1 noUpd ra none (.buf e.bytes) = .ok hr ∧
        first hr.vals = .ok key ∧ unionPick keys opts dflt key = .ok s)
      (h5 : pre s p = .ok (i1, q1)) (h6 : preU s p' = .ok (i2, q2)) (hz : i2.isLazy = false)
      (h7 : Kept env t l noUpd i1 i2 q1 q2 vs vs') :
    Kept env t l upd (.lookahead id ra decider keys opts dflt) (.lookahead id ra decider keys opts dflt) (some p) (some p') vs vs'
  | skip (l upd q q' vals vs) : Kept env t l upd (.skip vals) (.skip vals) q q' vs vals
  | structured (l upd q q' id c1 cls v v') (h : KeptObj env t l cls v v') :
    Kept env t l upd (.structured id c1) (.structured id cls) q q' [v] [v']
  | compound (l upd q q' id ss vs vs') (h : KeptLoop env t l ss vs vs') :
    Kept env t l upd (.compound id ss) (.compound id ss) q q' vs vs'
  | specialized (l upd q q' id p p' ss vs vs') (h : KeptSpec env t l upd p p' 0 ss vs vs') :
    Kept env t l upd (.specialized id p ss) (.specialized id p' ss) q q' vs vs'

/-- The items of an array. -/
inductive KeptItems (env : Env) (t : Bool) : Ser → Ser → Option PObj → Option PObj → List Val → List Val → Prop
  | nil (i1 i2 q1 q2) : KeptItems env t i1 i2 q1 q2 [] []
  | cons (i1 i2 q1 q2 v vs ws ws') (h1 : Kept env t false noUpd i1 i2 q1 q2 [v] ws) (h2 : KeptItems env t i1 i2 q1 q2 vs ws') :
    KeptItems env t i1 i2 q1 q2 (v :: vs) (ws ++ ws')

/-- The parts of a compound whose parts need no partial object. -/
inductive KeptLoop (env : Env) (t : Bool) : Bool → List Ser → List Val → List Val → Prop
  | nil (l vs) : KeptLoop env t l [] vs []
  | cons (l s ss vs ws ws') (h1 : Kept env t (l && ss.isEmpty) noUpd s s none none (vs.take s.numValues) ws)
      (h2 : KeptLoop env t l ss (vs.drop s.numValues) ws') :
    KeptLoop env t l (s :: ss) vs (ws ++ ws')

/-- The parts of a compound: each part is given the object `p` being packed, or what `p'` has become of
the object being unpacked when its turn comes. -/
inductive KeptSpec (env : Env) (t : Bool) : Bool → Upd → PObj → PObj → Nat → List Ser → List Val → List Val → Prop
  | nil (l upd p p' done vs) : KeptSpec env t l upd p p' done [] vs []
  | cons (l upd p p' p2 done s ss i1 i2 q1 q2 vs ws ws') (h1 : pre s p = .ok (i1, q1)) (h2 : preU s p' = .ok (i2, q2))
      (h3 : Kept env t (l && ss.isEmpty) noUpd i1 i2 q1 q2 (vs.take i1.numValues) ws) (h4 : upd p' done ws = .ok p2)
      (h5 : KeptSpec env t l upd p p2 (done + ws.length) ss (vs.drop i1.numValues) ws') :
    KeptSpec env t l upd p p' done (s :: ss) vs (ws ++ ws')

/-- `v`, an object of class `cls`, comes back as `v'`. -/
inductive KeptObj (env : Env) (t : Bool) : Bool → ClassId → Val → Val → Prop
  | mk (l cls attrs ci v' s1 q1 s2 q2 vals vals') (h1 : env.classes cls = some ci)
      (h2 : getAttrs attrs ci.attrs = .ok vals) (h3 : pre ci.serializer ⟨cls, false, attrs⟩ = .ok (s1, q1))
      (h4 : preU ci.serializer ⟨cls, true, []⟩ = .ok (s2, q2))
      (h5 : Kept env t l (assignVals ci.attrs) s1 s2 q1 q2 vals vals') (h6 : construct cls ci vals' = .ok v') :
    KeptObj env t l cls (.obj cls none attrs) v'
end

end Verif
