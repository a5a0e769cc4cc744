import Verif.Proofs.RoundTripLift
import Verif.Props.Reading
import Verif.Props.Integers
/-
C01: what was packed is unpacked again, through every method; C26: recursive classes.

`KeptObj env t l cls v v'` (`Spec/RoundTrip.lean`) says which objects are representable and what they come back
as; `KeptObj … v v` means that `v` comes back equal.
-/
namespace Verif
open Sem Samples

variable (env : Env)

/-! ### C01 -/

/-- **C01** (`pack`, `create_unpack`, partial).  If `obj.pack()` returned `b` for a representable object, then
`cls.create_unpack(b + rest)` returns the object it stands for (`v' = v`: an equal one), whatever ran before
either call, whatever bytes follow (none for a class ending in a read-to-end string).  The serializer then
reports exactly `len(b)` as its size.  Missing, and false: the representable objects leave out what the code
gets wrong, see `C01_full_is_false`, `C01_tuple_is_false`, `C01_text_is_false`; nested objects with an instance
byte order (`with_byte_order`) are left out too. -/
theorem C01_partial (t l : Bool) (n : Nat) (cls : ClassId) (v v' : Val) (hc : Calm env v.nodes)
    (hk : KeptObj env t l cls v v') (st1 st1' : St) (b : Bytes) (h : Obj.pack env n v st1 = .ok b st1')
    (rest : Bytes) (hl : l = true → rest = []) (st2 : St) :
    ∃ st2', createUnpack env n cls (.buf (b ++ rest)) st2 = .ok v' st2' ∧
      ∀ ci, env.classes cls = some ci → ci.serializer.sized = true → ci.serializer.readSize st2' = .ok b.length st2' := by
  obtain ⟨st2', h1, _, h3⟩ := roundTrip hc hk h (src := .buf (b ++ rest)) (st := st2) (rest := rest) rfl hl
    (by intro; rfl)
  exact ⟨st2', h1, h3⟩

/-- **C01** (`create_unpack_from`, partial).  The same at any offset of any buffer, for objects without
terminated strings (`C03_full_is_false` shows those failing at an offset). -/
theorem C01_from_partial (l : Bool) (n : Nat) (cls : ClassId) (v v' : Val) (hc : Calm env v.nodes)
    (hk : KeptObj env false l cls v v') (st1 st1' : St) (b : Bytes) (h : Obj.pack env n v st1 = .ok b st1')
    (front rest : Bytes) (hl : l = true → rest = []) (st2 : St) :
    result (createUnpack env n cls (.at (front ++ b ++ rest) front.length) st2) = .ok v' := by
  obtain ⟨st2', h1, _, h3⟩ := roundTrip hc hk h (src := .at (front ++ b ++ rest) front.length) (st := st2) (rest := rest)
    ⟨by simp, by rw [List.append_assoc, List.drop_left]⟩ hl (by simp)
  rw [h1]; rfl

/-- **C01** (`create_unpack_read`, partial).  The same from any stream that shows the bytes at its position,
which is left just behind them. -/
theorem C01_read_partial (t l : Bool) (n : Nat) (cls : ClassId) (v v' : Val) (hc : Calm env v.nodes)
    (hk : KeptObj env t l cls v v') (st1 st1' : St) (b : Bytes) (h : Obj.pack env n v st1 = .ok b st1')
    (rest : Bytes) (hl : l = true → rest = []) (st2 : St) (hs : st2.io.data.drop st2.io.pos = b ++ rest) :
    ∃ st2', createUnpack env n cls .io st2 = .ok v' st2' ∧ st2'.io.data = st2.io.data ∧
      st2'.io.pos = st2.io.pos + b.length := by
  obtain ⟨st2', h1, h2, h3⟩ := roundTrip hc hk h (src := .io) (st := st2) (rest := rest) hs hl (by intro; rfl)
  exact ⟨st2', h1, h2.data, h2.ioPos rfl⟩

/-- **C01** (`pack_into`, `create_unpack_from`, partial).  What `pack_into` put into a buffer is read back from
it at the same offset. -/
theorem C01_into_from_partial (n off : Nat) (cls : ClassId) (v v' : Val) (hc : Calm env v.nodes)
    (hk : KeptObj env false false cls v v') (st1 st2 : St) (hoff : off ≤ st1.buf.length)
    (h : Obj.packInto env n off v st1 = .ok () st2) (hlen : st2.buf.length = st1.buf.length) (st3 : St) :
    result (createUnpack env n cls (.at st2.buf off) st3) = .ok v' := by
  obtain ⟨b, st1', h1, _, _, h4, _⟩ := C02_pack_into_partial env n off v st1 st2 h hlen
  have := C01_from_partial env false n cls v v' hc hk st1 st1' b h1 (st1.buf.take off) (st1.buf.drop (off + b.length))
    (by simp) st3
  rw [← h4, List.length_take, Nat.min_eq_left hoff] at this
  exact this

/-- **C01** (`pack_write`, `create_unpack_read`, partial).  What `pack_write` wrote to a stream is read back
after going back to where it was written; the stream is then where `pack_write` left it. -/
theorem C01_write_read_partial (t : Bool) (n : Nat) (cls : ClassId) (v v' : Val) (hc : Calm env v.nodes)
    (hk : KeptObj env t false cls v v') (st1 st2 : St) (hpos : st1.io.pos ≤ st1.io.data.length)
    (h : Obj.packWrite env n v st1 = .ok () st2) (st3 : St) (h3 : st3.io = ⟨st2.io.data, st1.io.pos⟩) :
    ∃ st3', createUnpack env n cls .io st3 = .ok v' st3' ∧ st3'.io = st2.io := by
  have h0 := C02_pack_write env n v st1
  cases hp : Obj.pack env n v st1 with
  | err e s =>
    rw [hp] at h0
    obtain ⟨s2, h0⟩ := h0
    rw [h] at h0; cases h0
  | ok b s =>
    rw [hp] at h0
    obtain ⟨s2, h0, hio, _⟩ := h0
    rw [h] at h0; cases h0
    have hdata : st2.io.data.drop st1.io.pos = b ++ st1.io.data.drop (st1.io.pos + b.length) ∧
        st2.io.pos = st1.io.pos + b.length := by
      rw [hio]
      unfold Stream.write
      split
      · rename_i hb; subst hb; simp
      · simp only
        refine ⟨?_, trivial⟩
        have hl : (st1.io.data.take st1.io.pos).length = st1.io.pos := by simp; omega
        have hz : st1.io.pos - st1.io.data.length = 0 := by omega
        rw [hz, List.replicate_zero, List.append_nil, List.append_assoc, List.drop_append_of_le_length (by omega),
          List.drop_of_length_le (by omega), List.nil_append]
    obtain ⟨st3', g1, g2, g3⟩ := C01_read_partial env t false n cls v v' hc hk st1 s b hp
      (st1.io.data.drop (st1.io.pos + b.length)) (by simp) st3 (by rw [h3]; exact hdata.1)
    refine ⟨st3', g1, ?_⟩
    rw [h3] at g2 g3
    have : st3'.io = ⟨st3'.io.data, st3'.io.pos⟩ := rfl
    rw [this, g2, g3]
    have : st2.io = ⟨st2.io.data, st2.io.pos⟩ := rfl
    rw [this, hdata.2]

/-! ### Concrete classes -/

theorem kept_struct_ints {P : Platform} {s : StructSer} {vs : List Val} (ha : s.actions = none)
    (ht : (s.toks.all fun t => match t.c with | .int _ _ => true | _ => false) = true)
    (hv : vs.all isInt = true) (hl : vs.length = numVals s.toks) : s.kept P vs = .ok vs := by
  rw [StructSer.kept, storedToks_ints ht hv hl, StructSer.applyActions, ha]

theorem point_kept (t : Bool) (x y : Int) : KeptObj Samples.env t false 0 (point x y) (point x y) := by
  refine .mk _ _ _ _ _ _ _ _ _ [.int x, .int y] [.int x, .int y] rfl rfl rfl rfl ?_ rfl
  exact .struct _ _ _ _ _ _ _ (kept_struct_ints rfl rfl rfl rfl)

theorem points_kept (t : Bool) : ∀ ps : List (Int × Int),
    KeptItems Samples.env t (.structured [12] 0) (.structured [12] 0) none none (ps.map fun p => point p.1 p.2)
      (ps.map fun p => point p.1 p.2)
  | [] => .nil _ _ _ _
  | p :: ps => by
    have := KeptItems.cons _ _ _ _ _ _ [point p.1 p.2] _
      (.structured false noUpd none none [12] 0 0 _ _ (point_kept t p.1 p.2)) (points_kept t ps)
    exact this

/-- Every `Msg` with an integer tag, a bytes name and a list of points is representable. -/
theorem msg_kept (t : Bool) (tag : Int) (name : Bytes) (ps : List (Int × Int)) :
    KeptObj Samples.env t false 1 (msg tag name (ps.map fun p => point p.1 p.2)) (msg tag name (ps.map fun p => point p.1 p.2)) := by
  refine .mk _ _ _ _ _ _ _ _ _ [.int tag, .bytes name, .list (ps.map fun p => point p.1 p.2)]
    ([.int tag] ++ ([.bytes name] ++ ([.list (ps.map fun p => point p.1 p.2)] ++ []))) rfl rfl rfl rfl ?_ rfl
  refine .specialized _ _ _ _ _ _ _ _ _ _ ?_
  refine .cons _ _ _ _ _ _ _ _ _ _ _ _ _ _ _ rfl rfl (.struct _ _ _ _ _ _ _ (kept_struct_ints rfl rfl rfl rfl)) rfl ?_
  refine .cons _ _ _ _ _ _ _ _ _ _ _ _ _ _ _ rfl rfl (.dynChar _ _ _ _ _ _ _ _ rfl rfl) rfl ?_
  refine .cons _ _ _ _ _ _ _ _ _ _ _ _ _ _ _ rfl rfl (.array _ _ _ _ _ _ _ _ _ _ _ _ _ _ _ rfl rfl rfl rfl (points_kept t ps)) rfl ?_
  exact .nil _ _ _ _ _ _

/-- A message with two points: packed, and read back from data with further bytes. -/
example : result (Obj.pack Samples.env 9 (msg 5 [1, 2] [point 258 (-1), point 3 4]) st0) = .ok [5, 2, 1, 2, 2, 2, 1, 255, 3, 0, 4] ∧
    result (createUnpack Samples.env 9 1 (.buf [5, 2, 1, 2, 2, 2, 1, 255, 3, 0, 4, 77]) st0)
      = .ok (msg 5 [1, 2] [point 258 (-1), point 3 4]) ∧
    KeptObj Samples.env true false 1 (msg 5 [1, 2] [point 258 (-1), point 3 4]) (msg 5 [1, 2] [point 258 (-1), point 3 4]) ∧
    Calm Samples.env (msg 5 [1, 2] [point 258 (-1), point 3 4]).nodes :=
  ⟨by rfl, by rfl, msg_kept true 5 [1, 2] [(258, -1), (3, 4)], calm_of_plain samples_plain _⟩

/-! ### C26 -/

/-- Trees of any shape. -/
inductive Rose
  | node (val : Int) (kids : List Rose)

mutual
/-- The `Tree` object. -/
def Rose.obj : Rose → Val
  | .node v ks => tree v (Rose.objs ks)
def Rose.objs : List Rose → List Val
  | [] => []
  | r :: rs => r.obj :: Rose.objs rs
end

mutual
/-- Labels and numbers of children fit a byte. -/
def Rose.small : Rose → Prop
  | .node v ks => 0 ≤ v ∧ v < 256 ∧ ks.length < 256 ∧ Rose.smalls ks
def Rose.smalls : List Rose → Prop
  | [] => True
  | r :: rs => r.small ∧ Rose.smalls rs
end

mutual
/-- Preorder: the label, the number of children, the children. -/
def Rose.bytes : Rose → Bytes
  | .node v ks => UInt8.ofNat v.toNat :: UInt8.ofNat ks.length :: Rose.bytesAll ks
def Rose.bytesAll : List Rose → Bytes
  | [] => []
  | r :: rs => r.bytes ++ Rose.bytesAll rs
end

mutual
def Rose.depth : Rose → Nat
  | .node _ ks => 1 + Rose.depths ks
def Rose.depths : List Rose → Nat
  | [] => 0
  | r :: rs => max r.depth (Rose.depths rs)
end

theorem u8_pack (v : Int) (h1 : 0 ≤ v) (h2 : v < 256) : u8.pack plat [.int v] = .ok [UInt8.ofNat v.toNat] := by
  have := C13_native_order (ch := 'B') (s := false) (w := 1) (by decide) plat v (by simp [Spec.InRange]; omega) .default (.inl rfl)
  have e : v % 256 = v := by omega
  simpa [Spec.digitsLE, e, plat, Spec.intSer, ByteOrder.value, u8] using this

theorem Rose.objs_length : ∀ rs : List Rose, (Rose.objs rs).length = rs.length
  | [] => rfl
  | _ :: rs => by simp [Rose.objs, Rose.objs_length rs]

mutual
theorem Rose.enc (n : Nat) : ∀ (r : Rose), r.small → 3 * r.depth ≤ n →
    ∃ tch ser, ser.sized = true ∧ encObj Samples.env (Sem.enc Samples.env n) r.obj = .ok (⟨r.bytes, tch⟩, ser)
  | .node v ks, h, hn => by
    simp only [Rose.small] at h
    simp only [Rose.depth] at hn
    obtain ⟨h1, h2, h3, h4⟩ := h
    obtain ⟨m, rfl⟩ : ∃ m, n = m + 3 := ⟨n - 3, by omega⟩
    obtain ⟨tch, hk⟩ := Rose.encAll (m + 1) ks h4 (by omega)
    refine ⟨[20] :: tch, .compound [2] [.struct u8, .array [20] (some u8) (.selfT [21]) (-1)], rfl, ?_⟩
    have e1 := u8_pack v h1 h2
    have e2 := u8_pack (ks.length : Int) (by omega) (by omega)
    have e2' : headerPackValues (some u8) (-1) (Rose.objs ks).length (Rose.bytesAll ks).length
        = .ok [.int ks.length] := by rw [Rose.objs_length]; rfl
    simp only [Rose.obj, tree, encObj]
    rw [Out.ofE_ok_bind (show objSer Samples.env 2 none = .ok _ from rfl)]
    simp only
    rw [Out.ofE_ok_bind (show pre _ _ = .ok (.specialized [2] ⟨2, false, [("val", .int v), ("kids", .list (Rose.objs ks))]⟩ _, none) from rfl)]
    simp only
    rw [Out.ofE_ok_bind (show getAttrs _ _ = .ok [.int v, .list (Rose.objs ks)] from rfl)]
    have e3 : Sem.enc Samples.env (m + 2) (.struct u8) none [.int v] = .ok ⟨[UInt8.ofNat v.toNat], []⟩ := by
      simp only [Sem.enc, show Samples.env.plat = plat from rfl, e1, encLeaf]
    have e4 : Sem.enc Samples.env (m + 2) (.array [20] (some u8) (.selfT [21]) (-1))
        (some ⟨2, false, [("val", .int v), ("kids", .list (Rose.objs ks))]⟩) [.list (Rose.objs ks)]
        = .ok ⟨UInt8.ofNat ks.length :: Rose.bytesAll ks, tch⟩ := by
      rw [Sem.enc]
      simp only
      rw [Out.ofE_ok_bind (show pre (.selfT [21]) _ = .ok (.structured [21] 2, none) from rfl)]
      simp only
      rw [Out.ofE_ok_bind (show first _ = .ok (.list (Rose.objs ks)) from rfl),
        Out.ofE_ok_bind (show pyIter (.list (Rose.objs ks)) = .ok (Rose.objs ks) from rfl), hk, Out.ok_bind]
      simp only
      rw [Out.ofE_ok_bind e2', Out.ofE_ok_bind (show packOpt Samples.env.plat (some u8) [.int ks.length] = _ from e2)]
      rfl
    have e5 : Sem.enc Samples.env (m + 3) (.specialized [2] ⟨2, false, [("val", .int v), ("kids", .list (Rose.objs ks))]⟩
        [.struct u8, .array [20] (some u8) (.selfT [21]) (-1)]) none [.int v, .list (Rose.objs ks)]
        = .ok ⟨(Rose.node v ks).bytes, [20] :: tch⟩ := by
      rw [Sem.enc]
      simp only [encLoop]
      rw [Out.ofE_ok_bind (show pre (.struct u8) _ = .ok (.struct u8, none) from rfl)]
      simp only
      rw [show List.take (Ser.struct u8).numValues [Val.int v, .list (Rose.objs ks)] = [.int v] from rfl, e3, Out.ok_bind,
        if_neg (by decide), Out.ofE_ok_bind (show pre (.array [20] (some u8) (.selfT [21]) (-1)) _ = .ok (_, some _) from rfl)]
      simp only
      rw [show List.take (Ser.array [20] (some u8) (.selfT [21]) (-1)).numValues
        (List.drop (Ser.struct u8).numValues [Val.int v, .list (Rose.objs ks)]) = [.list (Rose.objs ks)] from rfl, e4, Out.ok_bind,
        if_neg (by decide)]
      simp [Out.ok_bind, Rose.bytes, touch, Ser.keeper]
    rw [e5]; rfl
theorem Rose.encAll (n : Nat) : ∀ (rs : List Rose), Rose.smalls rs → 3 * Rose.depths rs + 1 ≤ n →
    ∃ tch, encItems (Sem.enc Samples.env n) (.structured [21] 2) none (Rose.objs rs) = .ok ⟨Rose.bytesAll rs, tch⟩
  | [], _, _ => ⟨[], rfl⟩
  | r :: rs, h, hn => by
    simp only [Rose.smalls] at h
    simp only [Rose.depths] at hn
    obtain ⟨m, rfl⟩ : ∃ m, n = m + 1 := ⟨n - 1, by omega⟩
    obtain ⟨t1, ser, hsz, h1⟩ := Rose.enc m r h.1 (by omega)
    obtain ⟨t2, h2⟩ := Rose.encAll (m + 1) rs h.2 (by omega)
    refine ⟨t1 ++ t2, ?_⟩
    simp only [Rose.objs, encItems]
    rw [Sem.enc, h1, Out.ok_bind]
    simp only
    rw [if_neg (by simp [hsz]), Out.ok_bind, if_neg (by decide), if_neg (by simp [Ser.keeper]), h2]
    rfl
end

mutual
/-- Every tree is representable. -/
theorem Rose.kept (t : Bool) : ∀ r : Rose, KeptObj Samples.env t false 2 r.obj r.obj
  | .node v ks => by
    rw [Rose.obj]
    refine .mk _ _ _ _ _ _ _ _ _ [.int v, .list (Rose.objs ks)]
      ([.int v] ++ ([.list (Rose.objs ks)] ++ [])) rfl rfl rfl rfl ?_ rfl
    refine .specialized _ _ _ _ _ _ _ _ _ _ ?_
    refine .cons _ _ _ _ _ _ _ _ _ _ _ _ _ _ _ rfl rfl (.struct _ _ _ _ _ _ _ (kept_struct_ints rfl rfl rfl rfl)) rfl ?_
    refine .cons _ _ _ _ _ _ _ _ _ _ _ _ _ _ _ rfl rfl
      (.array _ _ _ _ _ _ _ _ _ _ _ _ _ _ _ rfl rfl rfl rfl (Rose.keptAll t ks)) rfl ?_
    exact .nil _ _ _ _ _ _
theorem Rose.keptAll (t : Bool) : ∀ rs : List Rose,
    KeptItems Samples.env t (.structured [21] 2) (.structured [21] 2) none none (Rose.objs rs) (Rose.objs rs)
  | [] => .nil _ _ _ _
  | r :: rs => KeptItems.cons _ _ _ _ _ _ [r.obj] _ (.structured _ _ _ _ _ _ _ _ _ (Rose.kept t r)) (Rose.keptAll t rs)
end

/-- **C26** (a recursive class).  For the class

    class Tree(Structured):
        val: uint8
        kids: array[Header[uint8], Self]

every tree, of every shape and depth, with labels and numbers of children below 256, packs to its preorder
bytes within every recursion limit of three per level, and is read back from them by all three unpacking methods,
whatever ran before and whatever follows in the data. -/
theorem C26_tree (r : Rose) (h : r.small) (n : Nat) (hn : 3 * r.depth ≤ n) (st : St) (front rest : Bytes) :
    result (Obj.pack Samples.env n r.obj st) = .ok r.bytes ∧
    result (createUnpack Samples.env n 2 (.buf (r.bytes ++ rest)) st) = .ok r.obj ∧
    result (createUnpack Samples.env n 2 (.at (front ++ r.bytes ++ rest) front.length) st) = .ok r.obj ∧
    (st.io.data.drop st.io.pos = r.bytes ++ rest →
      ∃ st', createUnpack Samples.env n 2 .io st = .ok r.obj st' ∧ st'.io.pos = st.io.pos + r.bytes.length) := by
  obtain ⟨tch, ser, _, h1⟩ := r.enc n h hn
  obtain ⟨st', h2⟩ := objPack_ok h1 st
  have hc := calm_of_plain samples_plain r.obj.nodes
  refine ⟨by rw [h2]; rfl, ?_, ?_, fun hs => ?_⟩
  · obtain ⟨s, g, _⟩ := C01_partial Samples.env true false n 2 _ _ hc (r.kept true) st st' _ h2 rest (by simp) st
    rw [g]; rfl
  · exact C01_from_partial Samples.env false n 2 _ _ hc (r.kept false) st st' _ h2 front rest (by simp) st
  · obtain ⟨s, g1, _, g2⟩ := C01_read_partial Samples.env true false n 2 _ _ hc (r.kept true) st st' _ h2 rest (by simp) st hs
    exact ⟨s, g1, g2⟩

example : (Rose.node 1 [.node 2 [], .node 3 [.node 4 []]]).bytes = [1, 2, 2, 0, 3, 1, 4, 0] ∧
    (Rose.node 1 [.node 2 [], .node 3 [.node 4 []]]).depth = 3 ∧ (Rose.node 1 [.node 2 [], .node 3 [.node 4 []]]).small := by
  refine ⟨by decide, by decide, ?_⟩
  simp [Rose.small, Rose.smalls]

/-! ### C01 is false in full

    class Cells(Structured):                             # 0
        cells: array[Header[uint8], uint32]
    class Pair(Structured):                              # 1
        pair: tuple[uint8, char[uint8]]
    class Text(Structured):                              # 2
        text: unicode[4]
    class Empty(Structured):                             # 3
        text: char[uint8]
-/

/-- ASCII. -/
def asciiEnc : Val → Except Err Bytes
  | .str cs => if cs.all (· < 128) then .ok (cs.map UInt8.ofNat) else .error .valueError
  | _ => .error .attributeError

def asciiDec (b : Bytes) : Except Err (List Nat) :=
  if b.all (· < 128) then .ok (b.map UInt8.toNat) else .error .valueError

def lossyClasses : ClassId → Option ClassInfo
  | 0 => some { attrs := ["cells"], byteOrder := .default, serializer := .dynArr [1] u8 ⟨['I'], none⟩ }
  | 1 => some
    { attrs := ["pair"], byteOrder := .default
      serializer := .tuple [2] (.compound [3] [.struct u8, .dynChar [4] u8]) }
  | 2 => some
    { attrs := ["text"], byteOrder := .default
      serializer := .unicode (.struct ⟨"4s".toList, none⟩) asciiEnc asciiDec }
  | 3 => some { attrs := ["text"], byteOrder := .default, serializer := .dynChar [5] u8 }
  | _ => none

def lossyEnv : Env := ⟨plat, lossyClasses⟩

/-- **C01 is false in full** (arrays of numbers).  Count and items are packed as one native struct, with padding
between them, but are read one after the other: `[1]` comes back as `[16777216]`. -/
theorem C01_full_is_false : ∃ (env : Env) (v : Val) (b : Bytes) (st : St),
    result (Obj.pack env 9 v st) = .ok b ∧ b = [1, 0, 0, 0, 1, 0, 0, 0] ∧
    result (Obj.pack env 9 v st) ≠ result (Obj.pack env 9 (.obj 0 none [("cells", .list [.int 16777216])]) st) ∧
    v = .obj 0 none [("cells", .list [.int 1])] ∧
    result (createUnpack env 9 0 (.buf b) st) = .ok (.obj 0 none [("cells", .list [.int 16777216])]) := by
  refine ⟨lossyEnv, _, _, st0, by rfl, rfl, ?_, rfl, by rfl⟩
  intro h
  have : ([1, 0, 0, 0, 1, 0, 0, 0] : Bytes) = [1, 0, 0, 0, 0, 0, 0, 1] := Except.ok.inj h
  cases this

/-- **C01 is false in full** (tuples).  A tuple of several serializers comes back as a generator, not as a tuple. -/
theorem C01_tuple_is_false : ∃ (env : Env) (v : Val) (b : Bytes) (st : St),
    v = .obj 1 none [("pair", .tup [.int 7, .bytes [65]])] ∧ result (Obj.pack env 9 v st) = .ok b ∧
    result (createUnpack env 9 1 (.buf b) st) = .ok (.obj 1 none [("pair", .gen)]) :=
  ⟨lossyEnv, _, [7, 1, 65], st0, rfl, by rfl, by rfl⟩

/-- **C01 is false in full** (text).  A NUL at the end of the text is lost, whatever the size of the field. -/
theorem C01_text_is_false : ∃ (env : Env) (v : Val) (b : Bytes) (st : St),
    v = .obj 2 none [("text", .str [65, 66, 67, 0])] ∧ result (Obj.pack env 9 v st) = .ok b ∧
    result (createUnpack env 9 2 (.buf b) st) = .ok (.obj 2 none [("text", .str [65, 66, 67])]) :=
  ⟨lossyEnv, _, [65, 66, 67, 0], st0, rfl, by rfl, by rfl⟩

/-- **C01 is false in full** (empty strings).  An empty length-prefixed string cannot be packed at all, although
its bytes can be unpacked. -/
theorem C01_empty_is_false : ∃ (env : Env) (v : Val) (st : St),
    v = .obj 3 none [("text", .bytes [])] ∧ result (Obj.pack env 9 v st) = .error .structError ∧
    result (createUnpack env 9 3 (.buf [0]) st) = .ok v :=
  ⟨lossyEnv, _, st0, rfl, by rfl, by rfl⟩

/-- **C01 is false in full** (instance byte order).  An instance with a byte order of its own packs with it, on its
own and as a field of another object, but `create_unpack` knows only the class: `0x0102` comes back as `0x0201`. -/
theorem C01_byte_order_is_false : ∃ (env : Env) (v w : Val) (st : St),
    v = .obj 0 (some .be) [("x", .int 0x0102), ("y", .int 3)] ∧
    w = msg 1 [65] [v] ∧
    result (Obj.pack env 9 v st) = .ok [1, 2, 3] ∧
    result (createUnpack env 9 0 (.buf [1, 2, 3]) st) = .ok (point 0x0201 3) ∧
    result (Obj.pack env 9 w st) = .ok [1, 1, 65, 1, 1, 2, 3] ∧
    result (createUnpack env 9 1 (.buf [1, 1, 65, 1, 1, 2, 3]) st) = .ok (msg 1 [65] [point 0x0201 3]) :=
  ⟨Samples.env, _, _, st0, rfl, rfl, by rfl, by rfl, by rfl, by rfl⟩

end Verif
