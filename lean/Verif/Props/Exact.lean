import Verif.Proofs.ExactMain
import Verif.Props.History
import Verif.Props.Packing
/-
C50: unpacking bytes and packing the object again reproduces the bytes.
-/
namespace Verif
open Sem Samples

variable {env : Env}

theorem createUnpack_back {k t : Bool} {own : ClassId → List SerId} (hs : env.settled own) (hE : env.exact k t) {n : Nat} {cls : ClassId}
    {ci : ClassInfo} (hci : env.classes cls = some ci) {src : Src} {b : Bytes} {st st' : St} {v : Val} (hv : Views (src.sem st) b)
    (ht : t = true → (src.sem st).isAt = false) (hk : k = true → (src.sem st).isBuf = true ∧ ∀ sz, ci.serializer.readSize st' = .ok sz st' → sz ≤ b.length)
    (hz : k = true → ci.serializer.sized = true) (h : createUnpack env n cls src st = .ok v st') :
    ∃ size, (ci.serializer.sized = true → ci.serializer.readSize st' = .ok size st') ∧ size ≤ b.length ∧ Adv src ((src.sem st).ahead size) st st' ∧
      ∀ s, (∃ s', Obj.pack env n v s = .ok (b.take size) s') ∨ (k = true ∧ ∃ e s', Obj.pack env n v s = .err e s') := by
  obtain ⟨r, ser, h1, h2, h3⟩ := createUnpack_inv hs h
  obtain ⟨ci', hc', rfl⟩ := decObj_ser h1
  rw [hci] at hc'
  cases hc'
  obtain ⟨g1, g2, g3⟩ := obj_exact hE (fun m _ => restore hE m) hv ht (fun hk' => ⟨(hk hk').1, (hk hk').2 _ (h3 (hz hk'))⟩) h1
  refine ⟨r.size, h3, g1, g2 ▸ h2, fun s => ?_⟩
  rcases g3 with g3 | ⟨hk', e, g3⟩
  · exact .inl (objPack_ok g3 s)
  · have h4 := objPack_rel (env := env) (pack_rel env n) v s
    rw [g3] at h4
    obtain ⟨s', h4, _⟩ := h4
    refine .inr ⟨hk', e, s', ?_⟩
    simp only [Obj.pack, bind, M.bind, h4]

/-- **C50** (buffers, partial).  Unpacking any bytes and packing the object again reproduces exactly the bytes that were used, for
programs of exact types: no padding, booleans, pascal strings, short floats, transformations, `char[char.NET]`, fixed size or
counted text, counted strings and arrays of `char[uint*]`/`array[uint*, T]` (for these see `C50_counted_partial`), no lookahead
unions, and no `__post_init__`; deciders and conditions may only look at earlier fields.  With most of these it is false
(`C50_full_is_false` and the others below). -/
theorem C50_buffer_partial {own : ClassId → List SerId} (hs : env.settled own) (hE : env.exact false true) {n : Nat} {cls : ClassId}
    {ci : ClassInfo} (hci : env.classes cls = some ci) {b : Bytes} {st st' : St} {v : Val} (h : createUnpack env n cls (.buf b) st = .ok v st') :
    ∃ size, (ci.serializer.sized = true → ci.serializer.readSize st' = .ok size st') ∧ size ≤ b.length ∧
      ∀ s, ∃ s', Obj.pack env n v s = .ok (b.take size) s' := by
  obtain ⟨size, h1, h2, _, h3⟩ := createUnpack_back hs hE hci (src := .buf b) (st := st) (b := b) rfl (fun _ => rfl) (by simp) (by simp) h
  exact ⟨size, h1, h2, fun s => (h3 s).elim (fun h => h) (fun h => nomatch h.1)⟩

/-- **C50** (streams, partial).  The same for streams: packing gives the bytes between the old and the new position. -/
theorem C50_stream_partial {own : ClassId → List SerId} (hs : env.settled own) (hE : env.exact false true) {n : Nat} {cls : ClassId}
    {ci : ClassInfo} (hci : env.classes cls = some ci) {st st' : St} {v : Val} (h : createUnpack env n cls .io st = .ok v st') :
    st.io.pos ≤ st'.io.pos ∧ st'.io.data = st.io.data ∧
      ∀ s, ∃ s', Obj.pack env n v s = .ok ((st.io.data.take st'.io.pos).drop st.io.pos) s' := by
  obtain ⟨size, h1, h2, h4, h3⟩ := createUnpack_back hs hE hci (src := .io) (st := st) (b := st.io.data.drop st.io.pos) rfl (fun _ => rfl) (by simp) (by simp) h
  have hp : st'.io.pos = st.io.pos + size := h4.ioPos rfl
  refine ⟨by omega, h4.data, fun s => ?_⟩
  rw [hp, List.drop_take, Nat.add_sub_cancel_left]
  exact (h3 s).elim (fun h => h) (fun h => nomatch h.1)

/-- **C50** (offsets, partial).  The same at an offset, without terminated strings (whose `unpack_from` reports a wrong size,
`C03_full_is_false`). -/
theorem C50_from_partial {own : ClassId → List SerId} (hs : env.settled own) (hE : env.exact false false) {n : Nat} {cls : ClassId}
    {ci : ClassInfo} (hci : env.classes cls = some ci) {b : Bytes} {off : Nat} (ho : off ≤ b.length) {st st' : St} {v : Val}
    (h : createUnpack env n cls (.at b off) st = .ok v st') :
    ∃ size, (ci.serializer.sized = true → ci.serializer.readSize st' = .ok size st') ∧ off + size ≤ b.length ∧
      ∀ s, ∃ s', Obj.pack env n v s = .ok ((b.drop off).take size) s' := by
  obtain ⟨size, h1, h2, _, h3⟩ := createUnpack_back hs hE hci (src := .at b off) (st := st) (b := b.drop off) ⟨ho, rfl⟩ (by simp) (by simp) (by simp) h
  rw [List.length_drop] at h2
  exact ⟨size, h1, by omega, fun s => (h3 s).elim (fun h => h) (fun h => nomatch h.1)⟩

/-- **C50** (in place, partial).  Unpacking from a buffer and packing into it at the same offset leaves the buffer as it was. -/
theorem C50_in_place_partial {own : ClassId → List SerId} (hs : env.settled own) (hE : env.exact false false) {n : Nat} {cls : ClassId}
    {ci : ClassInfo} (hci : env.classes cls = some ci) {b : Bytes} {off : Nat} (ho : off ≤ b.length) {st st' : St} {v : Val}
    (h : createUnpack env n cls (.at b off) st = .ok v st') (s : St) (hb : s.buf = b) :
    ∃ s', Obj.packInto env n off v s = .ok () s' ∧ s'.buf = b := by
  obtain ⟨size, _, h2, h3⟩ := C50_from_partial hs hE hci ho h
  obtain ⟨s1, h4⟩ := h3 s
  have hl : ((b.drop off).take size).length = size := by rw [List.length_take, List.length_drop]; omega
  obtain ⟨s2, h5, h6, _⟩ := C02_pack_into_fits env n off v s s1 _ h4 (by rw [hl, hb]; exact h2)
  refine ⟨s2, h5, ?_⟩
  rw [h6, hl, hb, List.append_assoc, ← List.drop_drop, List.take_append_drop, List.take_append_drop]

/-- **C50** (streams, in place, partial).  Reading from a stream, going back and writing the object leaves the stream as it was,
at the same position. -/
theorem C50_rewrite_partial {own : ClassId → List SerId} (hs : env.settled own) (hE : env.exact false true) {n : Nat} {cls : ClassId}
    {ci : ClassInfo} (hci : env.classes cls = some ci) {st st' : St} {v : Val} (h : createUnpack env n cls .io st = .ok v st')
    (s : St) (hio : s.io = st.io) : ∃ s', Obj.packWrite env n v s = .ok () s' ∧ s'.io = st'.io := by
  obtain ⟨size, h1, h2, h4, h3⟩ := createUnpack_back hs hE hci (src := .io) (st := st) (b := st.io.data.drop st.io.pos) rfl (fun _ => rfl) (by simp) (by simp) h
  have hp : st'.io.pos = st.io.pos + size := h4.ioPos rfl
  have hd : st'.io.data = st.io.data := h4.data
  rcases h3 s with ⟨s1, h5⟩ | h5
  · have hw := C02_pack_write env n v s
    rw [h5] at hw
    obtain ⟨s2, g1, g2, _⟩ := hw
    refine ⟨s2, g1, ?_⟩
    rw [g2, hio]
    have hl : ((st.io.data.drop st.io.pos).take size).length = size := by rw [List.length_take]; omega
    have e : st'.io = ⟨st.io.data, st.io.pos + size⟩ := by
      have : st'.io = ⟨st'.io.data, st'.io.pos⟩ := rfl
      rw [this, hp, hd]
    rw [e]
    unfold Stream.write
    by_cases h0 : (st.io.data.drop st.io.pos).take size = []
    · rw [if_pos h0]
      rw [h0] at hl
      rw [← hl]; rfl
    · rw [if_neg h0, hl]
      rw [List.length_drop] at h2
      have : size ≠ 0 := by rintro rfl; simp at h0
      have hz : st.io.pos - st.io.data.length = 0 := by omega
      rw [hz, List.replicate_zero, List.append_nil, List.append_assoc, ← List.drop_drop, List.take_append_drop, List.take_append_drop]
  · cases h5.1

/-- **C50** (counted strings and arrays, partial).  With `char[uint*]` and `array[uint*, T]`, if the reported size fits the buffer
and packing succeeds, then it reproduces the bytes.  (Packing fails for empty strings, `C50_empty_is_false`; the size does not fit
if a string is cut off, `C50_cut_is_false`; on streams it is false, `C50_stream_is_false`.) -/
theorem C50_counted_partial {own : ClassId → List SerId} (hs : env.settled own) (hE : env.exact true true) {n : Nat} {cls : ClassId}
    {ci : ClassInfo} (hci : env.classes cls = some ci) (hz : ci.serializer.sized = true) {b : Bytes} {st st' : St} {v : Val} {size : Nat}
    (h : createUnpack env n cls (.buf b) st = .ok v st') (hsz : ci.serializer.readSize st' = .ok size st') (hl : size ≤ b.length)
    {s s' : St} {b' : Bytes} (hp : Obj.pack env n v s = .ok b' s') : b' = b.take size := by
  obtain ⟨sz, h1, h2, _, h3⟩ := createUnpack_back hs hE hci (src := .buf b) (st := st) (b := b) rfl (fun _ => rfl) (fun _ => ⟨rfl, fun x hx => by
    rw [hsz] at hx; cases hx; exact hl⟩) (fun _ => hz) h
  rw [h1 hz] at hsz
  cases hsz
  rcases h3 s with ⟨s1, h4⟩ | ⟨_, e, s1, h4⟩
  · rw [hp] at h4; cases h4; rfl
  · rw [hp] at h4; cases h4

/-! ### Concrete programs -/

theorem kindOf_sees {names : List Name} (h : "kind" ∈ names) : Sees names kindOf := by
  intro p q _ hq
  unfold kindOf
  rw [hq _ h]

/-- All the sample classes, on buffers. -/
theorem samples_exact : Samples.env.exact true true := by
  intro c ci h
  match c with
  | 0 => cases h; exact ⟨by decide, rfl, by simp only [Ser.exact]; rfl⟩
  | 1 =>
    cases h
    refine ⟨by decide, rfl, ?_⟩
    simp only [exactParts, Ser.exact, Ser.yields, Ser.numValues]
    decide
  | 2 =>
    cases h
    refine ⟨by decide, rfl, ?_⟩
    simp only [exactParts, Ser.exact, Ser.yields, Ser.numValues]
    decide
  | 3 => cases h; exact ⟨by decide, rfl, by simp only [Ser.exact]⟩
  | 4 =>
    cases h
    refine ⟨by decide, rfl, ?_⟩
    simp only [Ser.exact]
    exact ⟨fun _ _ _ _ => rfl, rfl, rfl, trivial, rfl⟩
  | 5 =>
    cases h
    refine ⟨by decide, rfl, ?_⟩
    simp only [exactParts, Ser.exact, Ser.yields, Ser.numValues]
    decide
  | 6 =>
    cases h
    refine ⟨by decide, rfl, ?_⟩
    simp only [exactParts, Ser.exact, Ser.exactOpts, Ser.yields, Ser.numValues]
    refine ⟨by decide, by decide, trivial, ⟨kindOf_sees (by decide), by decide, trivial, trivial⟩, by decide, by decide, trivial⟩
  | c + 7 => cases h

example : result (createUnpack Samples.env 9 1 (.buf [5, 2, 1, 2, 1, 2, 1, 255, 77]) st0) = .ok (msg 5 [1, 2] [point 258 (-1)]) ∧
    result (Obj.pack Samples.env 9 (msg 5 [1, 2] [point 258 (-1)]) st0) = .ok [5, 2, 1, 2, 1, 2, 1, 255] := ⟨by rfl, by rfl⟩

/-- A toy `latin-1`. -/
def latinEnc : Val → Except Err Bytes
  | .str s => .ok (s.map UInt8.ofNat)
  | _ => .error .attributeError

def latinDec (b : Bytes) : Except Err PyStr := .ok (b.map UInt8.toNat)

theorem latin_undone : UndoneBy 0 latinEnc latinDec := by
  intro b s hb h
  cases h
  have hr : rstripNul (b.map UInt8.toNat) = b.map UInt8.toNat := by
    unfold rstripNul
    have : (b.map UInt8.toNat).reverse.dropWhile (· == 0) = (b.map UInt8.toNat).reverse := by
      cases hrev : (b.map UInt8.toNat).reverse with
      | nil => rfl
      | cons x xs =>
        have hx : x ∈ b.map UInt8.toNat := List.mem_reverse.1 (by rw [hrev]; simp)
        obtain ⟨y, hy, rfl⟩ := List.mem_map.1 hx
        have : y.toNat ≠ 0 := by
          intro h0
          have : y = 0 := UInt8.toNat_inj.1 h0
          exact hb (this ▸ hy)
        rw [List.dropWhile_cons_of_neg (by simpa using this)]
    rw [this, List.reverse_reverse]
  rw [hr]
  simp [latinEnc, Function.comp_def]

/-- `extra` is there if `kind` is 1. -/
def kindIsOne : Decider := fun p => match getAttr? p.attrs "kind" with
  | some v => .ok (.bool (v.keyEq (.int 1)))
  | none => .error .attributeError

/--
    class Point(Structured, byte_order=LITTLE_ENDIAN):   # 0
        x: uint16
        y: int8
    class Tree(Structured):                              # 2
        val: uint8
        kids: array[Header[uint8], Self]
    class Shape(Structured):                             # 7
        kind: uint8
        body: Annotated[uint8 | Point | array[Header[uint8, uint8], Point], LookbackDecider(lambda o: o.kind, {0: uint8, 1: Point, 2: array[...]})]
        extra: Annotated[uint8, Condition(lambda o: o.kind == 1, 7)]
        pair: tuple[uint8, uint8]
        tree: Tree
        rest: char[math.inf]
    class Word(Structured):                              # 8, if `t`
        text: unicode[char[b'\0'], 'latin-1']
        name: char[b'\0']
        n: uint8
-/
def exactClasses (t : Bool) : ClassId → Option ClassInfo
  | 0 => Samples.classes 0
  | 2 => Samples.classes 2
  | 7 => some
    { attrs := ["kind", "body", "extra", "pair", "tree", "rest"], byteOrder := .default
      serializer := .compound [7] [.struct u8,
        .lookback [70] kindOf [.int 0, .int 1, .int 2]
          [.struct u8, .structured [71] 0, .array [72] (some ⟨['B', 'B'], none⟩) (.structured [73] 0) (-1)] .null,
        .cond (.struct u8) kindIsOne [.int 7], .tuple [74] (.struct ⟨['B', 'B'], none⟩), .structured [75] 2, .consuming [76]] }
  | 8 => if t then some
    { attrs := ["text", "name", "n"], byteOrder := .default
      serializer := .compound [8] [.unicode (.terminated [80] 0) latinEnc latinDec, .terminated [81] 0, .struct u8] } else none
  | _ => none

def exactEnv (t : Bool) : Env := ⟨plat, exactClasses t⟩

theorem exactEnv_exact (k t : Bool) : (exactEnv t).exact k t := by
  intro c ci h
  match c with
  | 0 => cases h; exact ⟨by decide, rfl, by simp only [Ser.exact]; rfl⟩
  | 2 =>
    cases h
    refine ⟨by decide, rfl, ?_⟩
    simp only [exactParts, Ser.exact, Ser.yields, Ser.numValues]
    decide
  | 7 =>
    cases h
    refine ⟨by decide, rfl, ?_⟩
    simp only [exactParts, Ser.exact, Ser.exactOpts, Ser.yields, Ser.numValues]
    refine ⟨by decide, by decide, trivial, ⟨kindOf_sees (by decide), by decide, trivial, trivial⟩, by decide,
      ⟨?_, by decide, by decide, trivial, by decide⟩, trivial, by decide, by decide⟩
    intro p q _ hq
    unfold kindIsOne
    rw [hq _ (by decide)]
  | 8 =>
    cases t with
    | false => cases h
    | true =>
      cases h
      refine ⟨by decide, rfl, ?_⟩
      simp only [exactParts, Ser.exact, Ser.yields, Ser.numValues]
      exact ⟨by decide, ⟨trivial, latin_undone⟩, by decide, trivial, by decide, by decide, trivial⟩
  | 1 | 3 | 4 | 5 | 6 => cases h
  | c + 9 => cases h

def exactOwn : ClassId → List SerId
  | 2 => [[20]]
  | 7 => [[20], [70], [72], [74]]
  | _ => []

theorem exactEnv_settled (t : Bool) : (exactEnv t).settled exactOwn := by
  intro c ci h
  match c with
  | 0 | 2 | 7 =>
    cases h
    refine ⟨rfl, rfl, ?_, ?_⟩ <;> decide
  | 8 =>
    cases t with
    | false => cases h
    | true =>
      cases h
      refine ⟨rfl, rfl, ?_, ?_⟩ <;> decide
  | 1 | 3 | 4 | 5 | 6 => cases h
  | c + 9 => cases h

def shape (kind : Int) (body : Val) (extra : Int) (x y : Int) (tr : Val) (rest : Bytes) : Val :=
  .obj 7 none [("kind", .int kind), ("body", body), ("extra", .int extra), ("pair", .tup [.int x, .int y]), ("tree", tr), ("rest", .bytes rest)]

example : result (createUnpack (exactEnv false) 9 7 (.at [99, 2, 1, 3, 5, 0, 6, 8, 9, 3, 1, 4, 0, 50, 51] 1) st0) =
      .ok (shape 2 (.list [point 5 6]) 7 8 9 (tree 3 [tree 4 []]) [50, 51]) ∧
    result (Obj.pack (exactEnv false) 9 (shape 2 (.list [point 5 6]) 7 8 9 (tree 3 [tree 4 []]) [50, 51]) st0) =
      .ok [2, 1, 3, 5, 0, 6, 8, 9, 3, 1, 4, 0, 50, 51] := ⟨by rfl, by rfl⟩

example : result (createUnpack (exactEnv true) 9 7 (.buf [1, 5, 0, 6, 10, 8, 9, 3, 0]) st0) =
      .ok (shape 1 (point 5 6) 10 8 9 (tree 3 []) []) := by rfl

example : result (createUnpack (exactEnv true) 9 8 .io { st0 with io := ⟨[104, 105, 0, 0, 7, 99], 0⟩ }) =
      .ok (.obj 8 none [("text", .str [104, 105]), ("name", .bytes []), ("n", .int 7)]) := by rfl

/-! ### Where it fails -/

/-- Unpacks the bytes and packs the object again. -/
def again (env : Env) (cls : ClassId) (src : Src) (st : St) : Except Err Bytes :=
  result ((do Obj.pack env 9 (← createUnpack env 9 cls src)) st)

def onlyField (s : Ser) : Env := ⟨plat, fun _ => some { attrs := ["x"], serializer := s, byteOrder := .default }⟩

/-- **C50 is false in full** (booleans).  The byte 2 is read as `True`, which is packed as 1. -/
theorem C50_full_is_false : again (onlyField (.struct ⟨['?'], none⟩)) 0 (.buf [2]) st0 = .ok [1] := by rfl

/-- **C50 is false in full** (padding).  Pad bytes are not kept; neither are the bytes between aligned fields. -/
theorem C50_pad_is_false : again (onlyField (.struct ⟨"xB".toList, none⟩)) 0 (.buf [9, 5]) st0 = .ok [0, 5] ∧
    again ⟨plat, fun _ => some { attrs := ["x", "y"], serializer := .struct ⟨"BH".toList, none⟩, byteOrder := .default }⟩ 0 (.buf [1, 9, 5, 0]) st0 = .ok [1, 0, 5, 0] :=
  ⟨by rfl, by rfl⟩

/-- **C50 is false in full** (pascal strings).  The bytes behind the string are not kept. -/
theorem C50_pascal_is_false : again (onlyField (.struct ⟨"4p".toList, none⟩)) 0 (.buf [1, 65, 8, 9]) st0 = .ok [1, 65, 0, 0] := by rfl

/-- **C50 is false in full** (text).  NULs at the end of a text are removed, so that a counted text becomes shorter. -/
theorem C50_text_is_false : again (onlyField (.unicode (.dynChar [1] u8) latinEnc latinDec)) 0 (.buf [3, 65, 0, 0]) st0 = .ok [1, 65] := by rfl

/-- **C50 is false in full** (`char[char.NET]`).  A short string with a long length marker gets a short one. -/
theorem C50_net_is_false : again (onlyField (.net [1])) 0 (.buf [129, 0, 65]) st0 = .ok [1, 65] := by rfl

/-- **C50 is false in full** (empty `char[uint8]`).  An empty counted string can be unpacked but not packed. -/
theorem C50_empty_is_false : ∃ e, result (createUnpack (onlyField (.dynChar [1] u8)) 9 0 (.buf [0]) st0) = .ok (.obj 0 none [("x", .bytes [])]) ∧
    again (onlyField (.dynChar [1] u8)) 0 (.buf [0]) st0 = .error e := ⟨_, by rfl, by rfl⟩

/-- **C50 is false in full** (cut strings).  A counted string that is cut off is unpacked, and packed with the shorter count. -/
theorem C50_cut_is_false : again (onlyField (.dynChar [1] u8)) 0 (.buf [3, 65]) st0 = .ok [1, 65] := by rfl

/-- **C50 is false in full** (streams).  Reading `array[Header[uint8], char[uint8]]` from a stream drops the empty strings, and
the array is packed with fewer items. -/
theorem C50_stream_is_false : again (onlyField (.array [1] (some u8) (.dynChar [2] u8) (-1))) 0 .io { st0 with io := ⟨[2, 0, 1, 65], 0⟩ } = .ok [1, 1, 65] := by rfl

/-- **C50 is false in full** (lookahead unions).  The member is chosen by the bytes when unpacking, and by the object when packing. -/
theorem C50_lookahead_is_false : again (onlyField (.lookahead [1] (.struct u8) (fun _ => .ok (.int 1)) [.int 0, .int 1]
    [.struct u8, .struct ⟨"<H".toList, none⟩] .null)) 0 (.buf [0, 9]) st0 = .ok [0, 0] := by rfl

end Verif
