import Verif.Proofs.ReadLift
import Verif.Proofs.ReadTrim
import Verif.Props.History
/-
Properties of reading: the three unpacking methods agree (C03), the size attribute is the number of
bytes consumed (C04), bytes after the object are ignored (C06).
-/
namespace Verif
open Sem Samples

variable (env : Env)

/-! ### C03 -/

/-- **C03** (`create_unpack_from`, partial).  For programs without length-prefixed and terminated
strings, `create_unpack_from(x, off)` returns the object or raises the exception of
`create_unpack(x[off:])`, whatever ran before each of them.  Missing: those strings; for terminated ones
it is false (`C03_full_is_false`), for length-prefixed ones see `C03_strings_partial`. -/
theorem C03_from_partial (own : ClassId → List SerId) (hs : env.settled own) (hst : env.steady false) (n : Nat)
    (cls : ClassId) (x : Bytes) (off : Nat) (hoff : off ≤ x.length) (st1 st2 : St) :
    result (createUnpack env n cls (.at x off) st1) = result (createUnpack env n cls (.buf (x.drop off)) st2) := by
  have hv : Views (.at x off) (x.drop off) := ⟨hoff, rfl⟩
  obtain ⟨e1, _⟩ := decObj_same hst (dec_same hst n) hv (by simp) cls
  rcases createUnpack_result hs (n := n) (cls := cls) (src := .buf (x.drop off)) (st := st2) with
    ⟨v, r, ser, h1, h2, _⟩ | ⟨e, h1, h2⟩
  · simp only [Src.sem] at h1
    rw [h1] at e1
    obtain ⟨s', h3, _⟩ := createUnpack_ok (src := .at x off) (st := st1) e1
    rw [h2, h3]; rfl
  · simp only [Src.sem] at h1
    rw [h1] at e1
    obtain ⟨s', h3⟩ := createUnpack_err (src := .at x off) (st := st1) e1
    rw [h2, h3]; rfl

/-- **C03** (`create_unpack_read`, partial).  For programs without length-prefixed strings,
`create_unpack_read(stream)` returns the object or raises the exception of `create_unpack` on the
remaining bytes; after success the stream content is the same and its position has moved by the size
the serializer reports for `create_unpack`, within the data.  Missing: length-prefixed strings, see
`C03_strings_partial`. -/
theorem C03_read_partial (own : ClassId → List SerId) (hs : env.settled own) (hst : env.steady true) (n : Nat)
    (cls : ClassId) (st1 st2 : St) :
    result (createUnpack env n cls .io st1)
      = result (createUnpack env n cls (.buf (st1.io.data.drop st1.io.pos)) st2) ∧
    ∀ v st1', createUnpack env n cls .io st1 = .ok v st1' →
      st1'.io.data = st1.io.data ∧ ∃ k, k ≤ (st1.io.data.drop st1.io.pos).length ∧ st1'.io.pos = st1.io.pos + k ∧
        ∀ ci, env.classes cls = some ci → ci.serializer.sized = true →
          result (ci.serializer.readSize (after (createUnpack env n cls (.buf (st1.io.data.drop st1.io.pos)) st2))) = .ok k := by
  have hv : Views (.io st1.io.data st1.io.pos) (st1.io.data.drop st1.io.pos) := rfl
  obtain ⟨e1, e2⟩ := decObj_same hst (dec_same hst n) hv (by simp [PSrc.isAt]) cls
  have hq := (decObj_quiet hs (dec_quiet hs n) cls (.buf (st1.io.data.drop st1.io.pos))).1
  cases h1 : decObj env (dec env n) cls (.buf (st1.io.data.drop st1.io.pos)) with
  | stuck => exact absurd h1 hq
  | err e =>
    rw [h1] at e1
    obtain ⟨s', h3⟩ := createUnpack_err (src := .io) (st := st1) e1
    obtain ⟨s2, h4⟩ := createUnpack_err (src := .buf (st1.io.data.drop st1.io.pos)) (st := st2) h1
    rw [h3, h4]
    exact ⟨rfl, fun v st1' h => by cases h⟩
  | ok x =>
    obtain ⟨v, r, ser⟩ := x
    have hl := e2 v r ser h1
    rw [h1] at e1
    obtain ⟨s', h3, h5, _⟩ := createUnpack_ok (src := .io) (st := st1) e1
    obtain ⟨s2, h4, _, h6⟩ := createUnpack_ok (src := .buf (st1.io.data.drop st1.io.pos)) (st := st2) h1
    rw [h3, h4]
    refine ⟨rfl, fun v' st1' h => ?_⟩
    cases h
    refine ⟨h5.data, r.size, hl, h5.ioPos rfl, fun ci hci hsz => ?_⟩
    obtain ⟨ci', hc', rfl⟩ := decObj_ser h1
    rw [hci] at hc'; cases hc'
    have := h6 hsz
    simp only [after]
    rw [this]; rfl

/-- **C03 and C06** (length-prefixed strings, partial).  If `create_unpack(b)` returns an object without
empty strings and the serializer reports a size within `b`, then the same object is returned from every
buffer, buffer at an offset or stream that shows `b` first, whatever follows it (nothing when the program
has read-to-end strings), and a stream is left just after the bytes reported.  Missing: empty strings,
truncated input and terminated strings at an offset, where it is false (`C03_full_is_false`,
`C03_empty_is_false`, `C08_full_is_false`), `__post_init__`, and classes with a single `Condition` field,
which have no size. -/
theorem C03_strings_partial (own : ClassId → List SerId) (hs : env.settled own) (k : Allow) (hk : env.allowed k)
    (hcod : k.codec = false) (hpeek : k.peek = false) (hpost : env.noPost) (n : Nat) (cls : ClassId) (ci : ClassInfo)
    (hci : env.classes cls = some ci) (hsz : ci.serializer.sized = true) (b rest : Bytes) (v : Val) (st1 st1' : St)
    (h : createUnpack env n cls (.buf b) st1 = .ok v st1') (hne : v.noEmpty = true)
    (size : Nat) (hsize : ci.serializer.readSize st1' = .ok size st1') (hl : size ≤ b.length)
    (src : Src) (st2 : St) (hv : Views (src.sem st2) (b ++ rest)) (hcons : k.cons = true → rest = [])
    (hterm : k.term = true → (src.sem st2).isAt = false) :
    ∃ st2', createUnpack env n cls src st2 = .ok v st2' ∧ st2'.io.data = st2.io.data ∧
      (src = .io → st2'.io.pos = st2.io.pos + size) ∧ ci.serializer.readSize st2' = .ok size st2' := by
  obtain ⟨r, ser, h1, _, h3⟩ := createUnpack_inv hs h
  obtain ⟨ci', hc', rfl⟩ := decObj_ser h1
  rw [hci] at hc'; cases hc'
  have := h3 hsz
  rw [hsize] at this
  cases this
  have e := decObj_ext hk (dec_ext hk n) hv ⟨hcons, hterm, fun _ => hcod, fun _ => hpost, fun h => by rw [hpeek] at h; cases h⟩ h1 hl (fun _ => hne)
  obtain ⟨st2', g1, g2, g3⟩ := createUnpack_ok (src := src) (st := st2) e
  refine ⟨st2', g1, g2.data, ?_, g3 hsz⟩
  rintro rfl
  exact g2.ioPos rfl

/-! ### C06 -/

/-- **C06** (partial).  For programs without length-prefixed and read-to-end strings: if
`create_unpack(b)` returns an object then `create_unpack(b + rest)` returns the same one.  Missing:
length-prefixed strings (`C06_strings_partial`), of which, and of read-to-end strings, it is false
(`C08_full_is_false`). -/
theorem C06_partial (own : ClassId → List SerId) (hs : env.settled own) (hst : env.steady true)
    (hk : env.allowed ⟨true, false, true, true⟩) (n : Nat) (cls : ClassId) (b rest : Bytes) (v : Val) (st1 st2 : St)
    (h : result (createUnpack env n cls (.buf b) st1) = .ok v) :
    result (createUnpack env n cls (.buf (b ++ rest)) st2) = .ok v := by
  cases h0 : createUnpack env n cls (.buf b) st1 with
  | err e s => rw [h0] at h; cases h
  | ok v' st1' =>
    rw [h0] at h; cases h
    obtain ⟨r, ser, h1, _, h3⟩ := createUnpack_inv hs h0
    have hl := (decObj_same hst (dec_same hst n) (src := .buf b) rfl (by simp [PSrc.isAt]) cls).2 _ _ _ h1
    have e := decObj_ext (src := .buf (b ++ rest)) hk (dec_ext hk n) rfl
      ⟨by simp, by simp [PSrc.isAt], by simp [PSrc.isBuf], by simp [PSrc.isBuf], fun _ => ⟨rfl, fun m => dec_bounded hst m⟩⟩ h1 hl (by simp [PSrc.isBuf])
    obtain ⟨st2', g1, _⟩ := createUnpack_ok (src := .buf (b ++ rest)) (st := st2) e
    rw [g1]; rfl

/-- **C06** (with length-prefixed strings, partial).  The same when the serializer reports a size within
`b`, that is, when `b` was not cut short. -/
theorem C06_strings_partial (own : ClassId → List SerId) (hs : env.settled own) (hk : env.allowed ⟨true, false, true, false⟩)
    (n : Nat) (cls : ClassId) (ci : ClassInfo) (hci : env.classes cls = some ci) (hsz : ci.serializer.sized = true)
    (b rest : Bytes) (v : Val) (st1 st1' st2 : St) (h : createUnpack env n cls (.buf b) st1 = .ok v st1')
    (size : Nat) (hsize : ci.serializer.readSize st1' = .ok size st1') (hl : size ≤ b.length) :
    result (createUnpack env n cls (.buf (b ++ rest)) st2) = .ok v := by
  obtain ⟨r, ser, h1, _, h3⟩ := createUnpack_inv hs h
  obtain ⟨ci', hc', rfl⟩ := decObj_ser h1
  rw [hci] at hc'; cases hc'
  have := h3 hsz
  rw [hsize] at this
  cases this
  have e := decObj_ext (src := .buf (b ++ rest)) hk (dec_ext hk n) rfl
    ⟨by simp, by simp [PSrc.isAt], by simp [PSrc.isBuf], by simp [PSrc.isBuf], nofun⟩ h1 hl (by simp [PSrc.isBuf])
  obtain ⟨st2', g1, _⟩ := createUnpack_ok (src := .buf (b ++ rest)) (st := st2) e
  rw [g1]; rfl

/-! ### C04 and C08 -/

/-- **C04** (unpacking, partial).  For programs without lookahead and read-to-end strings: if
`create_unpack(b)` succeeded and the serializer then reports `size`, within `b`, these first `size` bytes
are exactly what was used: every data that agrees with `b` on them gives the same object and the same
size, from every state.  Missing: lookahead unions (they look at bytes they do not consume), and data cut
inside a length-prefixed string, where the reported size exceeds the data. -/
theorem C04_unpack_partial (own : ClassId → List SerId) (hs : env.settled own) (hk : env.allowed ⟨true, false, true, false⟩)
    (hp : env.noPeek) (n : Nat) (cls : ClassId) (ci : ClassInfo) (hci : env.classes cls = some ci)
    (hsz : ci.serializer.sized = true) (b : Bytes) (v : Val) (st1 st1' : St)
    (h : createUnpack env n cls (.buf b) st1 = .ok v st1')
    (size : Nat) (hsize : ci.serializer.readSize st1' = .ok size st1') (hl : size ≤ b.length)
    (b' : Bytes) (hb' : b'.take size = b.take size) (st2 : St) :
    ∃ st2', createUnpack env n cls (.buf b') st2 = .ok v st2' ∧ ci.serializer.readSize st2' = .ok size st2' := by
  obtain ⟨r, ser, h1, _, h3⟩ := createUnpack_inv hs h
  obtain ⟨ci', hc', rfl⟩ := decObj_ser h1
  rw [hci] at hc'; cases hc'
  have := h3 hsz
  rw [hsize] at this
  cases this
  have hlen : (b.take r.size).length = r.size := by rw [List.length_take]; omega
  have h1' : decObj env (dec env n) cls (.buf (b.take r.size ++ b.drop r.size)) = .ok (v, r, ci.serializer) := by
    rw [List.take_append_drop]; exact h1
  have h2 := decObj_trim hp (dec_trim hp n) h1' (by omega)
  have e := decObj_ext (src := .buf (b.take r.size ++ b'.drop r.size)) hk (dec_ext hk n) rfl
    ⟨by simp, by simp [PSrc.isAt], by simp [PSrc.isBuf], by simp [PSrc.isBuf], nofun⟩ h2 (by omega) (by simp [PSrc.isBuf])
  rw [← hb', List.take_append_drop] at e
  obtain ⟨st2', g1, _, g3⟩ := createUnpack_ok (src := .buf b') (st := st2) e
  exact ⟨st2', g1, g3 hsz⟩

/-- **C08** (partial).  For programs without length-prefixed and read-to-end strings: if `create_unpack(b)`
used `size` bytes, `create_unpack` of any shorter prefix of `b` raises.  Missing: length-prefixed
strings, where it is false (`C08_full_is_false`). -/
theorem C08_cut_partial (own : ClassId → List SerId) (hs : env.settled own) (hst : env.steady true)
    (hk : env.allowed ⟨true, false, true, true⟩) (n : Nat) (cls : ClassId) (ci : ClassInfo)
    (hci : env.classes cls = some ci) (hsz : ci.serializer.sized = true) (b : Bytes) (v : Val) (st1 st1' : St)
    (h : createUnpack env n cls (.buf b) st1 = .ok v st1')
    (size : Nat) (hsize : ci.serializer.readSize st1' = .ok size st1') (j : Nat) (hj : j < size) (st2 : St) :
    ∃ e, result (createUnpack env n cls (.buf (b.take j)) st2) = .error e := by
  obtain ⟨r, ser, h1, _, h3⟩ := createUnpack_inv hs h
  obtain ⟨ci', hc', rfl⟩ := decObj_ser h1
  rw [hci] at hc'; cases hc'
  have := h3 hsz
  rw [hsize] at this
  cases this
  rcases createUnpack_result hs (n := n) (cls := cls) (src := .buf (b.take j)) (st := st2) with
    ⟨v', r', ser', g1, _, _⟩ | ⟨e, _, g2⟩
  · exfalso
    have hl := (decObj_same hst (dec_same hst n) (src := .buf (b.take j)) rfl (by simp [PSrc.isAt]) cls).2 _ _ _ g1
    have e := decObj_ext (src := .buf (b.take j ++ b.drop j)) hk (dec_ext hk n) rfl
      ⟨by simp, by simp [PSrc.isAt], by simp [PSrc.isBuf], by simp [PSrc.isBuf], fun _ => ⟨rfl, fun m => dec_bounded hst m⟩⟩ g1 hl (by simp [PSrc.isBuf])
    rw [List.take_append_drop] at e
    have h1 : decObj env (dec env n) cls (.buf b) = .ok (v, r, ci.serializer) := h1
    rw [h1] at e
    simp only [Out.ok.injEq, Prod.mk.injEq] at e
    have hsz' : r.size = r'.size := by rw [e.2.1]; rfl
    rw [List.length_take] at hl
    omega
  · exact ⟨e, g2⟩

/-! ### Concrete cases -/

/--
    class Point(Structured, byte_order=LITTLE_ENDIAN):   # 0
        x: uint16
        y: int8
    class Path(Structured):                              # 1
        n: uint8
        pts: array[Header[uint8, uint8], Point]
        kind: Annotated[uint8 | uint16, LookaheadDecider(uint8, lambda o: .., {1: uint8, 2: uint16})]
    class Tree(Structured):                              # 2
        val: uint8
        kids: array[Header[uint8], Self]
-/
def flatClasses : ClassId → Option ClassInfo
  | 0 => some { attrs := ["x", "y"], serializer := .struct ⟨"<Hb".toList, none⟩, byteOrder := .le }
  | 1 => some
    { attrs := ["n", "pts", "kind"], byteOrder := .default
      serializer := .compound [1] [.struct u8, .array [11] (some ⟨['2', 'B'], none⟩) (.structured [12] 0) (-1),
        .lookahead [13] (.struct u8) (fun _ => .ok (.int 1)) [.int 1, .int 2] [.struct u8, .struct ⟨['H'], none⟩] .null] }
  | 2 => some
    { attrs := ["val", "kids"], byteOrder := .default
      serializer := .compound [2] [.struct u8, .array [20] (some u8) (.selfT [21]) (-1)] }
  | _ => none

def flatEnv : Env := ⟨plat, flatClasses⟩

def flatOwn : ClassId → List SerId
  | 1 => [[11], [13]]
  | 2 => [[20]]
  | _ => []

theorem flat_settled : flatEnv.settled flatOwn := by
  intro c ci h
  match c with
  | 0 | 1 | 2 =>
    cases h
    refine ⟨rfl, rfl, ?_, ?_⟩ <;> decide
  | c + 3 => cases h

theorem flat_steady (t : Bool) : flatEnv.steady t := by
  intro c ci h
  match c with
  | 0 | 1 | 2 => cases h; rfl
  | c + 3 => cases h

theorem flat_allowed (k : Allow) : flatEnv.allowed k := by
  intro c ci h
  match c with
  | 0 | 1 | 2 => cases h; rfl
  | c + 3 => cases h

def path : Val := .obj 1 none [("n", .int 7), ("pts", .list [point 3 (-1), point 4 1]), ("kind", .int 5378)]

/-- Two points and a lookahead union, from a buffer and at an offset. -/
example :
    result (createUnpack flatEnv 9 1 (.buf [7, 2, 6, 3, 0, 255, 4, 0, 1, 2, 21, 9]) st0) = .ok path ∧
    result (createUnpack flatEnv 9 1 (.at [5, 5, 7, 2, 6, 3, 0, 255, 4, 0, 1, 2, 21] 2) st0) = .ok path ∧
    result (createUnpack flatEnv 9 1 (.buf [7, 2, 6, 3, 0, 255, 4, 0, 1, 2]) st0) = .error .structError ∧
    flatEnv.settled flatOwn ∧ flatEnv.steady true ∧ flatEnv.steady false ∧ flatEnv.allowed ⟨true, false, true, false⟩ :=
  ⟨by rfl, by rfl, by rfl, flat_settled, flat_steady _, flat_steady _, flat_allowed _⟩

/--
    class Tagged(Structured):                            # 0
        body: Annotated[char[3] | char[b';'], LookaheadDecider(char[b';'], lambda o: .., {b'ab': char[3]}, char[b';'])]
        n: uint8
-/
def taggedEnv : Env := ⟨plat, fun
  | 0 => some
    { attrs := ["body", "n"], byteOrder := .default
      serializer := .compound [1] [.lookahead [11] (.terminated [12] 59) (fun _ => .ok (.bytes [97, 98])) [.bytes [97, 98]]
        [.struct ⟨['3', 's'], none⟩] (.terminated [13] 59), .struct u8] }
  | _ => none⟩

theorem tagged_class {c : ClassId} {ci : ClassInfo} (h : taggedEnv.classes c = some ci) :
    c = 0 ∧ taggedEnv.classes 0 = some ci := by
  match c with
  | 0 => exact ⟨rfl, h⟩
  | c + 1 => cases h

/-- A read-ahead type that is not basic: a string up to a terminator.  More bytes change nothing, fewer are an error. -/
example :
    result (createUnpack taggedEnv 9 0 (.buf [97, 98, 59, 7]) st0) = .ok (.obj 0 none [("body", .bytes [97, 98, 59]), ("n", .int 7)]) ∧
    result (createUnpack taggedEnv 9 0 (.buf [97, 98, 59, 7, 59, 8]) st0)
      = .ok (.obj 0 none [("body", .bytes [97, 98, 59]), ("n", .int 7)]) ∧
    result (createUnpack taggedEnv 9 0 (.buf [97, 59, 7, 59, 8]) st0) = .ok (.obj 0 none [("body", .bytes [97]), ("n", .int 7)]) ∧
    result (createUnpack taggedEnv 9 0 (.buf [97, 98]) st0) = .error .valueError ∧
    taggedEnv.settled (fun _ => [[11]]) ∧ taggedEnv.steady true ∧ taggedEnv.allowed ⟨true, false, true, true⟩ := by
  refine ⟨by rfl, by rfl, by rfl, by rfl, ?_, ?_, ?_⟩ <;> intro c ci h <;> obtain ⟨rfl, h⟩ := tagged_class h <;> cases h
  · refine ⟨rfl, rfl, ?_, ?_⟩ <;> decide
  · rfl
  · rfl

/-- The lookahead union from a stream: the key is read again as part of the chosen type. -/
example :
    result (createUnpack flatEnv 9 1 .io { st0 with io := ⟨[5, 7, 0, 0, 2, 21, 9], 1⟩ })
      = .ok (.obj 1 none [("n", .int 7), ("pts", .list []), ("kind", .int 5378)]) ∧
    (after (createUnpack flatEnv 9 1 .io { st0 with io := ⟨[5, 7, 0, 0, 2, 21, 9], 1⟩ })).io.pos = 6 :=
  ⟨by rfl, by rfl⟩

/-- The size reported for a tree is what was used, although the array serializer was used recursively. -/
example :
    result ((do let _ ← createUnpack flatEnv 12 2 (.buf [1, 2, 2, 0, 3, 1, 4, 0, 99]); Ser.readSize (.compound [2]
      [.struct u8, .array [20] (some u8) (.selfT [21]) (-1)])) st0) = .ok 8 := by rfl

/-! ### Where they fail -/

/--
    class Names(Structured):                             # 0
        a: char[b'\0']
        b: uint8
    class Words(Structured):                             # 1
        words: array[Header[uint8], char[uint8]]
    class Word(Structured):                              # 2
        word: char[uint8]
-/
def stringClasses : ClassId → Option ClassInfo
  | 0 => some { attrs := ["a", "b"], byteOrder := .default, serializer := .compound [5] [.terminated [50] 0, .struct u8] }
  | 1 => some { attrs := ["words"], byteOrder := .default, serializer := .array [11] (some u8) (.dynChar [12] u8) (-1) }
  | 2 => some { attrs := ["word"], byteOrder := .default, serializer := .dynChar [22] u8 }
  | _ => none

def stringEnv : Env := ⟨plat, stringClasses⟩

theorem string_settled : stringEnv.settled (fun | 1 => [[11]] | _ => []) := by
  intro c ci h
  match c with
  | 0 | 1 | 2 =>
    cases h
    refine ⟨rfl, rfl, ?_, ?_⟩ <;> decide
  | c + 3 => cases h

theorem string_allowed : stringEnv.allowed ⟨true, false, false, false⟩ := by
  intro c ci h
  match c with
  | 0 | 1 | 2 => cases h; rfl
  | c + 3 => cases h

theorem string_noPeek : stringEnv.noPeek := by
  intro c ci h
  match c with
  | 0 | 1 | 2 => cases h; rfl
  | c + 3 => cases h

theorem string_noPost : stringEnv.noPost := by
  intro c ci h
  match c with
  | 0 | 1 | 2 => cases h; rfl
  | c + 3 => cases h

/-- Length-prefixed strings from all sources, as `C03_strings_partial` and `C04_unpack_partial` say. -/
example :
    let v : Val := .obj 1 none [("words", .list [.bytes [65, 66], .bytes [67]])]
    result (createUnpack stringEnv 9 1 (.buf [2, 2, 65, 66, 1, 67]) st0) = .ok v ∧
    result (createUnpack stringEnv 9 1 (.at [8, 2, 2, 65, 66, 1, 67, 9] 1) st0) = .ok v ∧
    result (createUnpack stringEnv 9 1 .io { st0 with io := ⟨[2, 2, 65, 66, 1, 67, 9], 0⟩ }) = .ok v ∧
    v.noEmpty = true :=
  ⟨by rfl, by rfl, by rfl, by rfl⟩

/-- **C03 is false in full.**  After a terminated string at an offset the next field is read from the
wrong place: `create_unpack_from(x, 1)` differs from `create_unpack(x[1:])` (`strings.py:223-231` computes
the size from the start of the buffer). -/
theorem C03_full_is_false : ∃ (env : Env) (own : ClassId → List SerId) (cls : ClassId) (x : Bytes) (st : St),
    env.settled own ∧
    result (createUnpack env 9 cls (.buf (x.drop 1)) st) = .ok (.obj cls none [("a", .bytes [65]), ("b", .int 7)]) ∧
    result (createUnpack env 9 cls (.at x 1) st) = .ok (.obj cls none [("a", .bytes [65]), ("b", .int 8)]) :=
  ⟨stringEnv, _, 0, [1, 65, 0, 7, 8], st0, string_settled, by rfl, by rfl⟩

/-- **C03 is false in full** (empty strings).  `create_unpack_from` and `create_unpack_read` lose the empty
strings of an array of `char[uint8]`: they are read with `NullSerializer`, which returns no value. -/
theorem C03_empty_is_false : ∃ (env : Env) (own : ClassId → List SerId) (cls : ClassId) (x : Bytes) (st : St),
    env.settled own ∧
    result (createUnpack env 9 cls (.buf x) st) = .ok (.obj cls none [("words", .list [.bytes [], .bytes [65]])]) ∧
    result (createUnpack env 9 cls (.at x 0) st) = .ok (.obj cls none [("words", .list [.bytes [65]])]) ∧
    result (createUnpack env 9 cls .io { st with io := ⟨x, 0⟩ }) = .ok (.obj cls none [("words", .list [.bytes [65]])]) :=
  ⟨stringEnv, _, 1, [2, 0, 1, 65], st0, string_settled, by rfl, by rfl, by rfl⟩

/-- **C06 and C08 are false in full.**  `create_unpack` of a string cut short returns an object with fewer
bytes instead of raising, so a prefix of packed data is accepted, and appending bytes changes the
object; `create_unpack_from` raises on the same bytes. -/
theorem C08_full_is_false : ∃ (env : Env) (own : ClassId → List SerId) (cls : ClassId) (v v' : Val) (b : Bytes) (st : St),
    env.settled own ∧ result (Obj.pack env 9 v st) = .ok b ∧
    result (createUnpack env 9 cls (.buf b) st) = .ok v ∧
    result (createUnpack env 9 cls (.buf (b.take 2)) st) = .ok v' ∧ v ≠ v' ∧
    result (createUnpack env 9 cls (.at (b.take 2) 0) st) = .error .structError :=
  ⟨stringEnv, _, 2, .obj 2 none [("word", .bytes [65, 66, 67])], .obj 2 none [("word", .bytes [65])], [3, 65, 66, 67],
    st0, string_settled, by rfl, by rfl, by rfl, by simp, by rfl⟩

end Verif
