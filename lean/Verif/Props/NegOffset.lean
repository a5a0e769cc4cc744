import Verif.Proofs.ReadLemmas
import Verif.Proofs.NegInto
import Verif.Samples
/-
C42: negative offsets.

`create_unpack_from`, `unpack_from` and `pack_into` pass their offset on, so a negative one counts from the end of the
buffer wherever it reaches `struct`, a slice or an index.
-/
namespace Verif

open Samples Verif.Neg

/-! ### Programs used as cases

    class Point(Structured, byte_order=LITTLE_ENDIAN):   # 0
        x: uint16
        y: int8
    class Name(Structured):                              # 1
        s: char[uint8]
    class Shape(Structured):                             # 2
        name: char[uint8]
        points: array[Header[uint8], Point]
    class Rest(Structured):                              # 3
        n: uint8
        s: char[math.inf]
    class Names(Structured):                             # 4
        s: char[b'\0']
        n: uint8
-/

def negEnv : Env := ⟨plat, fun
  | 0 => some { attrs := ["x", "y"], serializer := .struct ⟨"<Hb".toList, none⟩, byteOrder := .le }
  | 1 => some { attrs := ["s"], serializer := .dynChar [10] u8, byteOrder := .default }
  | 2 => some
    { attrs := ["name", "points"], byteOrder := .default
      serializer := .compound [2] [.dynChar [20] u8, .array [21] (some u8) (.structured [22] 0) (-1)] }
  | _ => none⟩

def negTailEnv : Env := ⟨plat, fun
  | 3 => some { attrs := ["n", "s"], serializer := .compound [3] [.struct u8, .consuming [30]], byteOrder := .default }
  | 4 => some { attrs := ["s", "n"], serializer := .compound [4] [.terminated [40] 0, .struct u8], byteOrder := .default }
  | _ => none⟩

theorem negEnv_noTail (t : Bool) : negEnv.noTail t := by
  intro c ci h
  match c with
  | 0 => cases h; rfl
  | 1 => cases h; rfl
  | 2 => cases h; rfl
  | _ + 3 => cases h

def negShape : Val := .obj 2 none [("name", .bytes [65, 66]), ("points", .list [point 513 (-1)])]

/-! ### Offsets that are not negative -/

/-- With an offset that is not negative the integer code is the code of the other properties: same object, same
exception. -/
theorem C42_nonneg (env : Env) (n : Nat) (cls : ClassId) (b : Bytes) (m : Nat) (st : St) (he : env.noTail true) :
    Neg.result (Neg.createUnpack env n cls b m (emb st)) = Samples.result (Verif.createUnpack env n cls (.at b m) st) := by
  have h := agree_createUnpack (strict := true) (b := b) he (n := n) (cls := cls) (o := m) (m := m) (.inl rfl) (st := st)
  cases hr : Verif.createUnpack env n cls (.at b m) st with
  | ok v st' =>
    rw [hr] at h
    have h : Neg.createUnpack env n cls b m (emb st) = .ok v (emb st') := h
    rw [h]; rfl
  | err e st' =>
    rw [hr] at h
    obtain ⟨ns, h⟩ := h rfl
    rw [h]; rfl

/-- The same for `pack_into`, for every program: same buffer, same exception. -/
theorem C42_nonneg_pack_into (env : Env) (n : Nat) (v : Val) (m : Nat) (st : St) :
    Neg.Obj.packInto env n m v st = Verif.Obj.packInto env n m v st := by
  have h := same_objPackInto (strict := true) (env := env) (n := n) (v := v) (o := m) (m := m) (st := st)
    (fun h => by cases h) (.inl rfl)
  cases hr : Verif.Obj.packInto env n m v st with
  | ok u st' => rw [hr] at h; exact h.1
  | err e st' => rw [hr] at h; exact h rfl

example : Neg.result (Neg.createUnpack negEnv 9 2 [9, 2, 65, 66, 1, 1, 2, 255] 1 (emb st0)) = .ok negShape := by rfl

/-! ### Negative offsets that work -/

/-- Reading at a negative offset gives the object that is read at the place counted from the end, if reading there
succeeds.  For programs without terminated and read-to-end strings. -/
theorem C42_unpack_partial (env : Env) (n : Nat) (cls : ClassId) (b : Bytes) (o : Int) (st st' : St) (v : Val)
    (he : env.noTail false) (h1 : -(b.length : Int) ≤ o) (_h2 : o < 0)
    (h : Verif.createUnpack env n cls (.at b (o + b.length).toNat) st = .ok v st') :
    Neg.result (Neg.createUnpack env n cls b o (emb st)) = .ok v := by
  have ha := agree_createUnpack (strict := false) (b := b) he (n := n) (cls := cls) (o := o) (m := (o + b.length).toNat)
    (.inr ⟨rfl, by omega⟩) (st := st)
  rw [h] at ha
  have ha : Neg.createUnpack env n cls b o (emb st) = .ok v (emb st') := ha
  rw [ha]; rfl

/-- The same for `obj.unpack_from`, whatever byte order the object has. -/
theorem C42_obj_unpack_partial (env : Env) (n : Nat) (v v' : Val) (b : Bytes) (o : Int) (st st' : St)
    (he : env.noTail false) (h1 : -(b.length : Int) ≤ o) (_h2 : o < 0)
    (h : Verif.Obj.unpack env n v (.at b (o + b.length).toNat) st = .ok v' st') :
    Neg.result (Neg.Obj.unpack env n v b o (emb st)) = .ok v' := by
  have ha := agree_objUnpack (strict := false) (b := b) he (n := n) (v := v) (o := o) (m := (o + b.length).toNat)
    (.inr ⟨rfl, by omega⟩) (st := st)
  rw [h] at ha
  have ha : Neg.Obj.unpack env n v b o (emb st) = .ok v' (emb st') := ha
  rw [ha]; rfl

example : Neg.result (Neg.Obj.unpack negEnv 9 (.obj 0 (some .be) [("x", .int 0), ("y", .int 0)]) [9, 9, 1, 2, 255, 9] (-4) (emb st0)) =
    .ok (.obj 0 (some .be) [("x", .int 258), ("y", .int (-1))]) := by rfl

/-- Packing at a negative offset does what packing at the place counted from the end does, if that succeeds.  For
programs without read-to-end strings. -/
theorem C42_pack_into_partial (env : Env) (n : Nat) (v : Val) (o : Int) (st st' : St) (he : env.noTail true)
    (h1 : -(st.buf.length : Int) ≤ o) (_h2 : o < 0)
    (h : Verif.Obj.packInto env n (o + st.buf.length).toNat v st = .ok () st') :
    Neg.Obj.packInto env n o v st = .ok () st' ∧ st'.buf.length = st.buf.length := by
  have ha := same_objPackInto (strict := false) (env := env) (n := n) (v := v) (o := o) (m := (o + st.buf.length).toNat)
    (st := st) (fun _ => he) (.inr ⟨rfl, by omega⟩)
  rw [h] at ha
  exact ⟨ha.1, ha.2 rfl⟩

/-- A whole object behind other data, read from the end. -/
example : Neg.result (Neg.createUnpack negEnv 9 2 [9, 2, 65, 66, 1, 1, 2, 255] (-7) (emb st0)) = .ok negShape := by rfl

/-- The same object with data behind it. -/
example : Neg.result (Neg.createUnpack negEnv 9 2 [2, 65, 66, 1, 1, 2, 255, 0] (-8) (emb st0)) = .ok negShape := by rfl

example : (after (Neg.Obj.packInto negEnv 9 (-7) negShape { st0 with buf := [9, 0, 0, 0, 0, 0, 0, 0] })).buf =
    [9, 2, 65, 66, 1, 1, 2, 255] := by rfl

/-! ### Negative offsets that do not work -/

/-- The data of `char[uint8]` cut off at the end of the buffer: the length byte is the last byte, and the characters
are taken from the start of the buffer where `create_unpack_from(b, len(b) - 1)` raises. -/
theorem C42_wrap_is_false : ¬ ∀ (env : Env) (n : Nat) (cls : ClassId) (b : Bytes) (o : Int) (st : St), env.noTail false →
    -(b.length : Int) ≤ o → o < 0 → Neg.result (Neg.createUnpack env n cls b o (emb st)) =
      Samples.result (Verif.createUnpack env n cls (.at b (o + b.length).toNat) st) := by
  intro h
  have := h negEnv 9 1 [7, 8, 3] (-1) st0 (negEnv_noTail false) (by decide) (by decide)
  have h1 : Neg.result (Neg.createUnpack negEnv 9 1 [7, 8, 3] (-1) (emb st0)) = .ok (.obj 1 none [("s", .bytes [7, 8, 3])]) := rfl
  have h2 : Samples.result (Verif.createUnpack negEnv 9 1 (.at [7, 8, 3] 2) st0) = .error .structError := rfl
  have h3 : ((-1 : Int) + ([7, 8, 3] : Bytes).length).toNat = 2 := rfl
  rw [h3, h1, h2] at this
  cases this

/-- The same when packing: an object too large for the space left overwrites the start of the buffer instead of
raising. -/
theorem C42_pack_into_wrap_is_false : ¬ ∀ (env : Env) (n : Nat) (v : Val) (o : Int) (st : St), env.noTail true →
    -(st.buf.length : Int) ≤ o → o < 0 → Samples.result (Neg.Obj.packInto env n o v st) =
      Samples.result (Verif.Obj.packInto env n (o + st.buf.length).toNat v st) := by
  intro h
  have := h negEnv 9 negShape (-3) { st0 with buf := [9, 9, 9, 9, 9, 9, 9, 9] } (negEnv_noTail true) (by decide) (by decide)
  have h1 : Samples.result (Neg.Obj.packInto negEnv 9 (-3) negShape { st0 with buf := [9, 9, 9, 9, 9, 9, 9, 9] }) = .ok () := rfl
  have h2 : Samples.result (Verif.Obj.packInto negEnv 9 5 negShape { st0 with buf := [9, 9, 9, 9, 9, 9, 9, 9] }) =
      .error .structError := rfl
  have h3 : ((-3 : Int) + ({ st0 with buf := [9, 9, 9, 9, 9, 9, 9, 9] } : St).buf.length).toNat = 5 := rfl
  rw [h3, h1, h2] at this
  cases this

/-- What it leaves: the end of the object is at the start of the buffer. -/
example : (after (Neg.Obj.packInto negEnv 9 (-3) negShape { st0 with buf := [9, 9, 9, 9, 9, 9, 9, 9] })).buf =
    [1, 1, 2, 255, 9, 2, 65, 66] := by rfl

/-- A read-to-end string behind other fields: when the fields end exactly at the end of the buffer the string is the
whole buffer, not empty. -/
theorem C42_read_to_end_is_false : ¬ ∀ (env : Env) (n : Nat) (cls : ClassId) (b : Bytes) (o : Int) (st st' : St) (v : Val),
    -(b.length : Int) ≤ o → o < 0 → Verif.createUnpack env n cls (.at b (o + b.length).toNat) st = .ok v st' →
    Neg.result (Neg.createUnpack env n cls b o (emb st)) = .ok v := by
  intro h
  have := h negTailEnv 9 3 [5, 6, 7] (-1) st0 _ (.obj 3 none [("n", .int 7), ("s", .bytes [])]) (by decide) (by decide) rfl
  have h1 : Neg.result (Neg.createUnpack negTailEnv 9 3 [5, 6, 7] (-1) (emb st0)) =
      .ok (.obj 3 none [("n", .int 7), ("s", .bytes [5, 6, 7])]) := rfl
  rw [h1] at this
  injection this with this
  injection this with _ _ this
  injection this with _ this
  injection this with this
  injection this with _ this
  injection this with this
  cases this

/-- A terminated string in front of another field: its size is made from the offset, so the field behind it is read
from somewhere else. -/
theorem C42_terminated_is_false : ¬ ∀ (env : Env) (n : Nat) (cls : ClassId) (b : Bytes) (o : Int) (st st' : St) (v : Val),
    env.noTail true → -(b.length : Int) ≤ o → o < 0 →
    Verif.createUnpack env n cls (.at b (o + b.length).toNat) st = .ok v st' →
    Neg.result (Neg.createUnpack env n cls b o (emb st)) = .ok v := by
  intro h
  have he : ({ negTailEnv with classes := fun | 4 => negTailEnv.classes 4 | _ => Option.none } : Env).noTail true := by
    intro c ci h
    match c with
    | 4 => cases h; rfl
    | 0 | 1 | 2 | 3 | _ + 5 => cases h
  have := h _ 9 4 [7, 0, 5, 6] (-3) st0 _ (.obj 4 none [("s", .bytes []), ("n", .int 6)]) he (by decide) (by decide) rfl
  have h1 : Neg.result (Neg.createUnpack { negTailEnv with classes := fun | 4 => negTailEnv.classes 4 | _ => Option.none } 9 4
      [7, 0, 5, 6] (-3) (emb st0)) = .error .structError := rfl
  rw [h1] at this
  cases this

/-- A terminated string whose terminator is missing: the search goes on at the start of the buffer, and the string found
is empty. -/
example : Neg.result (Neg.unpack negTailEnv [0, 5] 9 noUpd (.terminated [40] 0) (-1) (emb st0)) = .ok [.bytes []] := by rfl

example : Samples.result (Verif.unpack negTailEnv 9 noUpd (.terminated [40] 0) (.at [0, 5] 1) st0) = .error .valueError := by rfl

/-- Where reading at the place counted from the end raises, reading at the negative offset may return an object: a string without terminator is
followed into the start of the buffer. -/
theorem C42_unterminated_is_false : ¬ ∀ (env : Env) (n : Nat) (cls : ClassId) (b : Bytes) (o : Int) (st st' : St) (e : Err),
    -(b.length : Int) ≤ o → o < 0 → Verif.createUnpack env n cls (.at b (o + b.length).toNat) st = .err e st' →
    ∃ e', Neg.result (Neg.createUnpack env n cls b o (emb st)) = .error e' := by
  intro h
  obtain ⟨e', h⟩ := h negTailEnv 9 4 [7, 0, 5] (-1) st0 _ .valueError (by decide) (by decide) rfl
  have h1 : Neg.result (Neg.createUnpack negTailEnv 9 4 [7, 0, 5] (-1) (emb st0)) =
      .ok (.obj 4 none [("s", .bytes []), ("n", .int 0)]) := rfl
  rw [h1] at h
  cases h

/-- The size after reading a read-to-end string at a negative offset is not the number of bytes read: it is larger by the length of the buffer. -/
theorem C42_size_is_false (env : Env) (n : Nat) (upd : Upd) (i : SerId) (b : Bytes) (k : Nat) (hk : k ≤ b.length) (h0 : 0 < k) (s : NSt) :
    ∃ d s', Neg.unpack env b (n + 1) upd (.consuming i) (-(k : Int)) s = .ok [.bytes d] s' ∧ d = b.drop (b.length - k) ∧ d.length = k ∧
      s'.size i = k + b.length := by
  refine ⟨_, _, rfl, ?_, ?_, ?_⟩
  · have : bound b.length (-(k : Int)) = b.length - k := by
      unfold bound
      rw [if_pos (by omega)]
      omega
    rw [this]
  · have : bound b.length (-(k : Int)) = b.length - k := by
      unfold bound
      rw [if_pos (by omega)]
      omega
    rw [this, List.length_drop]
    omega
  · show (if i = i then ((b.length : Int) - -(k : Int)) else _) = _
    rw [if_pos rfl]
    omega

example : Neg.result (Neg.unpack negTailEnv [5, 6, 7] 1 noUpd (.consuming [30]) (-2) (emb st0)) = .ok [.bytes [6, 7]] := by rfl

/-- A read-to-end string packed so that it ends exactly at the end: `buffer[-3:0] = data` inserts, the buffer grows and
keeps the bytes that should have been replaced. -/
theorem C42_pack_into_read_to_end_is_false : ¬ ∀ (env : Env) (n : Nat) (v : Val) (o : Int) (st st' : St),
    -(st.buf.length : Int) ≤ o → o < 0 → Verif.Obj.packInto env n (o + st.buf.length).toNat v st = .ok () st' →
    Samples.result (Neg.Obj.packInto env n o v st) = .ok () ∧ (after (Neg.Obj.packInto env n o v st)).buf = st'.buf := by
  intro h
  have := (h env 9 (blob [1, 2, 3]) (-3) { st0 with buf := [9, 8, 7, 6, 5] } _ (by decide) (by decide) rfl).2
  have h1 : (after (Neg.Obj.packInto env 9 (-3) (blob [1, 2, 3]) { st0 with buf := [9, 8, 7, 6, 5] })).buf =
      [9, 8, 1, 2, 3, 7, 6, 5] := rfl
  rw [h1] at this
  revert this
  decide

/-- An offset before the start of the buffer, or numbers that reach past its end, raise `struct.error`. -/
theorem C42_outside (env : Env) (n : Nat) (upd : Upd) (s : StructSer) (b : Bytes) (off : Int) (st : NSt) (h0 : off < 0)
    (h : 0 < off + s.size ∨ off + b.length < 0) : Neg.unpack env b (n + 1) upd (.struct s) off st = .err .structError st := by
  have : Neg.start b.length s.size off = Option.none := by
    unfold Neg.start
    rw [if_pos h0]
    split
    · rfl
    · rw [if_pos (h.resolve_left (by assumption))]
  show Neg.structUnpack env s b off st = _
  unfold Neg.structUnpack
  rw [this]
  rfl

/-- Packing leaves the buffer as it was then. -/
theorem C42_outside_pack_into (env : Env) (n : Nat) (s : StructSer) (off : Int) (vs : List Val) (st : St) (h0 : off < 0)
    (h : 0 < off + s.size ∨ off + st.buf.length < 0) : Neg.packInto env (n + 1) (.struct s) off vs st = .err .structError st := by
  have : Neg.start st.buf.length s.size off = Option.none := by
    unfold Neg.start
    rw [if_pos h0]
    split
    · rfl
    · rw [if_pos (h.resolve_left (by assumption))]
  show Neg.structPackInto env s off vs st = _
  unfold Neg.structPackInto
  rw [this]

-- before the start, and across the end
example : Neg.result (Neg.unpack negEnv [1, 2, 3] 1 noUpd (.struct ⟨"BB".toList, Option.none⟩) (-4) (emb st0)) = .error .structError := by rfl
example : Neg.result (Neg.unpack negEnv [1, 2, 3] 1 noUpd (.struct ⟨"BB".toList, Option.none⟩) (-1) (emb st0)) = .error .structError := by rfl
example : Neg.result (Neg.unpack negEnv [1, 2, 3] 1 noUpd (.struct ⟨"BB".toList, Option.none⟩) (-3) (emb st0)) = .ok [.int 1, .int 2] := by rfl

/-- **C42** (terminated strings).  A terminated string read as many bytes before the end as there are, or fewer, is the string at this
place; the size is that of the index behind the terminator, counted from the end.  Before the start there is none. -/
theorem C42_terminated (env : Env) (n : Nat) (upd : Upd) (i : SerId) (t : Byte) (b : Bytes) (k : Nat) (h0 : 0 < k) (s : NSt) :
    (k ≤ b.length → ∀ j, findTerm t (b.drop (b.length - k)) = some j →
      ∃ s', Neg.unpack env b (n + 1) upd (.terminated i t) (-(k : Int)) s = .ok [.bytes ((b.drop (b.length - k)).take j)] s' ∧
        s'.size i = (j : Int) + 1 - k) ∧
    (b.length < k → Neg.unpack env b (n + 1) upd (.terminated i t) (-(k : Int)) s = .err .valueError s) := by
  constructor
  · intro hk j hj
    have hl := findTerm_lt hj
    simp only [List.length_drop] at hl
    have e : bytesFrom b (-(k : Int)) = b.drop (b.length - k) ++ b := by
      unfold bytesFrom
      rw [if_pos (by omega), if_neg (by omega)]
      congr 2
      omega
    have e2 : slice b (-(k : Int)) (-(k : Int) + j) = (b.drop (b.length - k)).take j := by
      unfold slice bound
      rw [if_pos (by omega), if_pos (by omega), List.drop_take]
      congr 1
      · omega
      · congr 1
        omega
    refine ⟨{ s with size := fun x => if x = i then -(k : Int) + j + 1 else s.size x }, ?_, ?_⟩
    · show Neg.terminatedUnpack i t b _ s = _
      unfold Neg.terminatedUnpack
      rw [e, findTerm_append hj, ← e2]
      rfl
    · show (if i = i then -(k : Int) + j + 1 else _) = _
      rw [if_pos rfl]
      omega
  · intro hk
    have e : bytesFrom b (-(k : Int)) = [] := by
      unfold bytesFrom
      rw [if_pos (by omega), if_pos (by omega)]
    show Neg.terminatedUnpack i t b _ s = _
    unfold Neg.terminatedUnpack
    rw [e]
    rfl

example : Neg.result (Neg.unpack negTailEnv [5, 0, 7] 9 noUpd (.terminated [40] 0) (-3) (emb st0)) = .ok [.bytes [5]] := by rfl
example : Neg.result (Neg.unpack negTailEnv [5, 0, 7] 9 noUpd (.terminated [40] 0) (-4) (emb st0)) = .error .valueError := by rfl

end Verif
