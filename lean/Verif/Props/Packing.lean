import Verif.Proofs.SimInto
import Verif.Samples
/-
C02, C04 (packing), C07, C37: what the three packing methods produce, report and change.
All statements quantify over every program, every object, every recursion limit and every state of
the shared serializer objects.
-/
namespace Verif
open Samples

/-! ### C02 -/

/-- **C02** (`pack_write`).  Run from the same state, `obj.pack_write(stream)` succeeds exactly when
`obj.pack()` does, writes exactly its bytes at the stream position and leaves the serializers in the
same state; otherwise it raises the same exception. -/
theorem C02_pack_write (env : Env) (n : Nat) (v : Val) (st : St) :
    match Obj.pack env n v st with
    | .ok b st1 => ∃ st2, Obj.packWrite env n v st = .ok () st2 ∧ st2.io = st.io.write b ∧
        st2.buf = st.buf ∧ st2.cells = st1.cells
    | .err e _ => ∃ st2, Obj.packWrite env n v st = .err e st2 := by
  have h : SimW (Obj.pack env n v) (Obj.packWrite env n v) (fun b _ w => w = b) := by
    refine SimW.bind (objPackWrite_sim env (packWrite_sim env n) v) ?_
    rintro ⟨b, ser⟩ _ w ⟨rfl, rfl⟩
    exact SimW.pure (by simp)
  have := h.run st st rfl
  revert this
  cases Obj.pack env n v st with
  | err e st1 => rintro ⟨st2, w, h1, _⟩; exact ⟨st2, h1⟩
  | ok b st1 =>
    rintro ⟨_, st2, w, h1, h2, h3, rfl⟩
    exact ⟨st2, h1, h3.2, h3.1, h2⟩

theorem objPackInto_simI (env : Env) (n : Nat) (off : Nat) (v : Val) (st : St) :
    SimI (Obj.pack env n v) st (Obj.packInto env n off v) st (fitB off) (fun b _ st' => IW off b st st') := by
  refine SimI.bind (fit2 := fun _ _ _ => True) (objPackInto_sim env (packInto_sim env n) off v rfl) ?_ ?_
  · rintro ⟨b, ser⟩ _ st1 st2 _ hc ⟨_, h⟩
    exact SimI.pure hc h
  · rintro ⟨b, ser⟩ st1 c st2 L _ hr hL
    cases hr
    exact ⟨hL, trivial⟩

/-- **C02** (`pack_into`, partial).  If `obj.pack_into(buffer, offset)` succeeds without growing the
buffer then `obj.pack()` from the same state succeeds, the packed bytes are at
`buffer[offset:offset+len]`, everything else in the buffer is as before, and the serializers are in
the same state.  Missing: buffers that grow, where it is false (`C02_full_is_false`). -/
theorem C02_pack_into_partial (env : Env) (n off : Nat) (v : Val) (st st2 : St)
    (h : Obj.packInto env n off v st = .ok () st2) (hlen : st2.buf.length = st.buf.length) :
    ∃ b st1, Obj.pack env n v st = .ok b st1 ∧ (b = [] ∨ off + b.length ≤ st.buf.length) ∧
      (st2.buf.drop off).take b.length = b ∧
      st2.buf = st.buf.take off ++ b ++ st.buf.drop (off + b.length) ∧
      st2.io = st.io ∧ st2.cells = st1.cells := by
  have hs := objPackInto_simI env n off v st
  unfold SimI at hs
  cases hp : Obj.pack env n v st with
  | err e st1 => rw [hp] at hs; exact (hs _ _ h).elim
  | ok b st1 =>
    rw [hp] at hs
    obtain ⟨h1, h2⟩ := hs.1 _ _ h
    obtain ⟨h3, h4⟩ := h2.exact hlen
    refine ⟨b, st1, rfl, h3, ?_, h4, h2.io, h1⟩
    rw [h4, splice]
    rcases h3 with rfl | h3
    · simp
    · have : (st.buf.take off).length = off := by simp; omega
      rw [List.append_assoc, List.drop_append_of_le_length (by omega), List.drop_of_length_le (by omega)]
      simp

/-- **C02** (`pack_into` succeeds when it can).  If `obj.pack()` returns `b` and the buffer has room
for it at `offset`, then `obj.pack_into(buffer, offset)` succeeds and puts `b` there. -/
theorem C02_pack_into_fits (env : Env) (n off : Nat) (v : Val) (st st1 : St) (b : Bytes)
    (h : Obj.pack env n v st = .ok b st1) (hfit : off + b.length ≤ st.buf.length) :
    ∃ st2, Obj.packInto env n off v st = .ok () st2 ∧
      st2.buf = st.buf.take off ++ b ++ st.buf.drop (off + b.length) ∧ st2.cells = st1.cells := by
  have hs := objPackInto_simI env n off v st
  unfold SimI at hs
  rw [h] at hs
  obtain ⟨_, st2, e, hl⟩ := hs.2 hfit
  obtain ⟨h1, h2⟩ := hs.1 _ _ e
  exact ⟨st2, e, (h2.exact hl).2, h1⟩

/-- **C02** (failure).  Where `obj.pack()` raises, `obj.pack_into` does not succeed. -/
theorem C02_pack_into_fails (env : Env) (n off : Nat) (v : Val) (st st1 : St) (e : Err)
    (h : Obj.pack env n v st = .err e st1) (st2 : St) : Obj.packInto env n off v st ≠ .ok () st2 := by
  have hs := objPackInto_simI env n off v st
  unfold SimI at hs
  rw [h] at hs
  exact hs () st2

/-- The state with a given buffer. -/
def withBuf (b : Bytes) (st : St) : St := { st with buf := b }

/-- **C02 is false in full**: a `char[math.inf]` field packed into an empty `bytearray` at offset 2
succeeds, but `buffer[2:2+3]` is not the packed data. -/
theorem C02_full_is_false : ∃ (env : Env) (n off : Nat) (v : Val) (st st1 st2 : St) (b : Bytes),
    Obj.pack env n v st = .ok b st1 ∧ Obj.packInto env n off v st = .ok () st2 ∧
    (st2.buf.drop off).take b.length ≠ b := by
  refine ⟨env, 5, 2, blob [1, 2, 3], st0, after (Obj.pack env 5 (blob [1, 2, 3]) st0),
    after (Obj.packInto env 5 2 (blob [1, 2, 3]) st0), [1, 2, 3], by rfl, by rfl, ?_⟩
  have : (after (Obj.packInto env 5 2 (blob [1, 2, 3]) st0)).buf = [1, 2, 3] := by rfl
  rw [this]; decide

/-- A nested message: the three methods on a concrete object. -/
example : result (Obj.pack env 10 (msg 5 [1, 2] [point 258 (-1)]) st0) = .ok [5, 2, 1, 2, 1, 2, 1, 255] ∧
    (after (Obj.packWrite env 10 (msg 5 [1, 2] [point 258 (-1)]) st0)).io
      = ⟨[5, 2, 1, 2, 1, 2, 1, 255], 8⟩ ∧
    (after (Obj.packInto env 10 1 (msg 5 [1, 2] [point 258 (-1)]) (withBuf (List.replicate 10 9) st0))).buf
      = [9, 5, 2, 1, 2, 1, 2, 1, 255, 9] := ⟨by rfl, by rfl, by rfl⟩

/-! ### C04 -/

/-- **C04** (packing, partial).  Right after a successful `obj.pack()` the `size` attribute of the
object's serializer is the number of bytes returned, whatever ran before and however often the same
serializer object was used recursively.  Missing: serializers without a `size` attribute
(`Condition` and `Self` as the only field), see `C04_full_is_false`. -/
theorem C04_pack_partial (env : Env) (n : Nat) (cls : ClassId) (bo : Option ByteOrder)
    (attrs : List (Name × Val)) (st st' : St) (b : Bytes) (ci : ClassInfo) (ser : Ser)
    (hser : objSer env cls bo = .ok (ci, ser)) (hsized : ser.sized = true)
    (h : Obj.pack env n (.obj cls bo attrs) st = .ok b st') : ser.readSize st' = .ok b.length st' := by
  obtain ⟨⟨b', ser'⟩, st1, e1, e2⟩ := M.bind_ok h
  cases e2
  have := (objPack_size env (pack_size env n) _).run _ _ _ e1
  obtain ⟨⟨ci2, ser2⟩, st2, e3, e4⟩ := M.bind_ok e1
  rw [hser] at e3
  cases e3
  obtain ⟨_, _, _, e5⟩ := M.bind_ok e4
  obtain ⟨_, _, _, e6⟩ := M.bind_ok e5
  obtain ⟨_, _, _, e7⟩ := M.bind_ok e6
  cases e7
  exact this hsized

/-- **C04** (any serializer object).  The same for every serializer, on its own `pack`. -/
theorem C04_pack_serializer (env : Env) (n : Nat) (s : Ser) (vs : List Val) (st st' : St) (b : Bytes)
    (hs : s.sized = true) (h : pack env n s vs st = .ok b st') : s.readSize st' = .ok b.length st' :=
  (pack_size env n s vs).run _ _ _ h hs

/-- **C04** (`pack_write`, `pack_into`).  After these the reported size is the number of bytes that
`pack` produces as well. -/
theorem C04_pack_write_into (env : Env) (n off : Nat) (s : Ser) (vs : List Val) (st st' : St)
    (hs : s.sized = true)
    (h : packWrite env n s vs st = .ok () st' ∨ packInto env n s off vs st = .ok () st') :
    ∃ b st1, pack env n s vs st = .ok b st1 ∧ s.readSize st' = .ok b.length st' := by
  have hw := (packWrite_sim env n s vs).run st st rfl
  have hi := packInto_sim env n s off vs st st rfl
  unfold SimI at hi
  cases hp : pack env n s vs st with
  | err e st1 =>
    rw [hp] at hw hi
    rcases h with h | h
    · obtain ⟨_, _, e, _⟩ := hw; rw [h] at e; cases e
    · exact (hi _ _ h).elim
  | ok b st1 =>
    rw [hp] at hw hi
    have h1 := (pack_size env n s vs).run _ _ _ hp
    refine ⟨b, st1, rfl, ?_⟩
    rcases h with h | h
    · obtain ⟨_, st2, w, e, hc, _⟩ := hw
      rw [h] at e; cases e
      exact readSize_of_cells hc.symm h1 hs
    · exact readSize_of_cells (hi.1 _ _ h).1.symm h1 hs

/-- **C04 is false in full**: the serializer of a class whose only field has a `Condition` has no
`size` at all. -/
theorem C04_full_is_false : ∃ (env : Env) (n : Nat) (v : Val) (st st' : St) (b : Bytes) (ci : ClassInfo),
    objSer env 4 none = .ok (ci, ci.serializer) ∧ Obj.pack env n v st = .ok b st' ∧
    ci.serializer.readSize st' = .err .attributeError st' :=
  ⟨env, 5, opt (.int 7), st0, st0, [], _, by rfl, by rfl, by rfl⟩

/-- Non-vacuous: a recursive class, whose one array serializer object is in use at three depths. -/
example : ∃ ci, objSer env 2 none = .ok (ci, ci.serializer) ∧ ci.serializer.sized = true ∧
    result (Obj.pack env 10 (tree 5 [tree 1 [], tree 2 [tree 3 []]]) st0) = .ok [5, 2, 1, 0, 2, 1, 3, 0] ∧
    result (ci.serializer.readSize (after (Obj.pack env 10 (tree 5 [tree 1 [], tree 2 [tree 3 []]]) st0)))
      = .ok 8 := ⟨_, by rfl, by rfl, by rfl, by rfl⟩

/-! ### C07 -/

theorem objPackInto_behind (env : Env) (n off : Nat) (v : Val) : Safe (Behind off) (Obj.packInto env n off v) := by
  exact Safe.bind (behind_frame off) (objPackInto_safe env off (fun s vs => packInto_safe env n s off vs) v)
    fun _ => Safe.pure (behind_frame off) _

/-- **C07** (before the window).  `pack_into` changes no byte before `offset` and never shrinks the
buffer, nor touches the stream, whether it succeeds or raises. -/
theorem C07_before_offset (env : Env) (n off : Nat) (v : Val) (st st2 : St)
    (h : (∃ a, Obj.packInto env n off v st = .ok a st2) ∨ (∃ e, Obj.packInto env n off v st = .err e st2)) :
    (∀ i, i < off → i < st.buf.length → st2.buf[i]? = st.buf[i]?) ∧
      st.buf.length ≤ st2.buf.length ∧ st2.io = st.io := by
  have hb := objPackInto_behind env n off v
  have : Behind off st st2 := by
    rcases h with ⟨a, h⟩ | ⟨e, h⟩
    · exact hb.ok h
    · exact hb.err h
  exact ⟨this.2.2, this.1, this.2.1⟩

/-- **C07** (after the window, partial).  A successful `pack_into` that keeps the buffer's length
changes no byte at or after `offset + size`, `size` being the number of packed bytes.  Missing:
growing buffers, see `C07_full_is_false`. -/
theorem C07_after_window_partial (env : Env) (n off : Nat) (v : Val) (st st2 : St)
    (h : Obj.packInto env n off v st = .ok () st2) (hlen : st2.buf.length = st.buf.length) :
    ∃ b st1, Obj.pack env n v st = .ok b st1 ∧
      ∀ i, off + b.length ≤ i → st2.buf[i]? = st.buf[i]? := by
  obtain ⟨b, st1, h1, h2, _, h3, _⟩ := C02_pack_into_partial env n off v st st2 h hlen
  refine ⟨b, st1, h1, ?_⟩
  intro i hi
  rcases h2 with rfl | h2
  · simp only [List.append_nil, List.length_nil, Nat.add_zero, List.take_append_drop] at h3
    rw [h3]
  · rw [h3, List.getElem?_append_right (by simp; omega)]
    simp only [List.length_append, List.length_take, List.getElem?_drop]
    congr 1; omega

/-- **C07** (length).  When the packed bytes fit, the buffer keeps its length. -/
theorem C07_length_when_fits (env : Env) (n off : Nat) (v : Val) (st st1 st2 : St) (b : Bytes)
    (h : Obj.pack env n v st = .ok b st1) (hfit : off + b.length ≤ st.buf.length)
    (h2 : Obj.packInto env n off v st = .ok () st2) : st2.buf.length = st.buf.length := by
  obtain ⟨st2', e, hb, _⟩ := C02_pack_into_fits env n off v st st1 b h hfit
  rw [h2] at e; cases e
  rw [hb]; simp; omega

/-- **C07 is false in full**: `pack_into` of a `char[math.inf]` field makes a short `bytearray` longer. -/
theorem C07_full_is_false : ∃ (env : Env) (n off : Nat) (v : Val) (st st2 : St),
    Obj.packInto env n off v st = .ok () st2 ∧ st2.buf.length ≠ st.buf.length :=
  ⟨env, 5, 2, blob [1, 2, 3], st0, after (Obj.packInto env 5 2 (blob [1, 2, 3]) st0), by rfl, by decide⟩

example : ∃ st2, Obj.packInto env 10 2 (point 513 7) (withBuf [9, 8, 7, 6, 5, 4, 3] st0) = .ok () st2 ∧
    st2.buf = [9, 8, 1, 2, 7, 4, 3] := ⟨_, by rfl, by rfl⟩

/-! ### C37 -/

/-- **C37** (`pack_write`).  Whether it returns or raises, `pack_write` leaves the stream content
before the starting position as it was and does not touch buffers. -/
theorem C37_pack_write_prefix (env : Env) (n : Nat) (v : Val) (st st2 : St)
    (h : (∃ a, Obj.packWrite env n v st = .ok a st2) ∨ (∃ e, Obj.packWrite env n v st = .err e st2)) :
    st2.io.data.take (min st.io.pos st.io.data.length) = st.io.data.take st.io.pos ∧ st2.buf = st.buf ∧
      ∃ w, st2.io = st.io.write w := by
  have hs : Safe WroteSome (Obj.packWrite env n v) :=
    Safe.bind wrote_frame (objPackWrite_safe env (packWrite_safe env n) v) fun _ => Safe.pure wrote_frame _
  have : WroteSome st st2 := by
    rcases h with ⟨a, h⟩ | ⟨e, h⟩
    · exact hs.ok h
    · exact hs.err h
  obtain ⟨w, h1, h2⟩ := this
  refine ⟨?_, h1, w, h2⟩
  rw [h2]
  by_cases hw : w = []
  · subst hw
    simp [Stream.write]
  · simp only [Stream.write, hw, ↓reduceIte, List.append_assoc]
    rw [List.take_append_of_le_length (by simp)]
    rw [List.take_take, List.take_eq_take_iff]; simp

/-- The bytes `obj.pack_write` has written when it returns or raises (`Sem.wrote`). -/
def wroteObj (env : Env) (n : Nat) (v : Val) : Bytes := Sem.wrote env (n + 1) (.structured [] 0) none [v]

/-- **C37** (what a failing `pack_write` wrote).  From every state: if packing `v` fails (in the
functional reading, hence whatever ran before), `pack_write` has written exactly `wroteObj`. -/
theorem C37_pack_write_failed (env : Env) (n : Nat) (v : Val) (st : St) (e : Err)
    (h : Sem.encObj env (Sem.enc env n) v = .err e) :
    ∃ st2, Obj.packWrite env n v st = .err e st2 ∧ st2.io = st.io.write (wroteObj env n v) ∧
      st2.buf = st.buf := by
  have := objPackWrite_rel (env := env) (packWrite_rel env n) v (wroteObj env n v) st (by
    unfold wroteObj
    cases v <;> simp only [Sem.wrote]
    rfl)
  rw [h] at this
  obtain ⟨st2, h1, h2⟩ := this
  refine ⟨st2, ?_, h2.2, h2.1⟩
  show M.bind _ _ _ = _
  simp [M.bind, h1]

/-- The values left after the fields `front` took theirs. -/
def restVals (p : PObj) : List Ser → List Val → List Val
  | [], vs => vs
  | s :: ss, vs => match Sem.pre s p with
    | .ok (s', _) => restVals p ss (vs.drop s'.numValues)
    | .error _ => vs

/-- **C37** (field by field).  What a container has written when its field `s` fails: the complete
bytes of the fields in front of `s`, followed by what `s` itself wrote. -/
theorem C37_written_field_by_field (env : Env) (n : Nat) (p : PObj) (front rest : List Ser)
    (s s' : Ser) (q : Option PObj) (vs used : List Val) (a : Sem.Enc) (e : Err)
    (hfront : Sem.encLoop (Sem.enc env n) (fun s => Sem.pre s p) Sem.touch front vs = .ok a)
    (hu : used = (restVals p front vs).take s'.numValues)
    (hs : Sem.pre s p = .ok (s', q)) (he : Sem.enc env n s' q used = .err e) :
    Sem.wroteLoop (Sem.enc env n) (Sem.wrote env n) (fun s => Sem.pre s p) (front ++ s :: rest) vs
      = a.bytes ++ Sem.wrote env n s' q used := by
  induction front generalizing vs a with
  | nil =>
    cases hfront
    simp only [restVals] at hu
    subst hu
    simp only [List.nil_append, Sem.wroteLoop, hs, he]
  | cons f fs ih =>
    simp only [Sem.encLoop] at hfront
    cases hp : Sem.pre f p with
    | error e' => rw [hp] at hfront; cases hfront
    | ok fq =>
      obtain ⟨f', fq⟩ := fq
      rw [hp] at hfront
      simp only [restVals, hp] at hu
      change (Sem.enc env n f' fq (vs.take f'.numValues) >>= _) = _ at hfront
      cases hf : Sem.enc env n f' fq (vs.take f'.numValues) with
      | stuck => rw [hf] at hfront; cases hfront
      | err e' => rw [hf] at hfront; cases hfront
      | ok fa =>
        rw [hf] at hfront
        change (if ¬ f'.sized = true then _ else _) = _ at hfront
        cases hz : f'.sized with
        | false => simp [hz] at hfront
        | true =>
          simp only [hz, not_true_eq_false, ↓reduceIte] at hfront
          change (Sem.encLoop _ _ _ fs (vs.drop f'.numValues) >>= _) = _ at hfront
          cases hr : Sem.encLoop (Sem.enc env n) (fun s => Sem.pre s p) Sem.touch fs (vs.drop f'.numValues) with
          | stuck => rw [hr] at hfront; cases hfront
          | err e' => rw [hr] at hfront; cases hfront
          | ok ra =>
            rw [hr] at hfront
            cases hfront
            simp only [List.cons_append, Sem.wroteLoop, hp, hf, hz, ↓reduceIte, List.append_assoc]
            rw [ih _ _ hr hu]

/-- **C37** (reading).  Packing to bytes changes neither stream nor buffer; unpacking changes no
content, and moves the stream position only when reading from the stream. -/
theorem C37_pack_changes_nothing (env : Env) (n : Nat) (v : Val) (st st2 : St)
    (h : (∃ a, Obj.pack env n v st = .ok a st2) ∨ (∃ e, Obj.pack env n v st = .err e st2)) :
    st2.buf = st.buf ∧ st2.io = st.io := by
  have hs : Safe Fr (Obj.pack env n v) :=
    Safe.bind fr_frame (objPack_safe env (pack_safe env n) v) fun _ => Safe.pure fr_frame _
  rcases h with ⟨a, h⟩ | ⟨e, h⟩
  · exact hs.ok h
  · exact hs.err h

theorem C37_unpack_changes_nothing (env : Env) (n : Nat) (cls : ClassId) (src : Src) (st st2 : St)
    (h : (∃ a, createUnpack env n cls src st = .ok a st2) ∨ (∃ e, createUnpack env n cls src st = .err e st2)) :
    st2.buf = st.buf ∧ st2.io.data = st.io.data ∧ (src ≠ .io → st2.io = st.io) := by
  have F := frR_frame src
  have hs : Safe (FrR src) (createUnpack env n cls src) :=
    Safe.bind F (createUnpackWith_safe env (unpack_safe env n) cls src) fun _ => Safe.pure F _
  have : FrR src st st2 := by
    rcases h with ⟨a, h⟩ | ⟨e, h⟩
    · exact hs.ok h
    · exact hs.err h
  obtain ⟨_, h⟩ := this
  exact ⟨h.buf, h.data, h.other⟩

/-- A message whose second field cannot be packed: the first is already written, older content stays. -/
example : ∃ st2, Obj.packWrite env 10 (.obj 1 none [("tag", .int 5), ("name", .int 3), ("points", .list [])])
      { st0 with io := ⟨[7, 8], 2⟩ } = .err .typeError st2 ∧ st2.io.data = [7, 8, 5] := ⟨_, by rfl, by rfl⟩

end Verif
