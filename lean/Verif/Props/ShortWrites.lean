import Verif.Proofs.ShortWrites
import Verif.Props.Packing
import Verif.Samples

/-!
C68: streams that take fewer bytes than they are given, or raise.
-/
namespace Verif
open Samples ShortW

namespace ShortW

theorem write_inj {io : Stream} {a b : Bytes} (h : io.write a = io.write b) : a = b := by
  have hl : a.length = b.length := by
    have := congrArg Stream.pos h
    rw [write_pos, write_pos] at this
    omega
  by_cases ha : a = []
  · subst ha
    exact (List.length_eq_zero_iff.1 hl.symm).symm
  · have hb : b ≠ [] := fun hb => ha (List.length_eq_zero_iff.1 (by rw [hl, hb]; rfl))
    have := congrArg Stream.data h
    simp only [Stream.write, ha, hb, if_false, hl] at this
    exact List.append_cancel_left (List.append_cancel_right this)

end ShortW

/-- **C68** (pieces).  `pack_write` gives the stream the bytes of `pack()` in pieces that do not depend on what the stream does with them, stops at the
first call that raises, with that exception, and otherwise returns and leaves the serializers as `pack()` does. -/
theorem C68_pieces {env : Env} {n : Nat} {v : Val} {st st1 : St} {b : Bytes} (h : Obj.pack env n v st = .ok b st1) :
    ∃ bs : List Bytes, bs.flatten = b ∧ ∀ (as : List Answer), match feed bs as st.io with
      | (none, io, as') => ∃ st2, ShortW.objPackWrite env n v as st = (.ok () st2, as') ∧ st2.io = io ∧ st2.buf = st.buf ∧ st2.cells = st1.cells
      | (some e, io, as') => ∃ st2, ShortW.objPackWrite env n v as st = (.err e st2, as') ∧ st2.io = io := by
  obtain ⟨bs, h1, h2⟩ := plays_object env n v st
  have hp := C02_pack_write env n v st
  rw [h] at hp
  obtain ⟨st2, e2, i2, b2, c2⟩ := hp
  rw [e2] at h1 h2
  refine ⟨bs, ?_, fun as => ?_⟩
  · rw [foldl_write] at h1
    exact write_inj (h1.symm.trans i2)
  · have := h2 as st.io
    cases hf : feed bs as st.io with
    | mk o r =>
      obtain ⟨io, as'⟩ := r
      rw [hf] at this
      cases o with
      | none => exact ⟨_, this, rfl, b2, c2⟩
      | some e => exact this

/-- **C68** (partial: streams that take all they are given, or raise).  If every call of `write` takes all its data or raises, then `pack_write` returns and
the stream has all the bytes of `pack()`, or it raises what the stream raised and the stream has a beginning of these bytes. -/
theorem C68_partial {env : Env} {n : Nat} {v : Val} {st st1 : St} {b : Bytes} (h : Obj.pack env n v st = .ok b st1)
    {as : List Answer} (ha : Complete b.length as) :
    (∃ st2 as', ShortW.objPackWrite env n v as st = (.ok () st2, as') ∧ st2.io = st.io.write b ∧ st2.buf = st.buf ∧ st2.cells = st1.cells) ∨
    (∃ e k st2 as', .raises k e ∈ as ∧ ShortW.objPackWrite env n v as st = (.err e st2, as') ∧ ∃ j, st2.io = st.io.write (b.take j)) := by
  obtain ⟨bs, rfl, hs⟩ := C68_pieces h
  have := hs as
  obtain ⟨j, h1, h2⟩ := feed_complete bs as st.io (Nat.le_refl _) ha
  cases hf : feed bs as st.io with
  | mk o r =>
    obtain ⟨io, as'⟩ := r
    rw [hf] at this h1 h2
    cases o with
    | none =>
      obtain ⟨st2, e2, i2, b2, c2⟩ := this
      exact .inl ⟨st2, as', e2, i2.trans (h2 rfl), b2, c2⟩
    | some e =>
      obtain ⟨st2, e2, i2⟩ := this
      obtain ⟨k, hk⟩ := feed_raises hf
      exact .inr ⟨e, k, st2, as', hk, e2, j, i2.trans h1⟩

/-- **C68** (partial: how to notice).  Whatever the stream does, it is never moved by more than the number of bytes of `pack()`, and if it was moved by that
many then it has all of them. -/
theorem C68_moved_partial {env : Env} {n : Nat} {v : Val} {st st1 st2 : St} {b : Bytes} (h : Obj.pack env n v st = .ok b st1)
    {as as' : List Answer} {r : Res Unit} (hw : ShortW.objPackWrite env n v as st = (r, as')) (hr : r = .ok () st2 ∨ ∃ e, r = .err e st2) :
    st2.io.pos ≤ st.io.pos + b.length ∧ (st2.io.pos = st.io.pos + b.length → st2.io = st.io.write b) := by
  obtain ⟨bs, rfl, hs⟩ := C68_pieces h
  have := hs as
  have hp := feed_pos bs as st.io
  have : st2.io = (feed bs as st.io).2.1 := by
    split at this
    · rename_i io as2 hf
      obtain ⟨s, e2, i2, -⟩ := this
      rw [hw] at e2
      cases e2
      rcases hr with hr | ⟨e, hr⟩
      · cases hr; rw [hf]; exact i2
      · cases hr
    · rename_i e io as2 hf
      obtain ⟨s, e2, i2⟩ := this
      rw [hw] at e2
      cases e2
      rcases hr with hr | ⟨e, hr⟩
      · cases hr
      · cases hr; rw [hf]; exact i2
  rw [this]
  exact hp

/-- **C68** (objects that cannot be packed).  If `pack()` raises, `pack_write` raises the same or what the stream raised. -/
theorem C68_not_packed {env : Env} {n : Nat} {v : Val} {st st1 : St} {e : Err} (h : Obj.pack env n v st = .err e st1) (as : List Answer) :
    ∃ e' st2 as', ShortW.objPackWrite env n v as st = (.err e' st2, as') ∧ (e' = e ∨ ∃ k, .raises k e' ∈ as) := by
  obtain ⟨bs, h1, h2⟩ := plays_object env n v st
  have hp := C02_pack_write env n v st
  rw [h] at hp
  obtain ⟨st2, e2⟩ := hp
  rw [e2] at h2
  have := h2 as st.io
  split at this
  · exact ⟨e, _, _, this, .inl rfl⟩
  · rename_i e' io as' hf
    obtain ⟨st', h3, -⟩ := this
    exact ⟨e', st', as', h3, .inr (feed_raises hf)⟩

/-- **C68** (streams that take everything).  Then it is the `pack_write` of the other properties, also when it raises. -/
theorem C68_complete (env : Env) (n : Nat) (v : Val) (st : St) : ShortW.objPackWrite env n v [] st = (Obj.packWrite env n v st, []) := by
  obtain ⟨bs, h1, h2⟩ := plays_object env n v st
  have := h2 [] st.io
  have hf : ∀ (bs : List Bytes) io, feed bs [] io = (none, bs.foldl Stream.write io, []) := by
    intro bs
    induction bs with
    | nil => intro io; rfl
    | cons b bs ih => intro io; exact ih _
  rw [hf] at this
  simp only at this
  rw [← h1] at this
  refine Eq.trans this ?_
  cases Obj.packWrite env n v st <;> rfl

/-- **C68** (the first call).  A stream whose first `write` raises: `pack_write` raises that, and the stream is as
before if it took nothing.  (An object without bytes may be packed without any call.) -/
theorem C68_first {env : Env} {n : Nat} {v : Val} {st st1 : St} {b : Bytes} (h : Obj.pack env n v st = .ok b st1) (hb : b ≠ []) (e : Err) (as : List Answer) :
    ∃ st2, ShortW.objPackWrite env n v (.raises 0 e :: as) st = (.err e st2, as) ∧ st2.io = st.io := by
  obtain ⟨bs, rfl, hs⟩ := C68_pieces h
  have := hs (.raises 0 e :: as)
  cases bs with
  | nil => exact absurd rfl hb
  | cons c bs =>
    obtain ⟨st2, h1, h2⟩ := this
    exact ⟨st2, h1, by rw [h2]; simp [Stream.write]⟩

namespace Samples

/-- The bytes in the stream after a call. -/
def inStream : Res α → Bytes
  | .ok _ st => st.io.data
  | .err _ st => st.io.data

/-- `class Sent(Structured): a: char[b'\0']; b: uint8; c: char[b'\0']` -/
def sentClasses : ClassId → Option ClassInfo
  | 1 => some { attrs := ["a", "b", "c"], byteOrder := .le, serializer := .compound [1] [.terminated [2] 0, .struct ⟨['<', 'B'], Option.none⟩, .terminated [3] 0] }
  | _ => Option.none

def sent : Env := ⟨plat, sentClasses⟩

def sentObj : Val := .obj 1 Option.none [("a", .bytes [97, 98]), ("b", .int 5), ("c", .bytes [99])]

end Samples

example : result (Obj.pack sent 3 sentObj st0) = .ok [97, 98, 0, 5, 99, 0] := by rfl
example : inStream (ShortW.objPackWrite sent 3 sentObj [] st0).1 = [97, 98, 0, 5, 99, 0] := by rfl
-- the disk is full
example : result (ShortW.objPackWrite sent 3 sentObj [.takes 9, .raises 0 (.user 28)] st0).1 = .error (.user 28) ∧
    inStream (ShortW.objPackWrite sent 3 sentObj [.takes 9, .raises 0 (.user 28)] st0).1 = [97, 98, 0] := ⟨by rfl, by rfl⟩
example : Complete 6 [.takes 9, .raises 0 (.user 28)] := by
  intro k hk
  simp at hk
  omega

/-- **C68 is false in full**.  The number returned by `write` is not looked at (`structs.py:144`, `strings.py:168,300`, `arrays.py:135`): a stream that takes
two of the three bytes of the first string gets the other fields right behind them, and nothing is raised. -/
theorem C68_is_false :
    result (ShortW.objPackWrite sent 3 sentObj [.takes 2] st0).1 = .ok () ∧
    inStream (ShortW.objPackWrite sent 3 sentObj [.takes 2] st0).1 = [97, 98, 5, 99, 0] ∧
    result (Obj.pack sent 3 sentObj st0) = .ok [97, 98, 0, 5, 99, 0] := ⟨by rfl, by rfl, by rfl⟩

/-- **C68** (the damage).  The bytes of `C68_is_false` are those of another object: the string swallows the next field. -/
theorem C68_misread_is_false :
    result (createUnpack sent 3 1 (.buf [97, 98, 5, 99, 0, 7, 0]) st0) =
      .ok (.obj 1 Option.none [("a", .bytes [97, 98, 5, 99]), ("b", .int 7), ("c", .bytes [])]) := by rfl

end Verif
