import Verif.Spec.Sequence
import Verif.Props.RoundTrip
/-
C49: packed objects can be told apart, and read back when they are written one after another.
-/
namespace Verif
open Sem Samples

variable {env : Env}

/-- **C49** (different objects, partial).  Two representable objects of a class that pack to the same bytes come back as the same
object.  Missing, and false: objects that are not representable (`C49_full_is_false`). -/
theorem C49_injective_partial {t l t' l' : Bool} {n : Nat} {cls : ClassId} {v v' w w' : Val} (hv : KeptObj env t l cls v v')
    (hw : KeptObj env t' l' cls w w') (cv : Calm env v.nodes) (cw : Calm env w.nodes) {st1 st1' st2 st2' : St} {b : Bytes}
    (h1 : Obj.pack env n v st1 = .ok b st1') (h2 : Obj.pack env n w st2 = .ok b st2') : v' = w' := by
  obtain ⟨s1, g1, -⟩ := C01_partial env t l n cls v v' cv hv st1 st1' b h1 [] (fun _ => rfl) st1
  obtain ⟨s2, g2, -⟩ := C01_partial env t' l' n cls w w' cw hw st2 st2' b h2 [] (fun _ => rfl) st1
  rw [g1] at g2
  cases g2
  rfl

/-- **C49** (prefixes, partial).  The bytes of one object are never the beginning of those of another one of its class, unless
it ends in a read-to-end string (`C49_prefix_is_false`). -/
theorem C49_prefix_partial {t t' l' : Bool} {n : Nat} {cls : ClassId} {ci : ClassInfo} (hci : env.classes cls = some ci)
    (hs : ci.serializer.sized = true) {v v' w w' : Val} (hv : KeptObj env t false cls v v')
    (hw : KeptObj env t' l' cls w w') (cv : Calm env v.nodes) (cw : Calm env w.nodes) {st1 st1' st2 st2' : St} {b rest : Bytes}
    (h1 : Obj.pack env n v st1 = .ok b st1') (h2 : Obj.pack env n w st2 = .ok (b ++ rest) st2') : rest = [] ∧ v' = w' := by
  obtain ⟨s1, g1, z1⟩ := C01_partial env t false n cls v v' cv hv st1 st1' b h1 rest (by simp) st1
  obtain ⟨s2, g2, z2⟩ := C01_partial env t' l' n cls w w' cw hw st2 st2' _ h2 [] (fun _ => rfl) st1
  rw [List.append_nil] at g2
  rw [g1] at g2
  cases g2
  have e := (z1 ci hci hs).symm.trans (z2 ci hci hs)
  cases hl : rest with
  | nil => exact ⟨rfl, rfl⟩
  | cons x xs =>
    subst hl
    have : b.length = (b ++ x :: xs).length := by injection e
    simp at this

/-! ### Streams -/

theorem stream_write_shows (s : Stream) (b : Bytes) (h : s.pos ≤ s.data.length) :
    (s.write b).pos = s.pos + b.length ∧ (s.write b).pos ≤ (s.write b).data.length ∧
    (s.write b).data.take (s.pos + b.length) = s.data.take s.pos ++ b := by
  unfold Stream.write
  by_cases hb : b = []
  · subst hb; simp [h]
  · simp only [if_neg hb]
    have hz : s.pos - s.data.length = 0 := by omega
    have hl : (s.data.take s.pos).length = s.pos := by simp; omega
    refine ⟨trivial, by simp; omega, ?_⟩
    rw [hz, List.replicate_zero, List.append_nil, List.take_append_of_le_length (by simp; omega), List.take_of_length_le (by simp; omega)]

theorem packWrite_ok {n : Nat} {v : Val} {st st' : St} (h : Obj.packWrite env n v st = .ok () st') :
    ∃ b s, Obj.pack env n v st = .ok b s ∧ st'.io = st.io.write b := by
  have h0 := C02_pack_write env n v st
  cases hp : Obj.pack env n v st with
  | err e s => rw [hp] at h0; obtain ⟨s2, h0⟩ := h0; rw [h] at h0; cases h0
  | ok b s =>
    rw [hp] at h0
    obtain ⟨s2, h0, hio, _⟩ := h0
    rw [h] at h0
    cases h0
    exact ⟨b, s, rfl, hio⟩

/-- The bytes of the objects, one after another, are in the stream; what was in front is still there. -/
theorem writeAll_shows {t : Bool} {n : Nat} {cs : List ClassId} {vs vs' : List Val} (hk : KeptAll env t cs vs vs') :
    ∀ {st st' : St}, st.io.pos ≤ st.io.data.length → writeAll env n vs st = .ok () st' →
    ∃ b, st'.io.pos = st.io.pos + b.length ∧ st'.io.pos ≤ st'.io.data.length ∧ st'.io.data.take st'.io.pos = st.io.data.take st.io.pos ++ b ∧
      ∀ (rest : Bytes) (s : St), s.io.data.drop s.io.pos = b ++ rest →
        ∃ s', readAll env n cs s = .ok vs' s' ∧ s'.io.data = s.io.data ∧ s'.io.pos = s.io.pos + b.length := by
  induction hk with
  | nil =>
    intro st st' hp h
    cases h
    exact ⟨[], by simp, hp, by simp, fun rest s _ => ⟨s, rfl, rfl, by simp⟩⟩
  | cons c v v' cs vs vs' h1 h2 _ ih =>
    intro st st' hp h
    obtain ⟨_, sm, hw, hr⟩ := M.bind_ok h
    obtain ⟨b, s1, hpk, hio⟩ := packWrite_ok hw
    obtain ⟨w1, w2, w3⟩ := stream_write_shows st.io b hp
    rw [← hio] at w1 w2 w3
    obtain ⟨bs, i1, i2, i3, i4⟩ := ih w2 hr
    refine ⟨b ++ bs, by rw [i1, w1]; simp; omega, i2, ?_, ?_⟩
    · rw [i3, w1, w3, List.append_assoc]
    · intro rest s hs
      rw [List.append_assoc] at hs
      obtain ⟨s', g1, g2, g3⟩ := C01_read_partial env t false n c v v' h2 h1 st s1 b hpk (bs ++ rest) (by simp) s hs
      obtain ⟨s'', j1, j2, j3⟩ := i4 rest s' (by rw [g2, g3, ← List.drop_drop, hs, List.drop_left])
      refine ⟨s'', ?_, j2.trans g2, by rw [j3, g3]; simp; omega⟩
      show (createUnpack env n c .io >>= fun v => readAll env n cs >>= fun vs => pure (v :: vs)) s = _
      rw [M.bind_eq g1, M.bind_eq j1]
      rfl

/-- **C49** (streams, partial).  Objects of any classes, written to a stream one after another, are read back in the same order
from where the first was written, and the stream is then where writing ended, whatever was in the stream and whatever is run in
between. -/
theorem C49_stream_partial {t : Bool} {n : Nat} {cs : List ClassId} {vs vs' : List Val} (hk : KeptAll env t cs vs vs')
    {st st' : St} (hp : st.io.pos ≤ st.io.data.length) (h : writeAll env n vs st = .ok () st') (s : St)
    (hs : s.io = ⟨st'.io.data, st.io.pos⟩) :
    ∃ s', readAll env n cs s = .ok vs' s' ∧ s'.io = st'.io := by
  obtain ⟨b, h1, h2, h3, h4⟩ := writeAll_shows hk hp h
  have hl : (st.io.data.take st.io.pos).length = st.io.pos := by simp; omega
  have hd : s.io.data.drop s.io.pos = b ++ st'.io.data.drop st'.io.pos := by
    have e : st'.io.data = st.io.data.take st.io.pos ++ (b ++ st'.io.data.drop st'.io.pos) := by
      rw [← List.append_assoc, ← h3, List.take_append_drop]
    rw [hs]
    show st'.io.data.drop st.io.pos = _
    conv => lhs; rw [e]
    rw [List.drop_append_of_le_length (by omega), List.drop_of_length_le (by omega), List.nil_append]
  obtain ⟨s', g1, g2, g3⟩ := h4 _ s hd
  refine ⟨s', g1, ?_⟩
  have : s'.io = ⟨s'.io.data, s'.io.pos⟩ := rfl
  rw [this, g2, g3, hs, ← h1]

/-! ### Buffers -/

/-- **C49** (buffers, partial).  The same for objects packed into one byte string and read at offsets, each behind the size of
the one before.  (Without terminated strings, see `C03_full_is_false`.) -/
theorem C49_buffer_partial {n : Nat} {cs : List ClassId} {vs vs' : List Val} (hk : KeptAll env false cs vs vs') (hz : allSized env cs) :
    ∀ {st st' : St} {b : Bytes}, packAll env n vs st = .ok b st' → ∀ (front rest : Bytes) (s : St),
      result (readFrom env n (front ++ b ++ rest) front.length cs s) = .ok vs' := by
  induction hk with
  | nil => intro st st' b h front rest s; rfl
  | cons c v v' cs vs vs' h1 h2 _ ih =>
    intro st st' b h front rest s
    obtain ⟨b1, s1, p1, p2⟩ := M.bind_ok h
    obtain ⟨bs, s2, p3, p4⟩ := M.bind_ok p2
    cases p4
    obtain ⟨s3, g1, _, g3⟩ := roundTrip h2 h1 p1 (src := .at (front ++ (b1 ++ bs) ++ rest) front.length) (st := s) (rest := bs ++ rest)
      ⟨by simp, by rw [List.append_assoc, List.drop_left, List.append_assoc]⟩ (by simp) (by simp)
    have hci : ∃ ci, env.classes c = some ci := by cases h1; exact ⟨_, by assumption⟩
    obtain ⟨ci, hci⟩ := hci
    have hsz := g3 ci hci (hz c (by simp) ci hci)
    have i := ih (fun c' hc' => hz c' (by simp [hc'])) p3 (front ++ b1) rest s3
    show result ((createUnpack env n c (.at (front ++ (b1 ++ bs) ++ rest) front.length) >>= fun v =>
      classSize env c >>= fun sz => readFrom env n (front ++ (b1 ++ bs) ++ rest) (front.length + sz) cs >>= fun vs => pure (v :: vs)) s) = _
    rw [M.bind_eq g1, M.bind_eq (show classSize env c s3 = .ok b1.length s3 from by unfold classSize; rw [hci]; exact hsz)]
    have e : front ++ (b1 ++ bs) ++ rest = front ++ b1 ++ bs ++ rest := by simp
    have e2 : front.length + b1.length = (front ++ b1).length := by simp
    rw [e, e2]
    cases hr : readFrom env n (front ++ b1 ++ bs ++ rest) (front ++ b1).length cs s3 with
    | err er s4 => rw [hr] at i; cases i
    | ok ws s4 =>
      rw [hr] at i
      cases i
      rw [M.bind_eq hr]
      rfl

/-! ### Concrete cases -/

/-- A message, a tree and a point in one stream, behind other content. -/
example : KeptAll Samples.env true [1, 2, 0] [msg 5 [1] [point 1 2], tree 3 [tree 4 []], point 7 8] [msg 5 [1] [point 1 2], tree 3 [tree 4 []], point 7 8] :=
  .cons _ _ _ _ _ _ (msg_kept true 5 [1] [(1, 2)]) (calm_of_plain samples_plain _)
    (.cons _ _ _ _ _ _ ((Rose.node 3 [.node 4 []]).kept true) (calm_of_plain samples_plain _)
      (.cons _ _ _ _ _ _ (point_kept true 7 8) (calm_of_plain samples_plain _) .nil))

example : ∃ st', writeAll Samples.env 9 [msg 5 [1] [point 1 2], tree 3 [tree 4 []], point 7 8] { st0 with io := ⟨[99], 1⟩ } = .ok () st' ∧
    st'.io = ⟨[99, 5, 1, 1, 1, 1, 0, 2, 3, 1, 4, 0, 7, 0, 8], 15⟩ := ⟨_, rfl, rfl⟩

example : result (readFrom Samples.env 9 [99, 5, 1, 1, 1, 1, 0, 2, 3, 1, 4, 0, 7, 0, 8] 1 [1, 2, 0] st0) =
    .ok [msg 5 [1] [point 1 2], tree 3 [tree 4 []], point 7 8] := by rfl

/-- **C49 is false in full.**  Different objects may have the same bytes: a `char[4]` is filled up with NULs. -/
theorem C49_full_is_false : ∃ (env : Env) (v w : Val) (st : St) (b : Bytes), v ≠ w ∧
    v = .obj 0 none [("name", .bytes [65])] ∧ w = .obj 0 none [("name", .bytes [65, 0, 0])] ∧
    result (Obj.pack env 9 v st) = .ok b ∧ result (Obj.pack env 9 w st) = .ok b :=
  ⟨⟨plat, fun _ => some { attrs := ["name"], serializer := .struct ⟨"4s".toList, none⟩, byteOrder := .default }⟩, _, _, st0, [65, 0, 0, 0],
    by simp, rfl, rfl, by rfl, by rfl⟩

/-- **C49 is false in full** (prefixes).  An object that ends in a read-to-end string cannot be followed by anything. -/
theorem C49_prefix_is_false : ∃ (v w : Val) (b rest : Bytes), rest ≠ [] ∧ result (Obj.pack Samples.env 9 v st0) = .ok b ∧
    result (Obj.pack Samples.env 9 w st0) = .ok (b ++ rest) ∧ v = blob [1] ∧ w = blob [1, 2] :=
  ⟨_, _, [1], [2], by simp, by rfl, by rfl, rfl, rfl⟩

end Verif
