import Verif.Proofs.SimWrite
import Verif.Spec.ShortWrites

/-!
Short writes: `pack_write` gives the stream the same pieces of data whatever the stream does with them, until it raises.
-/
namespace Verif.ShortW

/-- The same outcome with another stream. -/
def onIo (io : Stream) : Res α → Res α
  | .ok a st => .ok a { st with io := io }
  | .err e st => .err e { st with io := io }

/-- The stream of an outcome. -/
def ioOf : Res α → Stream
  | .ok _ st => st.io
  | .err _ st => st.io

/-- `x` gives the stream the pieces `bs` and is `y` otherwise. -/
def Says (x : W α) (r : Res α) (st : St) (bs : List Bytes) : Prop := ∀ as io,
  match feed bs as io with
  | (none, io', as') => x as { st with io := io } = (onIo io' r, as')
  | (some e, io', as') => ∃ st', x as { st with io := io } = (.err e st', as') ∧ st'.io = io'

/-- `x` is `y` for a stream that decides what it takes. -/
def Plays (x : W α) (y : M α) : Prop := ∀ st, ∃ bs, ioOf (y st) = bs.foldl Stream.write st.io ∧ Says x (y st) st bs

theorem feed_append (bs cs : List Bytes) (as : List Answer) (io : Stream) :
    feed (bs ++ cs) as io = match feed bs as io with
      | (none, io', as') => feed cs as' io'
      | (some e, io', as') => (some e, io', as') := by
  induction bs generalizing as io with
  | nil => rfl
  | cons b bs ih =>
    cases as with
    | nil => exact ih _ _
    | cons a as =>
      cases a with
      | takes k => exact ih _ _
      | raises k e => rfl

theorem Plays.of {x : M α} (h : CellOp x) : Plays (W.of x) x := by
  intro st
  refine ⟨[], ?_, ?_⟩
  · have := h.run st st rfl
    cases hx : x st with
    | ok a s => rw [hx] at this; obtain ⟨_, _, _, f, _⟩ := this; exact f.2
    | err a s => rw [hx] at this; obtain ⟨_, _, _, f, _⟩ := this; exact f.2
  · intro as io
    show W.of x as { st with io := io } = _
    have := h.run st { st with io := io } rfl
    unfold W.of
    cases hx : x st with
    | ok a s =>
      rw [hx] at this
      obtain ⟨s2, e2, c2, f1, f2⟩ := this
      rw [e2]
      simp only [onIo]
      obtain ⟨c, b, i⟩ := s2
      obtain ⟨c', b', i'⟩ := s
      have q1 : b = st.buf := f2.1
      have q2 : i = io := f2.2
      have q3 : b' = st.buf := f1.1
      simp only at c2
      rw [q1, q2, q3, c2]
    | err a s =>
      rw [hx] at this
      obtain ⟨s2, e2, c2, f1, f2⟩ := this
      rw [e2]
      simp only [onIo]
      obtain ⟨c, b, i⟩ := s2
      obtain ⟨c', b', i'⟩ := s
      have q1 : b = st.buf := f2.1
      have q2 : i = io := f2.2
      have q3 : b' = st.buf := f1.1
      simp only at c2
      rw [q1, q2, q3, c2]

theorem Plays.pure (a : α) : Plays (W.pure a) (Pure.pure a : M α) := Plays.of (CellOp.pure a)

theorem Plays.write (b : Bytes) : Plays (write b) (ioWrite b) := by
  intro st
  refine ⟨[b], rfl, ?_⟩
  intro as io
  cases as with
  | nil => rfl
  | cons a as =>
    cases a with
    | takes k => rfl
    | raises k e => exact ⟨_, rfl, rfl⟩

theorem Plays.bind {x : W α} {y : M α} {f : α → W β} {g : α → M β} (h : Plays x y) (hk : ∀ a, Plays (f a) (g a)) :
    Plays (x >>= f) (y >>= g) := by
  intro st
  obtain ⟨bs, hio, hs⟩ := h st
  have e2 : (y >>= g) st = M.bind y g st := rfl
  rw [e2]
  unfold M.bind
  cases hy : y st with
  | err e s =>
    rw [hy] at hio hs
    refine ⟨bs, hio, ?_⟩
    intro as io
    have e1 : (x >>= f) as { st with io := io } = W.bind x f as { st with io := io } := rfl
    have := hs as io
    rw [e1]
    unfold W.bind
    split
    · rename_i io' as' hf
      rw [hf] at this
      simp only at this
      rw [this]
      rfl
    · rename_i e' io' as' hf
      rw [hf] at this
      simp only at this
      obtain ⟨st', h1, h2⟩ := this
      rw [h1]
      exact ⟨st', rfl, h2⟩
  | ok a s =>
    rw [hy] at hio hs
    obtain ⟨cs, hio2, hs2⟩ := hk a s
    refine ⟨bs ++ cs, ?_, ?_⟩
    · simp only [List.foldl_append]
      rw [hio2]
      exact congrArg (List.foldl Stream.write · cs) hio
    · intro as io
      have e1 : (x >>= f) as { st with io := io } = W.bind x f as { st with io := io } := rfl
      have := hs as io
      rw [e1, feed_append]
      unfold W.bind
      cases hf : feed bs as io with
      | mk o r =>
        obtain ⟨io', as'⟩ := r
        rw [hf] at this
        cases o with
        | none =>
          simp only at this ⊢
          rw [this]
          exact hs2 as' io'
        | some e =>
          simp only at this ⊢
          obtain ⟨st', h1, h2⟩ := this
          rw [h1]
          exact ⟨st', rfl, h2⟩

theorem Plays.step {x : M α} {f : α → W β} {g : α → M β} (h : CellOp x) (hk : ∀ a, Plays (f a) (g a)) :
    Plays (W.of x >>= f) (x >>= g) := Plays.bind (Plays.of h) hk

theorem plays_loop {p : Ser → List Val → W Unit} {q : Ser → List Val → M Unit} (h : ∀ s vs, Plays (p s vs) (q s vs))
    {pre : Ser → M Ser} (hp : ∀ s, CellOp (pre s)) : ∀ size ss vals, Plays (loop p pre size ss vals) (packWriteLoop q pre size ss vals) := by
  intro size ss
  induction ss generalizing size with
  | nil => intro vals; exact .pure _
  | cons s ss ih =>
    intro vals
    rw [loop, packWriteLoop]
    exact .step (hp s) fun s' => .bind (h _ _) fun _ => .step (CellOp.readSize _) fun _ => ih _ _

theorem plays_obj (env : Env) {p : Ser → List Val → W Unit} {q : Ser → List Val → M Unit} (h : ∀ s vs, Plays (p s vs) (q s vs)) (v : Val) :
    Plays (obj env p v) (Verif.objPackWrite env q v) := by
  cases v with
  | obj cls bo attrs =>
    exact .step (CellOp.lift _) fun _ => .step (CellOp.prepack _ _) fun _ => .step (CellOp.lift _) fun _ => .bind (h _ _) fun _ => .pure _
  | _ => exact .of (CellOp.throw _)

theorem plays_union {p : Ser → List Val → W Unit} {q : Ser → List Val → M Unit} (h : ∀ s vs, Plays (p s vs) (q s vs)) (id : SerId)
    (decider : PObj → Except Err Val) (keys : List Val) (opts : List Ser) (dflt : Ser) (vs : List Val) :
    Plays (union p id decider keys opts dflt vs) (do
      let p ← getPart id
      let r ← M.lift (decider p)
      let s ← getSerializer true id keys opts dflt r
      q s vs
      setSize id (← s.readSize)) :=
  .step (CellOp.getPart _) fun _ => .step (CellOp.lift _) fun _ => .step (CellOp.getSerializer ..) fun _ => .bind (h _ _) fun _ =>
    .step (CellOp.readSize _) fun _ => .of (CellOp.setSize _ _)

theorem plays_packWrite (env : Env) : ∀ n s vs, Plays (packWrite env n s vs) (Verif.packWrite env n s vs) := by
  intro n
  induction n with
  | zero => intro s vs; exact .of (CellOp.throw _)
  | succ n ih =>
    intro s vs
    cases s with
    | null => exact .pure _
    | struct st => exact .step (CellOp.lift _) fun _ => .write _
    | dynChar id st => exact .step (CellOp.lift _) fun _ => .step (CellOp.setSize _ _) fun _ => .step (CellOp.lift _) fun _ => .write _
    | consuming id => exact .step (CellOp.lift _) fun _ => .step (CellOp.setSize _ _) fun _ => .write _
    | terminated id term => exact .step (CellOp.lift _) fun _ => .step (CellOp.setSize _ _) fun _ => .step (CellOp.lift _) fun _ => .write _
    | net id => exact .step (CellOp.lift _) fun _ => .step (CellOp.setSize _ _) fun _ => .step (CellOp.lift _) fun _ => .write _
    | unicode inner enc dec => exact .step (CellOp.lift _) fun _ => ih _ _
    | array => exact .step (pack_cell env _ _ _) fun _ => .write _
    | staticArr => exact .step (CellOp.lift _) fun _ => .step (CellOp.lift _) fun _ => .write _
    | dynArr => exact .step (CellOp.lift _) fun _ => .step (CellOp.setSize _ _) fun _ => .step (CellOp.lift _) fun _ => .write _
    | tuple id inner =>
      match vs with
      | [v] => exact .step (CellOp.getPart _) fun _ => .step (CellOp.prepack _ _) fun _ => .step (CellOp.lift _) fun _ => ih _ _
      | [] => exact .of (CellOp.throw _)
      | _ :: _ :: _ => exact .of (CellOp.throw _)
    | lookback => exact plays_union ih _ _ _ _ _ _
    | lookahead => exact plays_union ih _ _ _ _ _ _
    | cond => exact .of (CellOp.throw _)
    | skip => exact .pure _
    | structured id c =>
      match vs with
      | [v] => exact .bind (plays_obj env ih _) fun _ => .step (CellOp.readSize _) fun _ => .of (CellOp.setSize _ _)
      | [] => exact .of (CellOp.throw _)
      | _ :: _ :: _ => exact .of (CellOp.throw _)
    | selfT => exact .of (CellOp.throw _)
    | compound id ss => exact .bind (plays_loop ih (fun _ => CellOp.pure _) _ _ _) fun _ => .of (CellOp.setSize _ _)
    | specialized id p ss => exact .bind (plays_loop ih (fun _ => CellOp.prepack _ _) _ _ _) fun _ => .of (CellOp.setSize _ _)

theorem plays_object (env : Env) (n : Nat) (v : Val) : Plays (objPackWrite env n v) (Obj.packWrite env n v) :=
  .bind (plays_obj env (plays_packWrite env n) v) fun _ => .pure _

/-! ### Streams and pieces -/

theorem write_pos (io : Stream) (b : Bytes) : (io.write b).pos = io.pos + b.length := by
  unfold Stream.write
  split
  · rename_i h; simp [h]
  · rfl

theorem foldl_write (io : Stream) (bs : List Bytes) : bs.foldl Stream.write io = io.write bs.flatten := by
  induction bs generalizing io with
  | nil => simp [Stream.write]
  | cons b bs ih => rw [List.foldl_cons, ih, ← Stream.write_append]; rfl

/-- What the stream got: the beginnings of some of the pieces. -/
theorem feed_pos (bs : List Bytes) (as : List Answer) (io : Stream) :
    (feed bs as io).2.1.pos ≤ io.pos + bs.flatten.length ∧
    ((feed bs as io).2.1.pos = io.pos + bs.flatten.length → (feed bs as io).2.1 = io.write bs.flatten) := by
  induction bs generalizing as io with
  | nil => simp [feed, Stream.write]
  | cons b bs ih =>
    rw [List.flatten_cons, List.length_append]
    cases as with
    | nil =>
      simp only [feed]
      obtain ⟨h1, h2⟩ := ih [] (io.write b)
      rw [write_pos] at h1 h2
      exact ⟨by omega, fun h => by rw [h2 (by omega), Stream.write_append]⟩
    | cons a as =>
      cases a with
      | takes k =>
        simp only [feed]
        obtain ⟨h1, h2⟩ := ih as (io.write (b.take k))
        rw [write_pos, List.length_take] at h1 h2
        refine ⟨by omega, fun h => ?_⟩
        have hk : b.take k = b := List.take_of_length_le (by omega)
        rw [h2 (by omega), hk, Stream.write_append]
      | raises k e =>
        simp only [feed, write_pos, List.length_take]
        refine ⟨by omega, fun h => ?_⟩
        have hk : b.take k = b := List.take_of_length_le (by omega)
        have hn : bs.flatten = [] := List.length_eq_zero_iff.1 (by omega)
        rw [hk, hn, List.append_nil]

/-- Calls that return took everything: the stream got the beginning of the data, or all of it if no call raised. -/
theorem feed_complete (bs : List Bytes) (as : List Answer) (io : Stream) {m : Nat} (hm : bs.flatten.length ≤ m) (hc : Complete m as) :
    ∃ k, (feed bs as io).2.1 = io.write (bs.flatten.take k) ∧ ((feed bs as io).1 = none → (feed bs as io).2.1 = io.write bs.flatten) := by
  induction bs generalizing as io with
  | nil => exact ⟨0, by simp [feed, Stream.write], by simp [feed, Stream.write]⟩
  | cons b bs ih =>
    rw [List.flatten_cons, List.length_append] at hm
    rw [List.flatten_cons]
    have key : ∀ k, (io.write b).write (bs.flatten.take k) = io.write ((b ++ bs.flatten).take (b.length + k)) := by
      intro k
      rw [← Stream.write_append, List.take_append, List.take_of_length_le (by omega : b.length ≤ b.length + k), Nat.add_sub_cancel_left]
    cases as with
    | nil =>
      simp only [feed]
      obtain ⟨k, h1, h2⟩ := ih [] (io.write b) (by omega) hc
      exact ⟨b.length + k, by rw [h1, key], fun h => by rw [h2 h, Stream.write_append]⟩
    | cons a as =>
      have hc' : Complete m as := fun k hk => hc k (List.mem_cons_of_mem _ hk)
      cases a with
      | takes j =>
        have hj : m ≤ j := hc j (List.mem_cons_self ..)
        have hb : b.take j = b := List.take_of_length_le (by omega)
        simp only [feed, hb]
        obtain ⟨k, h1, h2⟩ := ih as (io.write b) (by omega) hc'
        exact ⟨b.length + k, by rw [h1, key], fun h => by rw [h2 h, Stream.write_append]⟩
      | raises j e =>
        simp only [feed]
        refine ⟨min j b.length, ?_, nofun⟩
        rw [List.take_append_of_le_length (by omega), List.take_eq_take_min]

/-- Exceptions are those of the stream. -/
theorem feed_raises {bs : List Bytes} {as as' : List Answer} {io io' : Stream} {e : Err} (h : feed bs as io = (some e, io', as')) :
    ∃ k, .raises k e ∈ as := by
  induction bs generalizing as io with
  | nil => cases h
  | cons b bs ih =>
    cases as with
    | nil => obtain ⟨k, hk⟩ := ih h; cases hk
    | cons a as =>
      cases a with
      | takes j => obtain ⟨k, hk⟩ := ih h; exact ⟨k, List.mem_cons_of_mem _ hk⟩
      | raises j e' => cases h; exact ⟨j, List.mem_cons_self ..⟩

end Verif.ShortW
