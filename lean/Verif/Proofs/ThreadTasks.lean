import Verif.Proofs.ThreadSafe
/-
Tasks of threads: each is determined by its own input.
-/
namespace Verif.Threads

variable {α β : Type}

theorem det_task {F : Sizes} {env : Env} (n : Nat) : ∀ t : Task, Parallel F t.inBuffer t.unpacks env →
    Det F (fun _ : Unit => True) (fun _ => False) (fun _ => t.thread env n) fun a => a
  | .pack v, he => Det.bindEq (det_packObj he n v) fun _ => Det.ok _
  | .packInto off v, he => Det.bindEq (det_packObjInto he n off v) fun _ => Det.ok _
  | .packWrite v, he => Det.bindEq (det_packObjWrite he n v) fun _ => Det.ok _
  | .createUnpack cls src, he => by
    refine Det.bindEq (det_createUnpack (b := (Task.createUnpack cls src).inBuffer) he n cls fun h => ?_) fun _ => Det.ok _
    cases src <;> first | rfl | cases h
  | .unpack v src, he => by
    refine Det.bindEq (det_unpackObj (b := (Task.unpack v src).inBuffer) he n v fun h => ?_) fun _ => Det.ok _
    cases src <;> first | rfl | cases h

theorem run_task (env : Env) (n : Nat) : ∀ t : Task, T.run (t.thread env n) = t.alone env n
  | .pack v => run_bind_eq (run_packObj env n v) fun _ => rfl
  | .packInto off v => run_bind_eq (run_packObjInto env n off v) fun _ => rfl
  | .packWrite v => run_bind_eq (run_packObjWrite env n v) fun _ => rfl
  | .createUnpack cls src => run_bind_eq (run_createUnpack env n cls src) fun _ => rfl
  | .unpack v src => run_bind_eq (run_unpackObj env n v src) fun _ => rfl

theorem outcome_run (x : T α) (st : St) : outcome (x.run st) = ((x ⟨st.buf, st.io⟩).exec st.cells).1 := by
  unfold T.run
  cases (x ⟨st.buf, st.io⟩).exec st.cells with
  | mk y c =>
    obtain ⟨r, l⟩ := y
    cases r <;> rfl

/-- The thread's own turns bring it to its end. -/
theorem finishes (i : Nat) (t : Prog α) : ∀ (c : Cells) (ts : List (Prog α)), ts[i]? = some t →
    ∃ k y, (interleave (List.replicate k i) c ts).2[i]? = some (.ret y) := by
  have turn : ∀ (c : Cells) (ts : List (Prog α)) (t : Prog α), ts[i]? = some t → ∀ c' t', t.step c = (c', t') →
      (∀ ts, ts[i]? = some t' → ∃ k y, (interleave (List.replicate k i) c' ts).2[i]? = some (.ret y)) →
      ∃ k y, (interleave (List.replicate k i) c ts).2[i]? = some (.ret y) := by
    intro c ts t h c' t' hs ih
    have hl : i < ts.length := by rw [List.getElem?_eq_some_iff] at h; exact h.1
    obtain ⟨k, y, hk⟩ := ih (ts.set i t') (by rw [List.getElem?_set, if_pos rfl, if_pos hl])
    refine ⟨k + 1, y, ?_⟩
    rw [List.replicate_succ, interleave, h]
    simp only [hs]
    exact hk
  induction t with
  | ret y => exact fun c ts h => ⟨0, y, h⟩
  | getSize id k ih => exact fun c ts h => turn c ts _ h c _ rfl (ih _ c)
  | getPart id k ih => exact fun c ts h => turn c ts _ h c _ rfl (ih _ c)
  | setSize id n k ih => exact fun c ts h => turn c ts _ h _ _ rfl (ih _)
  | setPart id p k ih => exact fun c ts h => turn c ts _ h _ _ rfl (ih _)

theorem interleave_append (s1 s2 : List Nat) : ∀ (c : Cells) (ts : List (Prog α)),
    interleave (s1 ++ s2) c ts = interleave s2 (interleave s1 c ts).1 (interleave s1 c ts).2 := by
  induction s1 with
  | nil => exact fun _ _ => rfl
  | cons i s1 ih =>
    intro c ts
    rw [List.cons_append, interleave, interleave]
    cases ts[i]? with
    | none => exact ih _ _
    | some t => exact ih _ _

theorem interleave_length : ∀ (s : List Nat) (c : Cells) (ts : List (Prog α)), (interleave s c ts).2.length = ts.length
  | [], _, _ => rfl
  | i :: s, c, ts => by
    rw [interleave]
    cases ts[i]? with
    | none => exact interleave_length s _ _
    | some t => simp only; rw [interleave_length s, List.length_set]

/-- The reply of a thread that has finished, when the threads respect the sizes `F`. -/
theorem task_alone {F : Sizes} {env : Env} {n : Nat} (tasks : List (Task × Loc)) (schedule : List Nat) (c : Cells) (i : Nat) {t : Task} {l : Loc}
    (hi : tasks[i]? = some (t, l)) (hp : Parallel F t.inBuffer t.unpacks env) (hsafe : AllSafe F c (threads env n tasks))
    (hsafe' : (t.thread env n l).safe F (fun _ _ => True) fun _ => False) {y : Except Err Reply × Loc}
    (hy : (interleave schedule c (threads env n tasks)).2[i]? = some (.ret y)) (st : St) (hb : st.buf = l.buf) (hs : st.io = l.io) :
    y = outcome (t.alone env n st) := by
  obtain ⟨r, hr⟩ := det_task n t hp l
  have start : (threads env n tasks)[i]? = some (t.thread env n l) := by simp [threads, hi]
  obtain ⟨k2, u, h1, h2⟩ := interleave_wp i schedule c (threads env n tasks) (fun _ => False) hsafe (fun _ h => h.elim)
    ⟨_, start, hr () trivial _ fun _ h => h⟩
  rw [hy] at h1; cases h1
  have hy' : (y.1.map fun a => a, y.2) = r := h2
  have ha := exec_wp (t.thread env n l) (c := st.cells) (known := fun _ => False) (fun _ h => h.elim) (hr () trivial _ fun _ h => h)
    (fun _ h => h.elim) hsafe'
  have hl : (⟨st.buf, st.io⟩ : Loc) = l := by rw [hb, hs]
  rw [← run_task, outcome_run, hl]
  have same : ∀ z : Except Err Reply × Loc, (z.1.map fun a => a, z.2) = z := fun z => by
    obtain ⟨z1, z2⟩ := z
    cases z1 <;> rfl
  rw [same] at hy' ha
  rw [hy', ha]

/-- Unpacking threads respect the sizes that fit the program. -/
theorem safe_task {F : Sizes} {env : Env} (he : Fitting F env) (n : Nat) : ∀ (t : Task), t.unpacks = true → ∀ l known,
    (t.thread env n l).safe F (fun _ _ => True) known
  | .createUnpack cls src, _, l, known =>
    safe_mono (fun _ _ _ => trivial) _ (((safe_createUnpack he n cls src known).bind (S := Some') fun _ _ _ => Safe.pure trivial) l)
  | .unpack v src, _, l, known =>
    safe_mono (fun _ _ _ => trivial) _ (((safe_unpackObj he n v src known).bind (S := Some') fun _ _ _ => Safe.pure trivial) l)

theorem safe_tasks {F : Sizes} {env : Env} (he : Fitting F env) (n : Nat) (c : Cells) (tasks : List (Task × Loc)) (h : ∀ tl ∈ tasks, tl.1.unpacks = true) :
    AllSafe F c (threads env n tasks) := by
  intro t ht
  obtain ⟨tl, h1, rfl⟩ := List.mem_map.1 ht
  exact ⟨fun _ => False, fun _ h => h.elim, safe_task he n tl.1 (h tl h1) tl.2 _⟩

end Verif.Threads
