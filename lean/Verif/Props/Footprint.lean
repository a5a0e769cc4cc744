import Verif.Proofs.FootprintTasks
import Verif.Samples
/-
C47: a call uses only the serializers of the classes involved.
-/
namespace Verif
open Samples Threads

/-- A call leaves the attributes of all other serializer objects as they are, whether it returns or raises. -/
theorem C47_untouched {env : Env} {n : Nat} {t : Task} {st : St} (hs : t.Settled env st) {i : SerId} (hi : ¬ t.Uses env i) :
    (t.leaves env n st).cells i = st.cells i := leaves_only hs hi

/-- A message with two points uses the four serializer objects of its class (`uint8` fields have none). -/
theorem msg_uses (i : SerId) : PackUses env (msg 1 [0x61] [point 1 2, point 3 4]).nodes i → i ∈ [[1], [10], [11], [12]] := by
  rintro ⟨c, bo, attrs, ci, ser, hm, ho, hi⟩
  simp only [msg, point, Val.nodes, Val.nodesList, Val.nodesAttrs, List.append_nil, List.nil_append, List.cons_append,
    List.mem_cons, List.not_mem_nil, or_false, Prod.mk.injEq] at hm
  rcases hm with ⟨rfl, rfl, -⟩ | ⟨rfl, rfl, -⟩ | ⟨rfl, rfl, -⟩ <;> cases ho
  · exact hi
  · cases hi
  · cases hi

example (st : St) : ((Task.pack (msg 1 [0x61] [point 1 2, point 3 4])).leaves env 9 st).cells [20] = st.cells [20] :=
  C47_untouched (t := .pack _) trivial fun h => absurd (msg_uses _ h) (by decide)

/-- It does change its own. -/
example : (((Task.pack (msg 1 [0x61] [point 1 2, point 3 4])).leaves env 9 st0).cells [11]).size = 7 := by rfl

/-- What a call returns or raises, what it does to the buffer and the stream, and the attributes it leaves on the serializer
objects it uses do not depend on the attributes of others. -/
theorem C47_depends {env : Env} {n : Nat} {t : Task} {st : St} (hs : t.Settled env st) {c : SerId → Cell} (hc : Agree (t.Uses env) st.cells c) :
    SameOn (t.Uses env) (t.alone env n st) (t.alone env n { st with cells := c }) := depends_only hs hc

/-- Any calls with other serializers make no difference to a later call on the same buffer and stream: the same reply or
exception, the same bytes.  No condition on the classes. -/
theorem C47_elsewhere {env : Env} {n : Nat} {t : Task} {st : St} (hs : t.Settled env st) (us : List Task)
    (hu : Elsewhere env n (t.Uses env) us st) :
    outcome (t.alone env n { st with cells := (leavesAll env n us st).cells }) = outcome (t.alone env n st) := by
  have h := C47_depends (n := n) hs (elsewhere_agree us st hu)
  cases h1 : t.alone env n st with
  | ok a s =>
    cases h2 : t.alone env n { st with cells := (leavesAll env n us st).cells } with
    | ok b u => rw [h1, h2] at h; obtain ⟨rfl, hb, hi, _⟩ := h; simp only [outcome, hb, hi]
    | err e u => rw [h1, h2] at h; exact h.elim
  | err e s =>
    cases h2 : t.alone env n { st with cells := (leavesAll env n us st).cells } with
    | ok b u => rw [h1, h2] at h; exact h.elim
    | err e u => rw [h1, h2] at h; obtain ⟨rfl, hb, hi, _⟩ := h; simp only [outcome, hb, hi]

/-- A failing call and a successful one with trees, then the message. -/
example (st : St) : outcome ((Task.pack (msg 1 [0x61] [point 1 2, point 3 4])).alone env 9
    { st with cells := (leavesAll env 9 [.pack (tree 300 []), .pack (tree 1 [tree 2 []])] st).cells }) =
    outcome ((Task.pack (msg 1 [0x61] [point 1 2, point 3 4])).alone env 9 st) := by
  refine C47_elsewhere (t := .pack _) trivial _ ⟨trivial, fun i hi hm => ?_, trivial, fun i hi hm => ?_, trivial⟩
  all_goals
    have hm' : i ∈ [[1], [10], [11], [12]] := msg_uses i hm
    clear hm
    obtain ⟨c, bo, attrs, ci, ser, hn, ho, hi'⟩ := hi
    simp only [tree, Val.nodes, Val.nodesList, Val.nodesAttrs, List.append_nil, List.nil_append,
      List.mem_cons, List.not_mem_nil, or_false, Prod.mk.injEq] at hn
  · obtain ⟨rfl, rfl, -⟩ := hn
    cases ho
    have hi'' : i ∈ [[2], [20], [21]] := hi'
    clear hi'
    simp only [List.mem_cons, List.not_mem_nil, or_false] at hm' hi''
    rcases hm' with rfl | rfl | rfl | rfl <;> revert hi'' <;> decide
  · rcases hn with ⟨rfl, rfl, -⟩ | ⟨rfl, rfl, -⟩ <;>
    · cases ho
      have hi'' : i ∈ [[2], [20], [21]] := hi'
      clear hi'
      simp only [List.mem_cons, List.not_mem_nil, or_false] at hm' hi''
      rcases hm' with rfl | rfl | rfl | rfl <;> revert hi'' <;> decide

/-! ### At the same time -/

/-- Calls that use different serializers do not disturb each other when threads run them at the same time: whatever the
schedule, a call that has finished has returned, raised and written what it would have alone.  No condition on the classes. -/
theorem C47_threads {env : Env} {n : Nat} (tasks : List (Task × Loc)) (schedule : List Nat) (c : SerId → Cell)
    (hd : ∀ (j k : Nat) (t u : Task × Loc), j ≠ k → tasks[j]? = some t → tasks[k]? = some u → ∀ i, t.1.Uses env i → ¬ u.1.Uses env i)
    (hs : ∀ t ∈ tasks, t.1.Settled env ⟨c, t.2.buf, t.2.io⟩)
    (i : Nat) {t : Task} {l : Loc} (hi : tasks[i]? = some (t, l)) {y : Except Err Reply × Loc}
    (hy : (interleave schedule c (threads env n tasks)).2[i]? = some (.ret y)) :
    y = outcome (t.alone env n ⟨c, l.buf, l.io⟩) := by
  have hl : ∀ (k : Nat) t, (threads env n tasks)[k]? = some t → ∃ u : Task × Loc, tasks[k]? = some u ∧ t = u.1.thread env n u.2 := by
    intro k t h
    simp only [threads, List.getElem?_map, Option.map_eq_some_iff] at h
    obtain ⟨u, h1, h2⟩ := h
    exact ⟨u, h1, h2.symm⟩
  let I : Nat → SerId → Prop := fun k i => ∃ u : Task × Loc, tasks[k]? = some u ∧ u.1.Uses env i
  let D : Nat → ClassId → Prop := fun k =>
    match tasks[k]? with
    | some u => Classical.choose (task_local env n u.1)
    | Option.none => fun _ => True
  have hI : ∀ (k : Nat) (u : Task × Loc), tasks[k]? = some u → I k = u.1.Uses env := by
    intro k u h
    funext i
    exact propext ⟨fun ⟨w, h1, h2⟩ => by rw [h] at h1; cases h1; exact h2, fun h2 => ⟨u, h, h2⟩⟩
  obtain ⟨x, h1, h2⟩ := interleave_inside (I := I) (D := D) (Q := fun y => ∀ a, y.1 = .ok a → True)
    (fun j k hjk m ⟨u, hu, hm⟩ ⟨w, hw, hm'⟩ => hd j k u w hjk hu hw m hm hm') i schedule c (threads env n tasks)
    (by
      intro k x hx
      obtain ⟨u, hu, rfl⟩ := hl k x hx
      have hD : D k = Classical.choose (task_local env n u.1) := by simp only [D, hu]
      rw [hI k u hu, hD]
      obtain ⟨g1, g2⟩ := Classical.choose_spec (task_local env n u.1)
      exact ⟨g2.run u.2, g1 _ (hs u (List.mem_of_getElem? hu))⟩)
    ⟨t.thread env n l, by simp [threads, hi], rfl⟩
  rw [hy] at h1
  cases h1
  rw [← run_task, outcome_run]
  exact h2

theorem alt_uses (i : SerId) {v : Val} (hv : Val.nodes v = []) : PackUses env (alt 0 v 6).nodes i → i ∈ [[6], [60], [61]] := by
  rintro ⟨c, bo, attrs, ci, ser, hm, ho, hi⟩
  simp only [alt, Val.nodes, Val.nodesAttrs, hv, List.append_nil, List.mem_cons, List.not_mem_nil, or_false, Prod.mk.injEq] at hm
  obtain ⟨rfl, rfl, -⟩ := hm
  cases ho
  exact hi

/-- A message and an object with a union, packed by two threads: two objects with the union would disturb each other
(`C40_union_is_false`). -/
example (schedule : List Nat) (c : SerId → Cell) (y : Except Err Reply × Loc)
    (hy : (interleave schedule c (threads env 9 [(.pack (alt 0 (.int 5) 6), ⟨[], ⟨[], 0⟩⟩),
      (.pack (msg 1 [0x61] [point 1 2, point 3 4]), ⟨[], ⟨[], 0⟩⟩)])).2[0]? = some (.ret y)) :
    y = outcome ((Task.pack (alt 0 (.int 5) 6)).alone env 9 ⟨c, [], ⟨[], 0⟩⟩) := by
  have apart : ∀ i, i ∈ [[6], [60], [61]] → i ∈ [[1], [10], [11], [12]] → False := by
    intro i h1 h2
    simp only [List.mem_cons, List.not_mem_nil, or_false] at h1
    rcases h1 with rfl | rfl | rfl <;> revert h2 <;> decide
  refine C47_threads (t := .pack (alt 0 (.int 5) 6)) (l := ⟨[], ⟨[], 0⟩⟩) _ schedule c ?_ ?_ 0 rfl hy
  · intro j k t u hjk ht hu i h1 h2
    match j, k with
    | 0, 0 => exact hjk rfl
    | 1, 1 => exact hjk rfl
    | 0, 1 => cases ht; cases hu; exact apart i (alt_uses i rfl h1) (msg_uses i h2)
    | 1, 0 => cases ht; cases hu; exact apart i (alt_uses i rfl h2) (msg_uses i h1)
    | j + 2, _ => cases ht
    | 0, k + 2 => cases hu
    | 1, k + 2 => cases hu
  · intro t ht
    simp only [List.mem_cons, List.not_mem_nil, or_false] at ht
    rcases ht with rfl | rfl <;> trivial

/-- The condition on partial objects is needed when `Self` is read under a `Condition` (which does not pass the partial
object on, so the one of an earlier call is used):

    class Node(Structured):           # 0
        kids: Annotated[array[Header[uint8], Self], Condition(lambda o: True, [])]
    class Name(Structured):           # 1
        text: char[uint8]
-/
def staleClasses : ClassId → Option ClassInfo
  | 0 => some { attrs := ["kids"], byteOrder := .default
                serializer := .cond (.array [1] (some Samples.u8) (.selfT [2]) (-1)) (fun _ => .ok (.bool true)) [.list []] }
  | 1 => some { attrs := ["text"], serializer := .dynChar [9] Samples.u8, byteOrder := .default }
  | _ => Option.none

def staleState : St := { st0 with cells := fun i => if i = [1] then { part := some ⟨1, true, []⟩ } else {} }

theorem C47_stale_is_false : ¬ (∀ (env : Env) (n : Nat) (t : Task) (st : St) (i : SerId), ¬ t.Uses env i →
    (t.leaves env n st).cells i = st.cells i) := by
  intro h
  have hr : ∀ d, Reaches ⟨plat, staleClasses⟩ 0 d → d = 0 := by
    intro d hd
    induction hd with
    | refl => rfl
    | step _ hci he ih => subst ih; cases hci; cases he
  have h1 := h ⟨plat, staleClasses⟩ 9 (.createUnpack 0 (.buf [1, 1, 0x61])) staleState [9] (by
    rintro ⟨d, ci, hd, hci, hi⟩
    cases hr d hd
    cases hci
    revert hi; decide)
  have h2 := congrArg Cell.size h1
  revert h2; decide

/-! ### Copies with another byte order -/

/-- Where `with_byte_order` is implemented throughout, the copy has serializer objects of its own, one for each of the
original's. -/
theorem C47_copy {s s' : Ser} {bo : ByteOrder} (hr : s.remade = true) (h : s.withByteOrder bo = .ok s') :
    s'.ids = s.ids.map (bo.num :: ·) := ids_wbo bo hr h

/-- Packing such an object in another byte order leaves the serializers of its class alone, unless an object inside it uses
them. -/
theorem C47_copy_partial {env : Env} {n : Nat} {c : ClassId} {ci : ClassInfo} {bo : ByteOrder} {attrs : List (Name × Val)}
    (hci : env.classes c = some ci) (hr : ci.serializer.remade = true)
    (hn : ∀ i ∈ ci.serializer.ids, ¬ PackUses env (Val.nodesAttrs attrs) i ∧ ∀ j ∈ ci.serializer.ids, i ≠ bo.num :: j)
    (st : St) {i : SerId} (hi : i ∈ ci.serializer.ids) {t : Task}
    (ht : t = .pack (.obj c (some bo) attrs) ∨ t = .packWrite (.obj c (some bo) attrs) ∨ ∃ off, t = .packInto off (.obj c (some bo) attrs)) :
    (t.leaves env n st).cells i = st.cells i := by
  have hu : ¬ PackUses env (Val.nodes (.obj c (some bo) attrs)) i := by
    rintro ⟨d, b, as, ci', ser, hm, ho, hs⟩
    rcases List.mem_cons.1 hm with e | hm
    · cases e
      unfold objSer at ho
      rw [hci] at ho
      obtain ⟨s', h1, h2⟩ := Except.bind_ok' ho
      cases h2
      rw [ids_wbo bo hr h1] at hs
      obtain ⟨j, hj, rfl⟩ := List.mem_map.1 hs
      exact (hn _ hi).2 j hj rfl
    · exact (hn i hi).1 ⟨d, b, as, ci', ser, hm, ho, hs⟩
  rcases ht with rfl | rfl | ⟨off, rfl⟩
  · exact leaves_only (t := .pack _) trivial hu
  · exact leaves_only (t := .packWrite _) trivial hu
  · exact leaves_only (t := .packInto _ _) trivial hu

/-- The class `Lines` with `lines: array[Header[uint16], char[uint16]]`. -/
def linesEnv : Env := ⟨plat, fun c => if c = 0 then some
  { attrs := ["lines"], byteOrder := .default
    serializer := .array [1] (some ⟨['H'], Option.none⟩) (.dynChar [2] ⟨['H'], Option.none⟩) (-1) } else Option.none⟩

example (st : St) : ((Task.pack (.obj 0 (some .be) [("lines", .list [.bytes [0x61]])])).leaves linesEnv 9 st).cells [1] = st.cells [1] := by
  refine C47_copy_partial (c := 0) (ci := _) rfl rfl ?_ st (by decide) (.inl rfl)
  intro i hi
  have hi' : i ∈ [[1], [2]] := hi
  refine ⟨?_, by
    clear hi
    simp only [List.mem_cons, List.not_mem_nil, or_false] at hi'
    rcases hi' with rfl | rfl <;> simp [Ser.ids, ByteOrder.num]⟩
  rintro ⟨c, bo, attrs, ci, ser, hm, -⟩
  simp [Val.nodes, Val.nodesList, Val.nodesAttrs] at hm

/-- Unions, tuples and most strings do not implement `with_byte_order`: the "copy" shares them with the class, and packing
it leaves a partial object on the class's own serializer. -/
theorem C47_copy_is_false : ¬ (∀ (n : Nat) (c : ClassId) (ci : ClassInfo) (bo : ByteOrder) (attrs : List (Name × Val)),
    env.classes c = some ci → (∀ i ∈ ci.serializer.ids, ¬ PackUses env (Val.nodesAttrs attrs) i ∧ ∀ j ∈ ci.serializer.ids, i ≠ bo.num :: j) →
    ∀ i ∈ ci.serializer.ids, ((Task.pack (.obj c (some bo) attrs)).leaves env n st0).cells i = st0.cells i) := by
  intro h
  have h1 := h 9 6 _ .be [("kind", .int 0), ("body", .int 1), ("tail", .int 2)] rfl (by
    intro i hi
    have hi' : i ∈ [[6], [60], [61]] := hi
    refine ⟨?_, ?_⟩
    · rintro ⟨c, bo, attrs, ci, ser, hm, -⟩
      simp [Val.nodes, Val.nodesAttrs] at hm
    · intro j hj
      have hj' : j ∈ [[6], [60], [61]] := hj
      clear hi hj
      simp only [List.mem_cons, List.not_mem_nil, or_false] at hi' hj'
      rcases hi' with rfl | rfl | rfl <;> rcases hj' with rfl | rfl | rfl <;> decide) [60] (by decide)
  have h2 := congrArg Cell.size h1
  revert h2; decide

/-- Copies in two byte orders share no serializer object. -/
theorem C47_orders {s s1 s2 : Ser} {b1 b2 : ByteOrder} (hr : s.remade = true) (h1 : s.withByteOrder b1 = .ok s1)
    (h2 : s.withByteOrder b2 = .ok s2) (hb : b1 ≠ b2) {i : SerId} (hi : i ∈ s1.ids) : i ∉ s2.ids := by
  rw [ids_wbo b1 hr h1] at hi
  rw [ids_wbo b2 hr h2]
  intro hj
  obtain ⟨j, _, rfl⟩ := List.mem_map.1 hi
  obtain ⟨k, _, e⟩ := List.mem_map.1 hj
  have : b2.num = b1.num := by simpa using congrArg List.head? e
  cases b1 <;> cases b2 <;> first | exact hb rfl | cases this

end Verif
