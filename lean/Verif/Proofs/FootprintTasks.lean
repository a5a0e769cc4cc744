import Verif.Proofs.FootprintOrder
/-
Each call is local to the serializer objects it uses.
-/
namespace Verif
open Threads

theorem packed_held {env : Env} {v : Val} : Held env (PackUses env v.nodes) (fun _ => True) (fun _ => True) [v] := by
  intro c bo attrs hm
  refine ⟨trivial, fun ci ser h => within_of (fun _ h => h) _ (fun i hi => ⟨c, bo, attrs, ci, ser, ?_, h, hi⟩) (fun _ _ => trivial)
    (fun _ _ h => h)⟩
  simpa [Val.nodesList] using hm

theorem reaches_closed {env : Env} {c : ClassId} {I : SerId → Prop} (hI : ∀ i, MakeUses env c i → I i) :
    Closed env I (Reaches env c)
      (fun d => (∃ e ci, Reaches env c e ∧ env.classes e = some ci ∧ ci.serializer.hasSelf = true) → Reaches env c d) := by
  intro d ci hd hci
  exact ⟨fun _ => hd, within_of (fun _ h _ => h) _ (fun i hi => hI i ⟨d, ci, hd, hci, hi⟩) (fun e he => hd.step hci he)
    (fun hs e h => h ⟨d, ci, hd, hci, hs⟩)⟩

theorem objSer_within {env : Env} {c : ClassId} {bo : Option ByteOrder} {ci : ClassInfo} {ser : Ser} (h : objSer env c bo = .ok (ci, ser)) :
    ser.Within (ReadUses env c bo) (Reaches env c)
      (fun d => (∃ e ci, Reaches env c e ∧ env.classes e = some ci ∧ ci.serializer.hasSelf = true) → Reaches env c d) := by
  have hn : ∃ ci', env.classes c = some ci' ∧ (∀ d ∈ ser.names, d ∈ ci'.serializer.names) ∧ (ser.hasSelf = true → ci'.serializer.hasSelf = true) := by
    unfold objSer at h
    cases hci : env.classes c with
    | none => rw [hci] at h; cases h
    | some ci' =>
      rw [hci] at h
      cases bo with
      | none => cases h; exact ⟨_, rfl, fun _ h => h, fun h => h⟩
      | some b =>
        obtain ⟨s', h1, h2⟩ := Except.bind_ok' h
        cases h2
        exact ⟨_, rfl, names_wbo b h1⟩
  obtain ⟨ci', hci, hnames, hself⟩ := hn
  exact within_of (fun _ h _ => h) _ (fun i hi => .inr ⟨ci, ser, h, hi⟩) (fun e he => .step .refl hci (hnames e he))
    (fun hs e he => he ⟨c, ci', .refl, hci, hself hs⟩)

/-- Every call is local to the serializer objects it uses. -/
theorem task_local (env : Env) (n : Nat) (t : Task) : ∃ D : ClassId → Prop, (∀ st, t.Settled env st → Parts (t.Uses env) D st.cells) ∧
    Local (t.Uses env) D (fun _ => True) (t.thread env n) := by
  cases t with
  | pack v => exact ⟨fun _ => True, fun _ _ _ _ _ _ => trivial,
      Local.bindAny (P := fun _ => True) (Local.bindAny (objPack_local (fun s vs h k => pack_local n s vs h k) packed_held) fun _ => Local.pure _ trivial) fun _ => Local.pure _ trivial⟩
  | packInto off v => exact ⟨fun _ => True, fun _ _ _ _ _ _ => trivial,
      Local.bindAny (P := fun _ => True) (Local.bindAny (objPackInto_local (fun s off vs h k => packInto_local n s off vs h k) off packed_held) fun _ => Local.pure _ trivial)
        fun _ => Local.pure _ trivial⟩
  | packWrite v => exact ⟨fun _ => True, fun _ _ _ _ _ _ => trivial,
      Local.bindAny (P := fun _ => True) (Local.bindAny (objPackWrite_local (fun s vs h k => packWrite_local n s vs h k) packed_held) fun _ => Local.pure _ trivial)
        fun _ => Local.pure _ trivial⟩
  | createUnpack cls src =>
    exact ⟨fun d => (∃ e ci, Reaches env cls e ∧ env.classes e = some ci ∧ ci.serializer.hasSelf = true) → Reaches env cls d,
      fun st hs i hi p hp hself => hs hself i hi p hp,
      Local.bindAny (createUnpack_local (reaches_closed fun _ h => h) n .refl src) fun _ => Local.pure _ trivial⟩
  | unpack v src =>
    cases v with
    | obj cls bo attrs =>
      refine ⟨fun d => (∃ e ci, Reaches env cls e ∧ env.classes e = some ci ∧ ci.serializer.hasSelf = true) → Reaches env cls d,
        fun st hs i hi p hp hself => hs hself i hi p hp, Local.bindAny (P := fun _ => True) ?_ fun _ => Local.pure _ trivial⟩
      refine Local.bind (Local.lift' _) fun r hr => ?_
      obtain ⟨ci, ser⟩ := r
      refine Local.bind (Local.preunpack (objSer_within hr) fun _ => .refl) fun s hs =>
        Local.bindAny (unpack_local (reaches_closed fun _ h => .inl h) n _ s src (assignVals_ok _) hs) fun vals => ?_
      split
      · exact Local.pure _ trivial
      · exact Local.throw _
    | _ => exact ⟨fun _ => True, fun _ _ _ h => h.elim, Local.bindAny (P := fun _ => True) (Local.throw _) fun _ => Local.pure _ trivial⟩

/-! ### Running -/

theorem setSize_agree {I : SerId → Prop} {c d : Cells} (h : Agree I c d) (i : SerId) (n : Nat) : Agree I (c.setSize i n) (d.setSize i n) := by
  intro j hj
  show (if j = i then _ else _) = (if j = i then _ else _)
  rw [h j hj]

theorem setPart_agree {I : SerId → Prop} {c d : Cells} (h : Agree I c d) (i : SerId) (p : PObj) : Agree I (c.setPart i p) (d.setPart i p) := by
  intro j hj
  show (if j = i then _ else _) = (if j = i then _ else _)
  rw [h j hj]

theorem setSize_parts {I : SerId → Prop} {D : ClassId → Prop} {c : Cells} (h : Parts I D c) (i : SerId) (n : Nat) : Parts I D (c.setSize i n) := by
  intro j hj p
  show (if j = i then { c j with size := n } else c j).part = some p → _
  intro e
  by_cases hij : j = i
  · rw [if_pos hij] at e; exact h j hj p e
  · rw [if_neg hij] at e; exact h j hj p e

theorem setPart_parts {I : SerId → Prop} {D : ClassId → Prop} {c : Cells} (h : Parts I D c) (i : SerId) {p : PObj} (hp : D p.cls) :
    Parts I D (c.setPart i p) := by
  intro j hj q
  show (if j = i then { c j with part := some p } else c j).part = some q → _
  intro e
  by_cases hij : j = i
  · rw [if_pos hij] at e; cases e; exact hp
  · rw [if_neg hij] at e; exact h j hj q e

/-- A local program run with attributes that agree on `I`. -/
theorem exec_inside {α : Type} {I : SerId → Prop} {D : ClassId → Prop} {Q : α → Prop} (x : Prog α) : ∀ {c d : Cells}, x.inside I D Q →
    Parts I D c → Agree I c d → (x.exec d).1 = (x.exec c).1 ∧ Agree I (x.exec c).2 (x.exec d).2 ∧ (∀ i, ¬ I i → (x.exec c).2 i = c i) := by
  induction x with
  | ret a => intro c d _ _ ha; exact ⟨rfl, ha, fun _ _ => rfl⟩
  | getSize id k ih =>
    intro c d hx hp ha
    simp only [Prog.exec, ← ha id hx.1]
    exact ih _ (hx.2 _) hp ha
  | getPart id k ih =>
    intro c d hx hp ha
    simp only [Prog.exec, ← ha id hx.1]
    exact ih _ (hx.2 _ (hp id hx.1)) hp ha
  | setSize id n k ih =>
    intro c d hx hp ha
    obtain ⟨h1, h2, h3⟩ := ih hx.2 (setSize_parts hp id n) (setSize_agree ha id n)
    refine ⟨h1, h2, fun i hi => (h3 i hi).trans ?_⟩
    show (if i = id then _ else _) = _
    rw [if_neg (by rintro rfl; exact hi hx.1)]
  | setPart id p k ih =>
    intro c d hx hp ha
    obtain ⟨h1, h2, h3⟩ := ih hx.2.2 (setPart_parts hp id hx.2.1) (setPart_agree ha id p)
    refine ⟨h1, h2, fun i hi => (h3 i hi).trans ?_⟩
    show (if i = id then _ else _) = _
    rw [if_neg (by rintro rfl; exact hi hx.1)]

/-- One step of a local program. -/
theorem step_inside {α : Type} {I : SerId → Prop} {D : ClassId → Prop} {Q : α → Prop} (x : Prog α) {c : Cells} (hx : x.inside I D Q)
    (hp : Parts I D c) : (x.step c).2.inside I D Q ∧ Parts I D (x.step c).1 ∧ (∀ i, ¬ I i → (x.step c).1 i = c i) ∧
    ((x.step c).2.exec (x.step c).1).1 = (x.exec c).1 := by
  cases x with
  | ret a => exact ⟨hx, hp, fun _ _ => rfl, rfl⟩
  | getSize id k => exact ⟨hx.2 _, hp, fun _ _ => rfl, rfl⟩
  | getPart id k => exact ⟨hx.2 _ (hp id hx.1), hp, fun _ _ => rfl, rfl⟩
  | setSize id n k =>
    refine ⟨hx.2, setSize_parts hp id n, fun i hi => ?_, rfl⟩
    show (if i = id then _ else _) = _
    rw [if_neg (by rintro rfl; exact hi hx.1)]
  | setPart id p k =>
    refine ⟨hx.2.2, setPart_parts hp id hx.2.1, fun i hi => ?_, rfl⟩
    show (if i = id then _ else _) = _
    rw [if_neg (by rintro rfl; exact hi hx.1)]

theorem Parts.same {I : SerId → Prop} {D : ClassId → Prop} {c d : Cells} (h : Parts I D c) (e : ∀ i, I i → d i = c i) : Parts I D d :=
  fun i hi p hp => h i hi p (by rw [← e i hi]; exact hp)

/-- Threads that use different objects: what one of them will return does not change while others run. -/
theorem interleave_inside {α : Type} {I : Nat → SerId → Prop} {D : Nat → ClassId → Prop} {Q : α → Prop}
    (hd : ∀ j k, j ≠ k → ∀ i, I j i → ¬ I k i) (i : Nat) {r : α} : ∀ (schedule : List Nat) (c : Cells) (ts : List (Prog α)),
    (∀ j t, ts[j]? = some t → t.inside (I j) (D j) Q ∧ Parts (I j) (D j) c) → (∃ t, ts[i]? = some t ∧ (t.exec c).1 = r) →
    ∃ t, (interleave schedule c ts).2[i]? = some t ∧ (t.exec (interleave schedule c ts).1).1 = r
  | [], _, _, _, h => h
  | j :: schedule, c, ts, hl, ⟨t, h1, h2⟩ => by
    rw [interleave]
    cases hj : ts[j]? with
    | none => exact interleave_inside hd i schedule c ts hl ⟨t, h1, h2⟩
    | some u =>
      obtain ⟨hu, hp⟩ := hl j u hj
      obtain ⟨g1, g2, g3, g4⟩ := step_inside u hu hp
      have hlen : j < ts.length := by rw [List.getElem?_eq_some_iff] at hj; exact hj.1
      refine interleave_inside (D := D) (Q := Q) hd i schedule _ _ ?_ ?_
      · intro k w hw
        by_cases hk : j = k
        · subst hk
          rw [List.getElem?_set, if_pos rfl, if_pos hlen] at hw
          cases hw
          exact ⟨g1, g2⟩
        · rw [List.getElem?_set, if_neg hk] at hw
          obtain ⟨w1, w2⟩ := hl k w hw
          exact ⟨w1, w2.same fun m hm => g3 m (hd k j (Ne.symm hk) m hm)⟩
      · by_cases hi : j = i
        · subst hi
          rw [h1] at hj; cases hj
          exact ⟨(t.step c).2, by rw [List.getElem?_set, if_pos rfl, if_pos hlen]; rfl, g4.trans h2⟩
        · refine ⟨t, by rw [List.getElem?_set, if_neg hi]; exact h1, ?_⟩
          obtain ⟨ht, hpt⟩ := hl i t h1
          have hag : Agree (I i) c (u.step c).1 := fun m hm => (g3 m (hd i j (Ne.symm hi) m hm)).symm
          exact (exec_inside t ht hpt hag).1.trans h2

theorem leaves_run {env : Env} {n : Nat} {t : Task} {st : St} :
    (t.leaves env n st).cells = ((t.thread env n ⟨st.buf, st.io⟩).exec st.cells).2 := by
  unfold Task.leaves
  rw [← run_task]
  unfold T.run
  cases (t.thread env n ⟨st.buf, st.io⟩).exec st.cells with
  | mk y c =>
    obtain ⟨r, l⟩ := y
    cases r <;> rfl

theorem leaves_only {env : Env} {n : Nat} {t : Task} {st : St} (hs : t.Settled env st) {i : SerId} (hi : ¬ t.Uses env i) :
    (t.leaves env n st).cells i = st.cells i := by
  obtain ⟨D, hD, hl⟩ := task_local env n t
  rw [leaves_run]
  exact (exec_inside _ (hl.run ⟨st.buf, st.io⟩) (hD st hs) (d := st.cells) fun _ _ => rfl).2.2 i hi

theorem depends_only {env : Env} {n : Nat} {t : Task} {st : St} (hs : t.Settled env st) {c : SerId → Cell} (hc : Agree (t.Uses env) st.cells c) :
    SameOn (t.Uses env) (t.alone env n st) (t.alone env n { st with cells := c }) := by
  obtain ⟨D, hD, hl⟩ := task_local env n t
  have h := exec_inside _ (hl.run ⟨st.buf, st.io⟩) (hD st hs) hc
  rw [← run_task]
  unfold T.run
  simp only
  revert h
  cases (t.thread env n ⟨st.buf, st.io⟩).exec st.cells with
  | mk y c1 =>
    cases (t.thread env n ⟨st.buf, st.io⟩).exec c with
    | mk z c2 =>
      rintro ⟨h1, h2, -⟩
      simp only at h1
      subst h1
      obtain ⟨r, l⟩ := z
      cases r <;> exact ⟨rfl, rfl, rfl, h2⟩

theorem elsewhere_agree {env : Env} {n : Nat} {I : SerId → Prop} : ∀ (us : List Task) (st : St), Elsewhere env n I us st →
    Agree I st.cells (leavesAll env n us st).cells
  | [], _, _ => fun _ _ => rfl
  | u :: us, st, h => fun i hi => by
    have h1 := leaves_only (n := n) h.1 (fun hu => h.2.1 i hu hi)
    have h2 := elsewhere_agree us _ h.2.2 i hi
    rw [h1] at h2
    exact h2

end Verif
