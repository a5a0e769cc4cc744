import Verif.Spec.Threads
import Verif.Proofs.ThreadRun
/-
What holds of a thread whatever other threads write to the attributes of the serializers.
-/
namespace Verif.Threads

abbrev Known := SerId → Prop

/-- Every result of the program satisfies `Q`, whatever it reads.  `known`: the serializers whose
`_partial_object` the thread has set; reading it there gives some object.  `F`: the sizes that are always the same. -/
def Prog.wp (F : Sizes) (Q : α → Prop) : Known → Prog α → Prop
  | _, .ret a => Q a
  | known, .getSize id k => ∀ n, (∀ m, F id = some m → n = m) → (k n).wp F Q known
  | known, .getPart id k => ∀ o : Option PObj, (known id → o.isSome = true) → (k o).wp F Q known
  | known, .setSize _ _ k => k.wp F Q known
  | known, .setPart id _ k => k.wp F Q fun j => known j ∨ j = id

variable {F : Sizes}

theorem wp_mono {Q R : α → Prop} (h : ∀ a, Q a → R a) (x : Prog α) :
    ∀ {k1 k2 : Known}, (∀ j, k1 j → k2 j) → x.wp F Q k1 → x.wp F R k2 := by
  induction x with
  | ret a => intro k1 k2 _ hx; exact h a hx
  | getSize id k ih => intro k1 k2 hk hx n hn; exact ih n hk (hx n hn)
  | getPart id k ih => intro k1 k2 hk hx o ho; exact ih o hk (hx o fun h => ho (hk _ h))
  | setSize id n k ih => intro k1 k2 hk hx; exact ih hk hx
  | setPart id p k ih => intro k1 k2 hk hx; exact ih (fun j hj => hj.imp (hk j) fun h => h) hx

theorem wp_bind {Q : α → Prop} {R : β → Prop} {f : α → Prog β} (x : Prog α) :
    ∀ {known : Known}, x.wp F Q known → (∀ a, Q a → ∀ k2 : Known, (∀ j, known j → k2 j) → (f a).wp F R k2) → (x.bind f).wp F R known := by
  induction x with
  | ret a => intro k hx hf; exact hf a hx k fun _ h => h
  | getSize id k ih => intro kn hx hf n hn; exact ih n (hx n hn) hf
  | getPart id k ih => intro kn hx hf o ho; exact ih o (hx o ho) hf
  | setSize id n k ih => intro kn hx hf; exact ih hx hf
  | setPart id p k ih => intro kn hx hf; exact ih hx fun a ha k2 hk2 => hf a ha k2 fun j hj => hk2 j (Or.inl hj)

/-- What the thread knows about `_partial_object` stays true. -/
def Kept (known : Known) (c : Cells) : Prop := ∀ j, known j → (c j).part.isSome = true

theorem step_kept {known : Known} {c : Cells} (h : Kept known c) (t : Prog α) : Kept known (t.step c).1 := by
  intro j hj
  have := h j hj
  cases t with
  | setSize id n k =>
    simp only [Prog.step, Cells.setSize]
    split
    · exact this
    · exact this
  | setPart id p k =>
    simp only [Prog.step, Cells.setPart]
    split
    · rfl
    · exact this
  | _ => exact this

/-! ### Sizes that are always the same -/

/-- The program writes no other sizes than those of `F`, and reads them only after it has written them (`known`);
at the end `Q` holds of what it has written and of its result. -/
def Prog.safe (F : Sizes) (Q : Known → α → Prop) : Known → Prog α → Prop
  | known, .ret a => Q known a
  | known, .getSize id k => (∀ m, F id = some m → known id) ∧ ∀ n, (∀ m, F id = some m → n = m) → (k n).safe F Q known
  | known, .getPart _ k => ∀ o, (k o).safe F Q known
  | known, .setSize id n k => (∀ m, F id = some m → n = m) ∧ k.safe F Q fun j => known j ∨ j = id
  | known, .setPart _ _ k => k.safe F Q known

/-- The sizes that the thread has written are those of `F`. -/
def SizesKept (F : Sizes) (known : Known) (c : Cells) : Prop := ∀ j, known j → ∀ m, F j = some m → (c j).size = m

/-- Every thread is safe. -/
def AllSafe (F : Sizes) (c : Cells) (ts : List (Prog α)) : Prop :=
  ∀ t ∈ ts, ∃ known, SizesKept F known c ∧ t.safe F (fun _ _ => True) known

/-- A step of a safe program keeps what any thread has written. -/
theorem step_sizesKept {Q : Known → α → Prop} {known known' : Known} {c : Cells} (h : SizesKept F known c) {t : Prog α} (ht : t.safe F Q known') :
    SizesKept F known (t.step c).1 := by
  intro j hj m hm
  have := h j hj m hm
  cases t with
  | setSize id n k =>
    simp only [Prog.step, Cells.setSize]
    split
    · next e => subst e; exact ht.1 m hm
    · exact this
  | setPart id p k =>
    simp only [Prog.step, Cells.setPart]
    split
    · exact this
    · exact this
  | _ => exact this

/-- What it reads is right. -/
theorem safe_reads {Q : Known → α → Prop} {known : Known} {c : Cells} (h : SizesKept F known c) {id : SerId} {k : Nat → Prog α}
    (ht : (Prog.getSize id k).safe F Q known) : ∀ m, F id = some m → (c id).size = m := fun m hm => h id (ht.1 m hm) m hm

theorem step_safe {Q : Known → α → Prop} {known : Known} {c : Cells} (h : SizesKept F known c) {t : Prog α} (ht : t.safe F Q known) :
    ∃ k2, SizesKept F k2 (t.step c).1 ∧ (t.step c).2.safe F Q k2 := by
  cases t with
  | ret a => exact ⟨known, h, ht⟩
  | getSize id k => exact ⟨known, h, ht.2 _ (safe_reads h ht)⟩
  | getPart id k => exact ⟨known, h, ht _⟩
  | setSize id n k =>
    refine ⟨_, fun j hj m hm => ?_, ht.2⟩
    rcases hj with hj | hj
    · exact step_sizesKept h ht j hj m hm
    · subst hj
      simp only [Prog.step, Cells.setSize, if_true]
      exact ht.1 m hm
  | setPart id p k => exact ⟨known, step_sizesKept h ht, ht⟩

theorem step_allSafe {c : Cells} {ts : List (Prog α)} (h : AllSafe F c ts) {j : Nat} {u : Prog α} (hj : ts[j]? = some u) :
    AllSafe F (u.step c).1 (ts.set j (u.step c).2) := by
  obtain ⟨ku, hku, hu⟩ := h u (List.mem_of_getElem? hj)
  intro t ht
  rcases List.mem_or_eq_of_mem_set ht with ht | rfl
  · obtain ⟨k, hk, hs⟩ := h t ht
    exact ⟨k, step_sizesKept hk hu, hs⟩
  · exact step_safe hku hu

/-- Without such sizes every program is safe. -/
theorem safe_noSizes (t : Prog α) : ∀ known, t.safe noSizes (fun _ _ => True) known := by
  induction t with
  | ret a => exact fun _ => trivial
  | getSize id k ih => exact fun known => ⟨nofun, fun n _ => ih n known⟩
  | getPart id k ih => exact fun known o => ih o known
  | setSize id n k ih => exact fun known => ⟨nofun, ih _⟩
  | setPart id p k ih => exact fun known => ih _

theorem allSafe_noSizes (c : Cells) (ts : List (Prog α)) : AllSafe noSizes c ts := fun t _ =>
  ⟨fun _ => False, fun _ h => h.elim, safe_noSizes t _⟩

theorem step_wp {Q : α → Prop} {known : Known} {c : Cells} (h : Kept known c) {t : Prog α} (ht : t.wp F Q known) {k' : Known}
    (hs : SizesKept F k' c) (hs' : t.safe F (fun _ _ => True) k') : ∃ k2, Kept k2 (t.step c).1 ∧ (t.step c).2.wp F Q k2 := by
  cases t with
  | ret a => exact ⟨known, h, ht⟩
  | getSize id k => exact ⟨known, h, ht _ (safe_reads hs hs')⟩
  | getPart id k => exact ⟨known, h, ht _ (h id)⟩
  | setSize id n k => exact ⟨known, step_kept h (.setSize id n k), ht⟩
  | setPart id p k =>
    refine ⟨_, fun j hj => ?_, ht⟩
    simp only [Prog.step, Cells.setPart]
    rcases hj with hj | hj
    · split
      · rfl
      · exact h j hj
    · rw [if_pos hj]; rfl

/-- A thread among others that are safe. -/
theorem interleave_wp {Q : α → Prop} (i : Nat) : ∀ (schedule : List Nat) (c : Cells) (ts : List (Prog α)) (known : Known),
    AllSafe F c ts → Kept known c → (∃ t, ts[i]? = some t ∧ t.wp F Q known) →
    ∃ k2 t, (interleave schedule c ts).2[i]? = some t ∧ t.wp F Q k2
  | [], _, _, known, _, _, ⟨t, h1, h2⟩ => ⟨known, t, h1, h2⟩
  | j :: schedule, c, ts, known, ha, hk, ⟨t, h1, h2⟩ => by
    rw [interleave]
    cases hj : ts[j]? with
    | none => exact interleave_wp i schedule c ts known ha hk ⟨t, h1, h2⟩
    | some u =>
      simp only
      have ha' := step_allSafe ha hj
      by_cases hij : j = i
      · subst hij
        rw [hj] at h1; cases h1
        obtain ⟨ku, hku, hu⟩ := ha _ (List.mem_of_getElem? hj)
        obtain ⟨k2, g1, g2⟩ := step_wp hk h2 hku hu
        refine interleave_wp j schedule _ _ k2 ha' g1 ⟨_, ?_, g2⟩
        have hl : j < ts.length := by
          rw [List.getElem?_eq_some_iff] at hj; exact hj.1
        rw [List.getElem?_set, if_pos rfl, if_pos hl]
      · refine interleave_wp i schedule _ _ known ha' (step_kept hk u) ⟨t, ?_, h2⟩
        rw [List.getElem?_set, if_neg hij]; exact h1

theorem exec_wp {Q : α → Prop} (t : Prog α) : ∀ {known k' : Known} {c : Cells}, Kept known c → t.wp F Q known → SizesKept F k' c →
    t.safe F (fun _ _ => True) k' → Q (t.exec c).1 := by
  induction t with
  | ret a => intro k k' c _ h _ _; exact h
  | getSize id k ih => intro kn k' c hk h hs hs'; exact ih _ hk (h _ (safe_reads hs hs')) hs (hs'.2 _ (safe_reads hs hs'))
  | getPart id k ih => intro kn k' c hk h hs hs'; exact ih _ hk (h _ (hk id)) hs (hs' _)
  | setSize id n k ih =>
    intro kn k' c hk h hs hs'
    obtain ⟨k2, h1, h2⟩ := step_safe hs hs'
    exact ih (step_kept hk (.setSize id n k)) h h1 h2
  | setPart id p k ih =>
    intro kn k' c hk h hs hs'
    obtain ⟨k2, h1, h2⟩ := step_safe hs hs'
    refine ih (fun j hj => ?_) h h1 h2
    simp only [Cells.setPart]
    rcases hj with hj | hj
    · split
      · rfl
      · exact hk j hj
    · rw [if_pos hj]; rfl

/-! ### Results that do not depend on what is read -/

variable {ι κ α β γ δ σ : Type}

/-- The programs `x i`, for all `i` in `I`, when the thread has set what `K` says, all give the same
result up to `g`, and leave the thread's buffer and stream alike. -/
def Det (F : Sizes) (I : ι → Prop) (K : Known) (x : ι → T α) (g : α → γ) : Prop :=
  ∀ l : Loc, ∃ r : Except Err γ × Loc, ∀ i, I i → ∀ known : Known, (∀ j, K j → known j) →
    (x i l).wp F (fun y => (y.1.map g, y.2) = r) known

theorem Det.bind {I : ι → Prop} {K : Known} {x : ι → T α} {f : ι → α → T β} {g : α → γ} {h : β → δ} (hx : Det F I K x g)
    (hf : ∀ c, Det F (fun ia : ι × α => I ia.1 ∧ g ia.2 = c) K (fun ia => f ia.1 ia.2) h) :
    Det F I K (fun i => x i >>= f i) h := by
  intro l
  obtain ⟨⟨r, l'⟩, hr⟩ := hx l
  cases r with
  | error e =>
    refine ⟨(.error e, l'), fun i hi known hk => wp_bind _ (hr i hi known hk) fun y hy k2 _ => ?_⟩
    obtain ⟨y, l2⟩ := y
    cases y with
    | error e' =>
      simp only [Except.map, Prod.mk.injEq, Except.error.injEq] at hy
      obtain ⟨rfl, rfl⟩ := hy
      rfl
    | ok a => simp [Except.map] at hy
  | ok c =>
    obtain ⟨r2, hr2⟩ := hf c l'
    refine ⟨r2, fun i hi known hk => wp_bind _ (hr i hi known hk) fun y hy k2 hk2 => ?_⟩
    obtain ⟨y, l2⟩ := y
    cases y with
    | error e' => simp [Except.map] at hy
    | ok a =>
      simp only [Except.map, Prod.mk.injEq, Except.ok.injEq] at hy
      obtain ⟨hy, rfl⟩ := hy
      exact hr2 (i, a) ⟨hi, hy⟩ k2 fun j hj => hk2 j (hk j hj)

/-- Another way to name the programs. -/
theorem Det.of {I : ι → Prop} {J : κ → Prop} {K : Known} {x : ι → T α} {y : κ → T α} {g : α → γ} (hy : Det F J K y g)
    (h : ∀ i, I i → ∃ j, J j ∧ x i = y j) : Det F I K x g := by
  intro l
  obtain ⟨r, hr⟩ := hy l
  refine ⟨r, fun i hi known hk => ?_⟩
  obtain ⟨j, hj, e⟩ := h i hi
  rw [e]; exact hr j hj known hk

theorem Det.known {I : ι → Prop} {K K' : Known} {x : ι → T α} {g : α → γ} (h : Det F I K x g) (hk : ∀ j, K j → K' j) : Det F I K' x g := by
  intro l
  obtain ⟨r, hr⟩ := h l
  exact ⟨r, fun i hi known hk' => hr i hi known fun j hj => hk' j (hk j hj)⟩

theorem Det.pure {I : ι → Prop} {K : Known} {a : ι → α} {g : α → γ} (c : γ) (h : ∀ i, I i → g (a i) = c) :
    Det F I K (fun i => (Pure.pure (a i) : T α)) g := by
  intro l
  exact ⟨(.ok c, l), fun i hi _ _ => by show (Except.map g (.ok (a i)), l) = _; rw [Except.map, h i hi]⟩

theorem Det.lift {I : ι → Prop} {K : Known} {a : ι → Except Err α} (c : Except Err α) (h : ∀ i, I i → a i = c) :
    Det F I K (fun i => T.lift (a i)) fun x => x := by
  intro l
  refine ⟨(c, l), fun i hi _ _ => ?_⟩
  show (Except.map _ (a i), l) = _
  rw [h i hi]; cases c <;> rfl

/-- The same, with results compared up to `g`. -/
theorem Det.lift' {I : ι → Prop} {K : Known} {a : ι → Except Err α} {g : α → γ} (c : Except Err γ)
    (h : ∀ i, I i → (a i).map g = c) : Det F I K (fun i => T.lift (a i)) g := by
  intro l
  refine ⟨(c, l), fun i hi _ _ => ?_⟩
  show (Except.map _ (a i), l) = _
  rw [h i hi]

theorem Det.throw {I : ι → Prop} {K : Known} {g : α → γ} (e : Err) : Det F I K (fun _ => (T.throw e : T α)) g := by
  intro l
  exact ⟨(.error e, l), fun i hi _ _ => rfl⟩

theorem Det.setSize {I : ι → Prop} {K : Known} {id : SerId} {n : ι → Nat} : Det F I K (fun i => setSize id (n i)) fun x => x := by
  intro l
  exact ⟨(.ok (), l), fun i hi _ _ => rfl⟩

theorem Det.getSize {I : ι → Prop} {K : Known} {id : SerId} : Det F I K (fun _ => getCellSize id) fun _ => () := by
  intro l
  exact ⟨(.ok (), l), fun i hi _ _ n _ => rfl⟩

theorem Det.getPart {I : ι → Prop} {K : Known} {id : SerId} (h : K id) : Det F I K (fun _ => getPart id) fun _ => () := by
  intro l
  refine ⟨(.ok (), l), fun i hi known hk o ho => ?_⟩
  have := ho (hk id h)
  cases o with
  | none => cases this
  | some p => rfl

theorem Det.setPart {I : ι → Prop} {K : Known} {id : SerId} {p : ι → PObj} {f : ι → T α} {g : α → γ}
    (h : Det F I (fun j => K j ∨ j = id) f g) : Det F I K (fun i => setPart id (p i) >>= fun _ => f i) g := by
  intro l
  obtain ⟨r, hr⟩ := h l
  exact ⟨r, fun i hi known hk => hr i hi _ fun j hj => hj.imp (hk j) fun h => h⟩

theorem Det.modify {I : ι → Prop} {K : Known} {f : ι → Loc → Loc} (c : Loc → Loc) (h : ∀ i, I i → f i = c) :
    Det F I K (fun i => T.modify (f i)) fun x => x := by
  intro l
  exact ⟨(.ok (), c l), fun i hi _ _ => by show (_, f i l) = _; rw [h i hi]; rfl⟩

/-- A program that does not touch the attributes. -/
theorem Det.quiet {I : ι → Prop} {K : Known} {x : ι → T α} {g : α → γ} (y : Loc → Except Err γ × Loc)
    (h : ∀ i, I i → ∀ l, ∃ z, x i l = .ret z ∧ (z.1.map g, z.2) = y l) : Det F I K x g := by
  intro l
  refine ⟨y l, fun i hi _ _ => ?_⟩
  obtain ⟨z, e, hz⟩ := h i hi l
  rw [e]; exact hz

/-- A result compared up to `g` may be compared less closely. -/
theorem Det.map {I : ι → Prop} {K : Known} {x : ι → T α} {g : α → γ} (h : Det F I K x g) (k : γ → δ) : Det F I K x fun a => k (g a) := by
  intro l
  obtain ⟨⟨r, l'⟩, hr⟩ := h l
  refine ⟨(r.map k, l'), fun i hi known hk => wp_mono (fun y hy => ?_) _ (fun _ h => h) (hr i hi known hk)⟩
  obtain ⟨y, l2⟩ := y
  simp only [Prod.mk.injEq] at hy ⊢
  refine ⟨?_, hy.2⟩
  rw [← hy.1]
  cases y <;> rfl

theorem Det.bindEq {I : ι → Prop} {K : Known} {x : ι → T α} {f : ι → α → T β} {h : β → δ} (hx : Det F I K x fun a => a)
    (hf : ∀ a, Det F I K (fun i => f i a) h) : Det F I K (fun i => x i >>= f i) h :=
  Det.bind (g := fun a => a) hx fun c => (hf c).of fun ia hia => ⟨ia.1, hia.1, by rw [hia.2]⟩

theorem Det.bindAny {I : ι → Prop} {K : Known} {x : ι → T α} {f : ι → α → T β} {h : β → δ} (hx : Det F I K x fun _ => ())
    (hf : Det F (fun ia : ι × α => I ia.1) K (fun ia => f ia.1 ia.2) h) : Det F I K (fun i => x i >>= f i) h :=
  Det.bind (g := fun _ => ()) hx fun _ => hf.of fun ia hia => ⟨ia, hia.1, rfl⟩

theorem Det.bindFst {I : ι → Prop} {K : Known} {x : ι → T (α × σ)} {f : ι → α × σ → T β} {h : β → δ} (hx : Det F I K x Prod.fst)
    (hf : ∀ a, Det F (fun ia : ι × σ => I ia.1) K (fun ia => f ia.1 (a, ia.2)) h) : Det F I K (fun i => x i >>= f i) h :=
  Det.bind (g := Prod.fst) hx fun c => (hf c).of fun ia hia => ⟨(ia.1, ia.2.2), hia.1, by
    obtain ⟨i, a, s⟩ := ia
    obtain ⟨_, rfl⟩ := hia
    rfl⟩

/-- A fixed program. -/
theorem Det.const {I : ι → Prop} {K : Known} {x : T α} {g : α → γ} (h : Det F (fun _ : Unit => True) K (fun _ => x) g) :
    Det F I K (fun _ => x) g := h.of fun _ _ => ⟨(), trivial, rfl⟩

end Verif.Threads
