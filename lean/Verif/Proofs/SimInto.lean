import Verif.Proofs.SimWrite
/-
`pack_into` against `pack`, run from the same serializer state.
-/
namespace Verif
open Sem

/-- `y` (a `pack_into`) fails where `x` (a `pack`) does; every success of `y` does to the cells what
`x` does and satisfies `Φ`; and if the bytes fit, `y` succeeds and keeps the length of the buffer. -/
def SimI (x : M α) (st1 : St) (y : M β) (st2 : St) (fit : α → Nat → Prop) (Φ : α → β → St → Prop) : Prop :=
  match x st1 with
  | .err _ _ => ∀ b st', y st2 ≠ .ok b st'
  | .ok a st1' => (∀ b st2', y st2 = .ok b st2' → st2'.cells = st1'.cells ∧ Φ a b st2') ∧
      (fit a st2.buf.length → ∃ b st2', y st2 = .ok b st2' ∧ st2'.buf.length = st2.buf.length)

theorem SimI.bind {x : M α} {y : M β} {st1 st2 : St} {fit1 : α → Nat → Prop} {Φ : α → β → St → Prop}
    {f : α → M γ} {g : β → M δ} {fit : γ → Nat → Prop} {fit2 : α → γ → Nat → Prop}
    {Ψ : γ → δ → St → Prop} (h : SimI x st1 y st2 fit1 Φ)
    (k : ∀ a b st1' st2', x st1 = .ok a st1' → st1'.cells = st2'.cells → Φ a b st2' →
      SimI (f a) st1' (g b) st2' (fit2 a) Ψ)
    (hfit : ∀ a st1' c st1'' L, x st1 = .ok a st1' → f a st1' = .ok c st1'' → fit c L → fit1 a L ∧ fit2 a c L) :
    SimI (x >>= f) st1 (y >>= g) st2 fit Ψ := by
  unfold SimI at h
  cases hx : x st1 with
  | err e st1' =>
    rw [hx] at h
    have e1 : (x >>= f) st1 = .err e st1' := by show M.bind x f st1 = _; simp [M.bind, hx]
    unfold SimI
    rw [e1]
    intro d st' hd
    obtain ⟨b, s2, q1, _⟩ := M.bind_ok hd
    exact h b s2 q1
  | ok a st1' =>
    rw [hx] at h
    obtain ⟨h1, h2⟩ := h
    have key : ∀ b st2', y st2 = .ok b st2' → SimI (f a) st1' (g b) st2' (fit2 a) Ψ := fun b st2' e =>
      k a b st1' st2' hx (h1 b st2' e).1.symm (h1 b st2' e).2
    unfold SimI
    rw [M.bind_eq hx]
    cases hf : f a st1' with
    | err e s1 =>
      intro d st' hd
      obtain ⟨b, s2, q1, q2⟩ := M.bind_ok hd
      have := key b s2 q1
      unfold SimI at this
      rw [hf] at this
      exact this d st' q2
    | ok c s1 =>
      refine ⟨?_, ?_⟩
      · intro d st' hd
        obtain ⟨b, s2, q1, q2⟩ := M.bind_ok hd
        have := key b s2 q1
        unfold SimI at this
        rw [hf] at this
        exact this.1 d st' q2
      · intro hL
        obtain ⟨f1, f2⟩ := hfit a st1' c s1 _ hx hf hL
        obtain ⟨b, s2, q1, q2⟩ := h2 f1
        have := key b s2 q1
        unfold SimI at this
        rw [hf] at this
        obtain ⟨d, s3, q3, q4⟩ := this.2 (by rw [q2]; exact f2)
        exact ⟨d, s3, by rw [M.bind_eq q1]; exact q3, q4.trans q2⟩

/-- A common step on cells. -/
theorem SimI.step {x : M α} {st1 st2 : St} {f : α → M γ} {g : α → M δ} {fit : γ → Nat → Prop}
    {Ψ : γ → δ → St → Prop} (h : CellOp x) (hc : st1.cells = st2.cells)
    (k : ∀ a st1' st2', x st1 = .ok a st1' → st1'.cells = st2'.cells → Fr st2 st2' →
      SimI (f a) st1' (g a) st2' fit Ψ) :
    SimI (x >>= f) st1 (x >>= g) st2 fit Ψ := by
  have := h.run st1 st2 hc
  cases hx : x st1 with
  | err e s1 =>
    rw [hx] at this
    obtain ⟨s2, a, _⟩ := this
    have e1 : (x >>= f) st1 = .err e s1 := by show M.bind x f st1 = _; simp [M.bind, hx]
    unfold SimI
    rw [e1]
    intro d st' hd
    obtain ⟨b, s3, q1, _⟩ := M.bind_ok hd
    rw [a] at q1; cases q1
  | ok a s1 =>
    rw [hx] at this
    obtain ⟨s2, e2, c2, _, f2⟩ := this
    have := k a s1 s2 hx c2.symm f2
    unfold SimI at this ⊢
    rw [M.bind_eq hx, M.bind_eq e2]
    rw [f2.1] at this
    exact this

theorem SimI.pure {a : α} {b : β} {st1 st2 : St} {fit : α → Nat → Prop} {Φ : α → β → St → Prop}
    (hc : st1.cells = st2.cells) (h : Φ a b st2) : SimI (Pure.pure a) st1 (Pure.pure b) st2 fit Φ :=
  ⟨fun _ _ e => by cases e; exact ⟨hc.symm, h⟩, fun _ => ⟨b, st2, rfl, rfl⟩⟩

theorem SimI.throw {e e' : Err} {st1 st2 : St} {fit : α → Nat → Prop} {Φ : α → β → St → Prop} :
    SimI (M.throw e) st1 (M.throw e') st2 fit Φ := fun _ _ h => nomatch h

theorem SimI.mono {x : M α} {y : M β} {st1 st2 : St} {fit fit' : α → Nat → Prop} {Φ Φ' : α → β → St → Prop}
    (h : SimI x st1 y st2 fit Φ) (hΦ : ∀ a b st', Φ a b st' → Φ' a b st')
    (hf : ∀ a L, fit' a L → fit a L) : SimI x st1 y st2 fit' Φ' := by
  unfold SimI at h ⊢
  cases hx : x st1 with
  | err e s => rw [hx] at h; exact h
  | ok a s =>
    rw [hx] at h
    exact ⟨fun b s2 e => ⟨(h.1 b s2 e).1, hΦ _ _ _ (h.1 b s2 e).2⟩, fun hL => h.2 (hf _ _ hL)⟩

theorem SimI.start {x : M α} {y : M β} {st1 st2 st2' : St} {fit : α → Nat → Prop} {Φ : α → β → St → Prop}
    {y' : M β} (h : SimI x st1 y st2 fit Φ) (e : y' st2' = y st2) (hl : st2'.buf.length = st2.buf.length) :
    SimI x st1 y' st2' fit Φ := by
  unfold SimI at h ⊢
  rw [e, hl]; exact h

/-- The bytes fit at `off`. -/
def fitB (off : Nat) (b : Bytes) (L : Nat) : Prop := off + b.length ≤ L

theorem SimI.struct (env : Env) (s : StructSer) (off : Nat) (vs : List Val) {st1 st2 : St}
    (hc : st1.cells = st2.cells) : SimI (M.lift (s.pack env.plat vs)) st1 (structPackIntoM env s off vs) st2
      (fitB off) (fun b _ st' => IW off b st2 st') := by
  have := structPackInto_into env s off vs st2
  unfold SimI
  cases h : s.pack env.plat vs with
  | error e => rw [h] at this; exact this
  | ok b =>
    rw [h] at this
    refine ⟨fun _ st' e => ?_, this.2⟩
    have := this.1 _ _ e
    exact ⟨this.2.1.trans hc.symm, this.1⟩

theorem SimI.structOpt (env : Env) (s : Option StructSer) (off : Nat) (vs : List Val) {st1 st2 : St}
    (hc : st1.cells = st2.cells) : SimI (M.lift (packOpt env.plat s vs)) st1 (packIntoOpt env s off vs) st2
      (fitB off) (fun b _ st' => IW off b st2 st') := by
  cases s with
  | none => exact SimI.pure hc (IW.of_fr (Fr.refl _))
  | some s => exact SimI.struct env s off vs hc

def SimPackInto (packN : Ser → List Val → M Bytes) (intoN : Ser → Nat → List Val → M Unit) : Prop :=
  ∀ s off vs st1 st2, st1.cells = st2.cells →
    SimI (packN s vs) st1 (intoN s off vs) st2 (fitB off) (fun b _ st' => IW off b st2 st')

theorem readSize_of_cells {s : Ser} {k : Nat} {st1 st2 : St} (hc : st1.cells = st2.cells) (h : SizeIs s k st1) :
    SizeIs s k st2 := by
  intro hs
  have h1 := h hs
  have := (CellOp.readSize s).run st1 st2 hc
  rw [h1] at this
  obtain ⟨st', e, _, _, f⟩ := this
  rw [e]
  have : st' = st2 := by
    have := (CellOp.readSize s).run st2 st2 rfl
    rw [e] at this
    clear this
    revert e
    cases hs' : s.readSize st2 with
    | err _ _ => intro e; cases e
    | ok _ _ =>
      intro e; cases e
      exact (readSize_state s _ _ _ hs')
  rw [this]
where
  readSize_state : (s : Ser) → (st : St) → (m : Nat) → (st' : St) → s.readSize st = .ok m st' → st' = st
    | .unicode inner _ _, st, m, st', h => readSize_state inner st m st' h
    | .tuple _ inner, st, m, st', h => readSize_state inner st m st' h
    | .cond .., _, _, _, h | .selfT _, _, _, _, h => nomatch h
    | .null, _, _, _, h | .struct _, _, _, _, h | .dynChar .., _, _, _, h | .consuming _, _, _, _, h
    | .terminated .., _, _, _, h | .net _, _, _, _, h | .array .., _, _, _, h | .staticArr .., _, _, _, h
    | .dynArr .., _, _, _, h | .lookback .., _, _, _, h | .lookahead .., _, _, _, h | .skip _, _, _, _, h
    | .structured .., _, _, _, h | .compound .., _, _, _, h | .specialized .., _, _, _, h => by cases h; rfl

/-- Reading an exact size on both sides. -/
theorem SimI.size {s : Ser} {k : Nat} {st1 st2 : St} {f : Nat → M γ} {g : Nat → M δ} {fit : γ → Nat → Prop}
    {Ψ : γ → δ → St → Prop} (hc : st1.cells = st2.cells) (h : SizeIs s k st1)
    (hk : SimI (f k) st1 (g k) st2 fit Ψ) : SimI (s.readSize >>= f) st1 (s.readSize >>= g) st2 fit Ψ := by
  cases hs : s.sized with
  | false =>
    have e1 : (s.readSize >>= f) st1 = .err .attributeError st1 := by
      show M.bind _ _ _ = _; simp [M.bind, readSize_unsized s hs]
    unfold SimI
    rw [e1]
    intro d st' hd
    obtain ⟨b, s3, q1, _⟩ := M.bind_ok hd
    rw [readSize_unsized s hs] at q1; cases q1
  | true =>
    unfold SimI at hk ⊢
    rw [M.bind_eq (h hs), M.bind_eq (readSize_of_cells hc h hs)]
    exact hk

theorem packIntoLoop_sim {packN : Ser → List Val → M Bytes} {intoN : Ser → Nat → List Val → M Unit}
    (hS : ∀ s vs, Yields (packN s vs) (fun b st => SizeIs s b.length st))
    (hN : SimPackInto packN intoN) {pre : Ser → M Ser} (hp : ∀ s, CellOp (pre s)) (off : Nat) :
    ∀ ss vals size st1 st2, st1.cells = st2.cells →
      SimI (packLoop packN pre ss vals) st1 (packIntoLoop intoN pre off size ss vals) st2
        (fun r L => off + size + r.1.length ≤ L)
        (fun r t st' => t = size + r.1.length ∧ IW (off + size) r.1 st2 st') := by
  intro ss
  induction ss with
  | nil => intro vals size st1 st2 hc; exact SimI.pure hc ⟨rfl, IW.of_fr (Fr.refl _)⟩
  | cons s ss ih =>
    intro vals size st1 st2 hc
    rw [packLoop, packIntoLoop]
    refine SimI.step (hp s) hc ?_
    intro s' a1 a2 _ hc1 hf1
    refine SimI.bind (fit2 := fun b r L => off + size + r.1.length ≤ L) (hN s' (off + size) _ a1 a2 hc1) ?_ ?_
    · intro b _ b1 b2 hb hc2 hiw
      refine SimI.size hc2 ((hS _ _).run _ _ _ hb) ?_
      have h := ih (vals.drop s'.numValues) (size + b.length) b1 b2 hc2
      unfold SimI at h ⊢
      cases hx : packLoop packN pre ss (vals.drop s'.numValues) b1 with
      | err e s1 =>
        rw [hx] at h
        have e1 : (packLoop packN pre ss (vals.drop s'.numValues) >>= fun x => match x with
            | (bs, total) => (Pure.pure (b ++ bs, b.length + total) : M _)) b1 = .err e s1 := by
          show M.bind _ _ _ = _; simp [M.bind, hx]
        rw [e1]; exact h
      | ok r s1 =>
        rw [hx] at h
        rw [M.bind_eq hx]
        refine ⟨?_, ?_⟩
        · intro t s2 e
          obtain ⟨q1, q2, q3⟩ := h.1 t s2 e
          refine ⟨q1, ?_, ?_⟩
          · simp [q2, Nat.add_assoc]
          · rw [← Nat.add_assoc] at q3
            exact (hiw.seq q3).frL hf1
        · intro hL
          refine h.2 ?_
          simp only [List.length_append] at hL
          omega
    · rintro b b1 r b2 L hb hr hL
      obtain ⟨sz, c1, e1, e2⟩ := M.bind_ok hr
      obtain ⟨⟨bs, t⟩, c2, e3, e4⟩ := M.bind_ok e2
      cases e4
      simp only [List.length_append] at hL
      simp only [fitB, List.length_append]
      omega

theorem packIntoItems_sim {packN : Ser → List Val → M Bytes} {intoN : Ser → Nat → List Val → M Unit}
    (hS : ∀ s vs, Yields (packN s vs) (fun b st => SizeIs s b.length st))
    (hN : SimPackInto packN intoN) (item : Ser) (off : Nat) :
    ∀ vals size st1 st2, st1.cells = st2.cells →
      SimI (packItems packN item vals) st1 (packIntoItems intoN item off size vals) st2
        (fun r L => off + size + r.1.length ≤ L)
        (fun r t st' => t = size + r.1.length ∧ IW (off + size) r.1 st2 st') := by
  intro vals
  induction vals with
  | nil => intro size st1 st2 hc; exact SimI.pure hc ⟨rfl, IW.of_fr (Fr.refl _)⟩
  | cons v vs ih =>
    intro size st1 st2 hc
    rw [packItems, packIntoItems]
    refine SimI.bind (fit2 := fun b r L => off + size + r.1.length ≤ L) (hN item (off + size) _ st1 st2 hc) ?_ ?_
    · intro b _ b1 b2 hb hc2 hiw
      refine SimI.size hc2 ((hS _ _).run _ _ _ hb) ?_
      have h := ih (size + b.length) b1 b2 hc2
      unfold SimI at h ⊢
      cases hx : packItems packN item vs b1 with
      | err e s1 =>
        rw [hx] at h
        have e1 : (packItems packN item vs >>= fun x => match x with
            | (bs, total) => (Pure.pure (b ++ bs, b.length + total) : M _)) b1 = .err e s1 := by
          show M.bind _ _ _ = _; simp [M.bind, hx]
        rw [e1]; exact h
      | ok r s1 =>
        rw [hx] at h
        rw [M.bind_eq hx]
        refine ⟨?_, ?_⟩
        · intro t s2 e
          obtain ⟨q1, q2, q3⟩ := h.1 t s2 e
          refine ⟨q1, ?_, ?_⟩
          · simp [q2, Nat.add_assoc]
          · rw [← Nat.add_assoc] at q3
            exact hiw.seq q3
        · intro hL
          refine h.2 ?_
          simp only [List.length_append] at hL
          omega
    · rintro b b1 r b2 L hb hr hL
      obtain ⟨sz, c1, e1, e2⟩ := M.bind_ok hr
      obtain ⟨⟨bs, t⟩, c2, e3, e4⟩ := M.bind_ok e2
      cases e4
      simp only [List.length_append] at hL
      simp only [fitB, List.length_append]
      omega

theorem objPackInto_sim (env : Env) {packN : Ser → List Val → M Bytes} {intoN : Ser → Nat → List Val → M Unit}
    (hN : SimPackInto packN intoN) (off : Nat) (v : Val) {st1 st2 : St} (hc : st1.cells = st2.cells) :
    SimI (objPack env packN v) st1 (objPackInto env intoN off v) st2 (fun r L => fitB off r.1 L)
      (fun r ser st' => ser = r.2 ∧ IW off r.1 st2 st') := by
  cases v with
  | obj cls bo attrs =>
    simp only [objPack, objPackInto]
    refine SimI.step (CellOp.lift _) hc ?_
    rintro ⟨ci, ser⟩ a1 a2 _ hc1 hf1
    refine SimI.step (CellOp.prepack _ _) hc1 ?_
    intro s b1 b2 _ hc2 hf2
    refine SimI.step (CellOp.lift _) hc2 ?_
    intro vals c1 c2 _ hc3 hf3
    refine SimI.bind (fit2 := fun _ _ _ => True) (hN s off vals c1 c2 hc3) ?_ ?_
    · intro b _ d1 d2 _ hc4 hiw
      exact SimI.pure hc4 ⟨rfl, hiw.frL (hf1.trans (hf2.trans hf3))⟩
    · intro b _ r _ L _ hr hL
      cases hr
      exact ⟨hL, trivial⟩
  | _ => exact SimI.throw

/-- `pack_into` puts into the buffer what `pack` returns, from the same serializer state. -/
theorem packInto_sim (env : Env) : ∀ n, SimPackInto (pack env n) (packInto env n) := by
  intro n
  induction n with
  | zero => intro s off vs st1 st2 hc; exact SimI.throw
  | succ n ih =>
    intro s off vs st1 st2 hc
    have leaf : ∀ (id : SerId) (e : Except Err (StructSer × List Val)), SimI
        (do let (t, vals) ← M.lift e; setSize id t.size; M.lift (t.pack env.plat vals)) st1
        (do let (t, vals) ← M.lift e; setSize id t.size; structPackIntoM env t off vals) st2
        (fitB off) (fun b _ st' => IW off b st2 st') := by
      intro id e
      refine SimI.step (CellOp.lift _) hc ?_
      rintro ⟨t, vals⟩ a1 a2 _ hc1 hf1
      refine SimI.step (CellOp.setSize _ _) hc1 ?_
      intro _ b1 b2 _ hc2 hf2
      exact (SimI.struct env t off vals hc2).mono (fun _ _ _ h => h.frL (hf1.trans hf2)) (fun _ _ h => h)
    have union : ∀ (id : SerId) (s : Ser) (a1 a2 : St), a1.cells = a2.cells → Fr st2 a2 → SimI (do
        let b ← pack env n s vs
        setSize id (← s.readSize)
        Pure.pure b) a1 (do
        packInto env n s off vs
        setSize id (← s.readSize)) a2 (fitB off) (fun b _ st' => IW off b st2 st') := by
      intro id s a1 a2 hc1 hf
      refine SimI.bind (fit2 := fun _ _ _ => True) (ih s off vs a1 a2 hc1) ?_ ?_
      · intro b _ b1 b2 _ hc2 hiw
        refine SimI.step (CellOp.readSize _) hc2 ?_
        intro sz c1 c2 _ hc3 hf3
        refine ⟨fun _ _ e => ?_, fun _ => ⟨(), c2.withSize id sz, rfl, rfl⟩⟩
        cases e
        exact ⟨by simp only [hc3], (hiw.frL hf).frR (hf3.trans (Fr.withSize c2 id sz))⟩
      · intro b b1 r b2 L _ hr hL
        obtain ⟨_, _, _, e2⟩ := M.bind_ok hr
        obtain ⟨_, _, _, e4⟩ := M.bind_ok e2
        cases e4
        exact ⟨hL, trivial⟩
    have total : ∀ (id : SerId) (x : M (Bytes × Nat)) (y : M Nat),
        Yields x (fun r _ => r.2 = r.1.length) →
        SimI x st1 y st2 (fun r L => off + 0 + r.1.length ≤ L)
          (fun r t st' => t = 0 + r.1.length ∧ IW (off + 0) r.1 st2 st') →
        SimI (do let (b, total) ← x; setSize id total; Pure.pure b) st1
          (do let total ← y; setSize id total) st2 (fitB off) (fun b _ st' => IW off b st2 st') := by
      intro id x y hy h
      refine SimI.bind (fit2 := fun _ _ _ => True) h ?_ ?_
      · rintro ⟨b, t⟩ _ b1 b2 hx hc2 ⟨rfl, hiw⟩
        have : t = b.length := hy.run _ _ _ hx
        subst this
        simp only [Nat.zero_add]
        refine ⟨fun _ _ e => ?_, fun _ => ⟨(), b2.withSize id b.length, rfl, rfl⟩⟩
        cases e
        exact ⟨by simp only [hc2], hiw.frR (Fr.withSize b2 id b.length)⟩
      · rintro ⟨b, t⟩ b1 r b2 L _ hr hL
        obtain ⟨_, _, e1, e2⟩ := M.bind_ok hr
        cases e1; cases e2
        exact ⟨hL, trivial⟩
    cases s with
    | null => exact SimI.pure hc (IW.of_fr (Fr.refl _))
    | skip _ => exact SimI.pure hc (IW.of_fr (Fr.refl _))
    | cond => exact SimI.throw
    | selfT => exact SimI.throw
    | struct s => exact SimI.struct env s off vs hc
    | dynChar id s => exact leaf id _
    | net id => exact leaf id _
    | dynArr id c i => exact leaf id _
    | terminated id term =>
      refine SimI.step (CellOp.lift _) hc ?_
      intro b a1 a2 _ hc1 hf1
      refine SimI.step (CellOp.setSize _ _) hc1 ?_
      intro _ b1 b2 _ hc2 hf2
      have e : ∀ st, (M.lift (do packOpt env.plat (← singleChar.matmul b.length) [.bytes b]) : M Bytes) st =
          (M.lift (singleChar.matmul b.length) >>= fun s => M.lift (packOpt env.plat s [.bytes b])) st := by
        intro st
        show _ = M.bind _ _ _
        simp only [M.bind, M.lift, bind, Except.bind]
        cases singleChar.matmul b.length <;> rfl
      have h : SimI (M.lift (singleChar.matmul b.length) >>= fun s => M.lift (packOpt env.plat s [.bytes b])) b1
          (M.lift (singleChar.matmul b.length) >>= fun s => packIntoOpt env s off [.bytes b]) b2
          (fitB off) (fun b _ st' => IW off b st2 st') := by
        refine SimI.step (CellOp.lift _) hc2 ?_
        intro s c1 c2 _ hc3 hf3
        exact (SimI.structOpt env s off _ hc3).mono (fun _ _ _ h => h.frL (hf1.trans (hf2.trans hf3)))
          (fun _ _ h => h)
      unfold SimI at h ⊢
      rw [e]; exact h
    | consuming id =>
      refine SimI.step (CellOp.lift _) hc ?_
      intro b a1 a2 _ hc1 hf1
      refine SimI.step (CellOp.setSize _ _) hc1 ?_
      intro _ b1 b2 _ hc2 hf2
      refine ⟨fun _ st' e => ?_, fun hL => ⟨(), { b2 with buf := splice b2.buf off b }, rfl, splice_length hL⟩⟩
      cases e
      have : IW off b b2 { b2 with buf := splice b2.buf off b } := by
        refine ⟨splice_length_ge _ _ _, fun e => ⟨?_, rfl⟩, rfl⟩
        exact splice_length_eq e
      exact ⟨hc2.symm, this.frL (hf1.trans hf2)⟩
    | unicode inner en de =>
      refine SimI.step (CellOp.lift _) hc ?_
      intro b a1 a2 _ hc1 hf1
      exact (ih inner off _ a1 a2 hc1).mono (fun _ _ _ h => h.frL hf1) (fun _ _ h => h)
    | staticArr count item ser =>
      refine SimI.step (CellOp.lift _) hc ?_
      intro items a1 a2 _ hc1 hf1
      exact (SimI.structOpt env ser off _ hc1).mono (fun _ _ _ h => h.frL hf1) (fun _ _ h => h)
    | array id hdr item sl =>
      simp only [pack, packInto]
      cases hv : first vs with
      | error e =>
        unfold SimI
        split
        · intro b st' h; cases h
        · rename_i heq
          obtain ⟨_, _, _, e2⟩ := M.bind_ok heq
          obtain ⟨_, _, _, e4⟩ := M.bind_ok e2
          obtain ⟨_, _, e5, _⟩ := M.bind_ok e4
          cases e5
      | ok v =>
        refine SimI.start (y := (do
          let p ← getPart id
          let item' ← item.prepack p
          let items ← M.lift (pyIter v)
          let size ← packIntoItems (packInto env n) item' off (hdrSize hdr) items
          let hv ← M.lift (headerPackValues hdr sl items.length (size - hdrSize hdr))
          setSize id size
          packIntoOpt env hdr off hv)) (st2 := st2) ?_ rfl rfl
        refine SimI.step (CellOp.getPart _) hc ?_
        intro p a1 a2 _ hc1 hf1
        refine SimI.step (CellOp.prepack _ _) hc1 ?_
        intro item' b1 b2 _ hc2 hf2
        show SimI (M.lift (pyIter v) >>= _) _ _ _ _ _
        refine SimI.step (CellOp.lift _) hc2 ?_
        intro items c1 c2 _ hc3 hf3
        have hf := hf1.trans (hf2.trans hf3)
        refine SimI.bind (fit2 := fun r b L => fitB off b L)
          (packIntoItems_sim (pack_size env n) ih item' off items (hdrSize hdr) c1 c2 hc3) ?_ ?_
        · rintro ⟨data, size⟩ t d1 d2 hd hc4 ⟨rfl, hiw⟩
          have hsz : size = data.length := (packItems_size (pack_size env n) item' items).run _ _ _ hd
          subst hsz
          simp only [Nat.add_sub_cancel_left]
          refine SimI.step (CellOp.lift _) hc4 ?_
          intro hv e1 e2 _ hc5 hf5
          have hk := packIntoOpt_into env hdr off hv (e2.withSize id (hdrSize hdr + data.length))
          cases hp : packOpt env.plat hdr hv with
          | error e =>
            rw [hp] at hk
            unfold SimI
            rintro b st' h
            exact hk b st' h
          | ok h =>
            rw [hp] at hk
            obtain ⟨k1, k2⟩ := hk
            refine ⟨?_, ?_⟩
            · intro _ st' e
              obtain ⟨q1, q2, q3, _⟩ := k1 _ _ e
              refine ⟨?_, ?_⟩
              · rw [q2]; simp only [St.withSize, hc5]
              · have hl : hdrSize hdr = h.length := q3.symm
                rw [hl] at hiw
                exact ((hiw.frR (hf5.trans (Fr.withSize ..))).front q1).frL hf
            · intro hL
              refine k2 ?_
              simp only [fitB, List.length_append] at hL
              show off + h.length ≤ e2.buf.length
              omega
        · rintro ⟨data, size⟩ d1 b d2 L hd hr hL
          obtain ⟨hv, _, e1, e2⟩ := M.bind_ok hr
          obtain ⟨h, _, e3, e4⟩ := M.bind_ok e2
          obtain ⟨_, _, e5, e6⟩ := M.bind_ok e4
          cases hp : packOpt env.plat hdr hv with
          | error e => rw [hp] at e3; cases e3
          | ok h' =>
            rw [hp] at e3; cases e3; cases e6
            have := packOpt_length hp
            refine ⟨?_, hL⟩
            simp only [fitB, List.length_append, this] at hL
            show off + hdrSize hdr + data.length ≤ L
            unfold hdrSize
            omega
    | tuple id inner =>
      simp only [pack, packInto]
      rcases vs with _ | ⟨v, _ | ⟨w, ws⟩⟩
      · exact SimI.throw
      · refine SimI.step (CellOp.getPart _) hc ?_
        intro p a1 a2 _ hc1 hf1
        refine SimI.step (CellOp.prepack _ _) hc1 ?_
        intro inner' b1 b2 _ hc2 hf2
        refine SimI.step (CellOp.lift _) hc2 ?_
        intro vals c1 c2 _ hc3 hf3
        exact (ih inner' off vals c1 c2 hc3).mono (fun _ _ _ h => h.frL (hf1.trans (hf2.trans hf3)))
          (fun _ _ h => h)
      · exact SimI.throw
    | lookback id d keys opts dflt =>
      refine SimI.step (CellOp.getPart _) hc ?_
      intro p a1 a2 _ hc1 hf1
      refine SimI.step (CellOp.lift _) hc1 ?_
      intro r b1 b2 _ hc2 hf2
      refine SimI.step (CellOp.getSerializer _ _ _ _ _ _) hc2 ?_
      intro s c1 c2 _ hc3 hf3
      exact union id s c1 c2 hc3 (hf1.trans (hf2.trans hf3))
    | lookahead id ra d keys opts dflt =>
      refine SimI.step (CellOp.getPart _) hc ?_
      intro p a1 a2 _ hc1 hf1
      refine SimI.step (CellOp.lift _) hc1 ?_
      intro r b1 b2 _ hc2 hf2
      refine SimI.step (CellOp.getSerializer _ _ _ _ _ _) hc2 ?_
      intro s c1 c2 _ hc3 hf3
      exact union id s c1 c2 hc3 (hf1.trans (hf2.trans hf3))
    | structured id cls =>
      simp only [pack, packInto]
      rcases vs with _ | ⟨v, _ | ⟨w, ws⟩⟩
      · exact SimI.throw
      · refine SimI.bind (fit2 := fun _ _ _ => True) (objPackInto_sim env ih off v hc) ?_ ?_
        · rintro ⟨b, ser⟩ _ b1 b2 _ hc2 ⟨rfl, hiw⟩
          refine SimI.step (CellOp.readSize _) hc2 ?_
          intro sz c1 c2 _ hc3 hf3
          refine ⟨fun _ _ e => ?_, fun _ => ⟨(), c2.withSize id sz, rfl, rfl⟩⟩
          cases e
          exact ⟨by simp only [hc3], hiw.frR (hf3.trans (Fr.withSize c2 id sz))⟩
        · rintro ⟨b, ser⟩ b1 r b2 L _ hr hL
          obtain ⟨_, _, _, e2⟩ := M.bind_ok hr
          obtain ⟨_, _, _, e4⟩ := M.bind_ok e2
          cases e4
          exact ⟨hL, trivial⟩
      · exact SimI.throw
    | compound id ss =>
      exact total id _ _ (packLoop_size (pack_size env n) _ ss vs)
        (packIntoLoop_sim (pack_size env n) ih (fun _ => CellOp.pure _) off ss vs 0 st1 st2 hc)
    | specialized id p ss =>
      exact total id _ _ (packLoop_size (pack_size env n) _ ss vs)
        (packIntoLoop_sim (pack_size env n) ih (fun _ => CellOp.prepack _ _) off ss vs 0 st1 st2 hc)

end Verif
