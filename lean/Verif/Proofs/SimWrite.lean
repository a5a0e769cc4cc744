import Verif.Proofs.Frames
/-
`pack_write` and `pack_into` against `pack`, run from the same serializer state (whatever that is).
-/
namespace Verif
open Sem

/-! ### Operations on serializer cells only -/

/-- The run depends on the cells only, and changes only cells. -/
structure CellOp (x : M α) : Prop where
  run : ∀ st1 st2 : St, st1.cells = st2.cells → match x st1 with
    | .ok a st1' => ∃ st2', x st2 = .ok a st2' ∧ st2'.cells = st1'.cells ∧ Fr st1 st1' ∧ Fr st2 st2'
    | .err e st1' => ∃ st2', x st2 = .err e st2' ∧ st2'.cells = st1'.cells ∧ Fr st1 st1' ∧ Fr st2 st2'

theorem CellOp.pure (a : α) : CellOp (Pure.pure a) :=
  ⟨fun _ st2 h => ⟨st2, rfl, h.symm, Fr.refl _, Fr.refl _⟩⟩
theorem CellOp.throw (e : Err) : CellOp (M.throw e : M α) :=
  ⟨fun _ st2 h => ⟨st2, rfl, h.symm, Fr.refl _, Fr.refl _⟩⟩
theorem CellOp.lift (e : Except Err α) : CellOp (M.lift e) := by
  constructor; intro st1 st2 h
  cases e <;> exact ⟨st2, rfl, h.symm, Fr.refl _, Fr.refl _⟩
theorem CellOp.setSize (i : SerId) (n : Nat) : CellOp (setSize i n) :=
  ⟨fun st1 st2 h => ⟨st2.withSize i n, rfl, by simp only [St.withSize, h], Fr.withSize .., Fr.withSize ..⟩⟩
theorem CellOp.setPart (i : SerId) (p : PObj) : CellOp (setPart i p) :=
  ⟨fun st1 st2 h => ⟨st2.withPart i p, rfl, by simp only [St.withPart, h], Fr.withPart .., Fr.withPart ..⟩⟩
theorem CellOp.cellSize (i : SerId) : CellOp (getCellSize i) :=
  ⟨fun st1 st2 h => ⟨st2, by simp [getCellSize, h], h.symm, Fr.refl _, Fr.refl _⟩⟩
theorem CellOp.getPart (i : SerId) : CellOp (getPart i) := by
  constructor; intro st1 st2 h
  unfold Verif.getPart
  rw [h]
  cases (st2.cells i).part <;> exact ⟨st2, rfl, h.symm, Fr.refl _, Fr.refl _⟩

theorem CellOp.bind {x : M α} {f : α → M β} (h : CellOp x) (k : ∀ a, CellOp (f a)) : CellOp (x >>= f) := by
  constructor; intro st1 st2 hc
  have h1 := h.run st1 st2 hc
  cases hx : x st1 with
  | err e st1' =>
    rw [hx] at h1
    obtain ⟨st2', e2, c2, f1, f2⟩ := h1
    have e1 : (x >>= f) st1 = .err e st1' := by show M.bind x f st1 = _; simp [M.bind, hx]
    rw [e1]
    exact ⟨st2', by show M.bind x f st2 = _; simp [M.bind, e2], c2, f1, f2⟩
  | ok a st1' =>
    rw [hx] at h1
    obtain ⟨st2', e2, c2, f1, f2⟩ := h1
    rw [M.bind_eq hx, M.bind_eq e2]
    have h2 := (k a).run st1' st2' c2.symm
    cases hf : f a st1' with
    | err e s1 =>
      rw [hf] at h2
      obtain ⟨s2, q1, q2, q3, q4⟩ := h2
      exact ⟨s2, q1, q2, f1.trans q3, f2.trans q4⟩
    | ok b s1 =>
      rw [hf] at h2
      obtain ⟨s2, q1, q2, q3, q4⟩ := h2
      exact ⟨s2, q1, q2, f1.trans q3, f2.trans q4⟩

theorem CellOp.readSize : (s : Ser) → CellOp s.readSize
  | .unicode inner _ _ => CellOp.readSize inner
  | .tuple _ inner => CellOp.readSize inner
  | .cond .. => CellOp.throw _
  | .selfT _ => CellOp.throw _
  | .null => CellOp.pure _
  | .struct _ => CellOp.pure _
  | .staticArr .. => CellOp.pure _
  | .skip _ => CellOp.pure _
  | .dynChar .. => CellOp.cellSize _
  | .consuming _ => CellOp.cellSize _
  | .terminated .. => CellOp.cellSize _
  | .net _ => CellOp.cellSize _
  | .array .. => CellOp.cellSize _
  | .dynArr .. => CellOp.cellSize _
  | .lookback .. => CellOp.cellSize _
  | .lookahead .. => CellOp.cellSize _
  | .structured .. => CellOp.cellSize _
  | .compound .. => CellOp.cellSize _
  | .specialized .. => CellOp.cellSize _

theorem CellOp.prepack (s : Ser) (p : PObj) : CellOp (s.prepack p) := by
  cases s <;> simp only [Ser.prepack] <;>
    first
    | exact CellOp.bind (CellOp.setPart _ _) (fun _ => CellOp.pure _)
    | exact CellOp.lift _
    | exact CellOp.pure _

theorem CellOp.preunpack (s : Ser) (p : PObj) : CellOp (s.preunpack p) := by
  cases s <;> simp only [Ser.preunpack] <;>
    first
    | exact CellOp.lift _
    | exact CellOp.prepack _ _

theorem CellOp.getSerializer (b : Bool) (id : SerId) (keys : List Val) (opts : List Ser) (dflt : Ser) (r : Val) :
    CellOp (getSerializer b id keys opts dflt r) := by
  refine CellOp.bind (CellOp.lift _) (fun s => CellOp.bind (CellOp.getPart _) (fun p => ?_))
  cases b
  · exact CellOp.preunpack _ _
  · exact CellOp.prepack _ _

/-- Break an operation on cells into its steps. -/
macro "cellop" : tactic => `(tactic| repeat' (first
  | intro _
  | with_reducible exact CellOp.lift _
  | with_reducible exact CellOp.pure _
  | with_reducible exact CellOp.throw _
  | with_reducible exact CellOp.setSize _ _
  | with_reducible exact CellOp.getPart _
  | with_reducible exact CellOp.readSize _
  | with_reducible exact CellOp.prepack _ _
  | with_reducible exact CellOp.preunpack _ _
  | with_reducible exact CellOp.getSerializer _ _ _ _ _ _
  | with_reducible assumption
  | with_reducible refine CellOp.bind ?_ ?_))

theorem packLoop_cell {packN : Ser → List Val → M Bytes} (hN : ∀ s vs, CellOp (packN s vs))
    {pre : Ser → M Ser} (hp : ∀ s, CellOp (pre s)) : ∀ ss vals, CellOp (packLoop packN pre ss vals) := by
  intro ss
  induction ss with
  | nil => intro vals; exact CellOp.pure _
  | cons s ss ih =>
    intro vals
    rw [packLoop]
    exact CellOp.bind (hp s) fun _ => CellOp.bind (hN _ _) fun _ => CellOp.bind (CellOp.readSize _) fun _ =>
      CellOp.bind (ih _) fun _ => CellOp.pure _

theorem packItems_cell {packN : Ser → List Val → M Bytes} (hN : ∀ s vs, CellOp (packN s vs)) (item : Ser) :
    ∀ vals, CellOp (packItems packN item vals) := by
  intro vals
  induction vals with
  | nil => exact CellOp.pure _
  | cons v vs ih =>
    rw [packItems]
    exact CellOp.bind (hN _ _) fun _ => CellOp.bind (CellOp.readSize _) fun _ =>
      CellOp.bind ih fun _ => CellOp.pure _

theorem objPack_cell (env : Env) {packN : Ser → List Val → M Bytes} (hN : ∀ s vs, CellOp (packN s vs)) (v : Val) :
    CellOp (objPack env packN v) := by
  cases v with
  | obj cls bo attrs =>
    exact CellOp.bind (CellOp.lift _) fun _ => CellOp.bind (CellOp.prepack _ _) fun _ =>
      CellOp.bind (CellOp.lift _) fun _ => CellOp.bind (hN _ _) fun _ => CellOp.pure _
  | _ => exact CellOp.throw _

/-- `pack` depends on and changes serializer cells only. -/
theorem pack_cell (env : Env) : ∀ n s vs, CellOp (pack env n s vs) := by
  intro n
  induction n with
  | zero => intro s vs; exact CellOp.throw _
  | succ n ih =>
    intro s vs
    cases s with
    | tuple id inner =>
      simp only [pack]
      rcases vs with _ | ⟨v, _ | ⟨w, ws⟩⟩ <;> simp only <;> cellop
      exact ih _ _
    | structured id cls =>
      simp only [pack]
      rcases vs with _ | ⟨v, _ | ⟨w, ws⟩⟩ <;> simp only <;> cellop
      exact objPack_cell env ih _
    | _ =>
      simp only [pack]
      cellop
      all_goals first
        | exact ih _ _
        | exact packItems_cell ih _ _
        | exact packLoop_cell ih (fun _ => CellOp.pure _) _ _
        | exact packLoop_cell ih (fun _ => CellOp.prepack _ _) _ _

/-! ### The size after packing -/

/-- Every successful run ends in `Q`. -/
structure Yields (x : M α) (Q : α → St → Prop) : Prop where
  run : ∀ st a st', x st = .ok a st' → Q a st'

theorem Yields.bind {x : M α} {f : α → M β} {P : α → St → Prop} {Q : β → St → Prop} (h : Yields x P)
    (k : ∀ a st1 b st', P a st1 → f a st1 = .ok b st' → Q b st') : Yields (x >>= f) Q := by
  constructor; intro st b st' e
  obtain ⟨a, st1, e1, e2⟩ := M.bind_ok e
  exact k a st1 b st' (h.run _ _ _ e1) e2

theorem Yields.skip {x : M α} {f : α → M β} {Q : β → St → Prop} (k : ∀ a, Yields (f a) Q) : Yields (x >>= f) Q :=
  Yields.bind (P := fun _ _ => True) ⟨fun _ _ _ _ => trivial⟩ fun a _ _ _ _ e => (k a).run _ _ _ e

theorem Yields.throw {e : Err} {Q : α → St → Prop} : Yields (M.throw e) Q := ⟨fun _ _ _ h => nomatch h⟩

/-- A prefix of an operation whose result is known by an equation. -/
theorem Yields.known {e : Except Err α} {f : α → M β} {Q : β → St → Prop}
    (k : ∀ a, e = .ok a → Yields (f a) Q) : Yields (M.lift e >>= f) Q := by
  constructor; intro st b st' h
  cases e with
  | error e => cases h
  | ok a => exact (k a rfl).run st b st' h

theorem readSize_det {s : Ser} {k m : Nat} {st st' : St} (h : SizeIs s k st) (e : s.readSize st = .ok m st') :
    m = k ∧ st' = st := by
  cases hs : s.sized with
  | false => rw [readSize_unsized s hs] at e; cases e
  | true => rw [h hs] at e; cases e; exact ⟨rfl, rfl⟩

theorem packLoop_size {packN : Ser → List Val → M Bytes}
    (hN : ∀ s vs, Yields (packN s vs) (fun b st => SizeIs s b.length st)) (pre : Ser → M Ser) :
    ∀ ss vals, Yields (packLoop packN pre ss vals) (fun r _ => r.2 = r.1.length) := by
  intro ss
  induction ss with
  | nil => intro vals; exact ⟨fun _ _ _ h => by cases h; rfl⟩
  | cons s ss ih =>
    intro vals
    rw [packLoop]
    refine Yields.skip fun s' => Yields.bind (hN _ _) ?_
    intro b st1 r st' hs e
    obtain ⟨sz, st2, e1, e2⟩ := M.bind_ok e
    obtain ⟨rfl, rfl⟩ := readSize_det hs e1
    obtain ⟨⟨bs, t⟩, st3, e3, e4⟩ := M.bind_ok e2
    have := (ih _).run _ _ _ e3
    simp only at this
    cases e4
    simp [this]

theorem packItems_size {packN : Ser → List Val → M Bytes}
    (hN : ∀ s vs, Yields (packN s vs) (fun b st => SizeIs s b.length st)) (item : Ser) :
    ∀ vals, Yields (packItems packN item vals) (fun r _ => r.2 = r.1.length) := by
  intro vals
  induction vals with
  | nil => exact ⟨fun _ _ _ h => by cases h; rfl⟩
  | cons v vs ih =>
    rw [packItems]
    refine Yields.bind (hN _ _) ?_
    intro b st1 r st' hs e
    obtain ⟨sz, st2, e1, e2⟩ := M.bind_ok e
    obtain ⟨rfl, rfl⟩ := readSize_det hs e1
    obtain ⟨⟨bs, t⟩, st3, e3, e4⟩ := M.bind_ok e2
    have := ih.run _ _ _ e3
    simp only at this
    cases e4
    simp [this]

theorem prepack_ok {s s' : Ser} {p : PObj} {st st' : St} (h : s.prepack p st = .ok s' st') :
    ∃ q, Sem.pre s p = .ok (s', q) := by
  have := prepack_rel s p st
  revert this
  cases hp : Sem.pre s p with
  | error e => rintro ⟨st1, e1, _⟩; rw [h] at e1; cases e1
  | ok r =>
    rintro ⟨a, st1, e1, rfl, _⟩
    rw [h] at e1; cases e1
    exact ⟨r.2, rfl⟩

theorem objPack_size (env : Env) {packN : Ser → List Val → M Bytes}
    (hN : ∀ s vs, Yields (packN s vs) (fun b st => SizeIs s b.length st)) (v : Val) :
    Yields (objPack env packN v) (fun r st => SizeIs r.2 r.1.length st) := by
  cases v with
  | obj cls bo attrs =>
    refine Yields.skip fun ⟨ci, ser⟩ => ?_
    constructor; intro st r st' e
    obtain ⟨s, st1, e1, e2⟩ := M.bind_ok e
    obtain ⟨vals, st2, e3, e4⟩ := M.bind_ok e2
    obtain ⟨b, st3, e5, e6⟩ := M.bind_ok e4
    cases e6
    have h5 := (hN _ _).run _ _ _ e5
    obtain ⟨q, hq⟩ := prepack_ok e1
    intro hs
    obtain ⟨g1, g2⟩ := pre_readSize hq hs
    show ser.readSize _ = _
    rw [g1]; exact h5 g2
  | _ => exact Yields.throw

theorem leaf_size {s : Ser} {id : SerId} {n : Nat} {e : Except Err Bytes}
    (hs : ∀ st', s.readSize st' = .ok ((st'.cells id).size) st') (hlen : ∀ b, e = .ok b → b.length = n) :
    Yields (do setSize id n; M.lift e) (fun b st => SizeIs s b.length st) := by
  constructor; intro st b st' h
  obtain ⟨_, st1, e1, e2⟩ := M.bind_ok h
  cases e1
  cases e with
  | error _ => cases e2
  | ok b' => cases e2; intro _; rw [hs, hlen _ rfl]; simp

theorem union_size {packN : Ser → List Val → M Bytes}
    (hN : ∀ s vs, Yields (packN s vs) (fun b st => SizeIs s b.length st)) {u : Ser} {id : SerId} {vs : List Val}
    (hs : ∀ st', u.readSize st' = .ok ((st'.cells id).size) st') (s : Ser) :
    Yields (do
      let b ← packN s vs
      setSize id (← s.readSize)
      pure b) (fun b st => SizeIs u b.length st) := by
  refine Yields.bind (hN _ _) ?_
  intro b st1 r st' h e
  obtain ⟨sz, st2, e1, e2⟩ := M.bind_ok e
  obtain ⟨rfl, rfl⟩ := readSize_det h e1
  obtain ⟨_, st3, e3, e4⟩ := M.bind_ok e2
  cases e3; cases e4
  intro _; rw [hs]; simp

/-- After a successful `pack` the `size` attribute is the number of bytes, whatever the state was. -/
theorem pack_size (env : Env) : ∀ n s vs, Yields (pack env n s vs) (fun b st => SizeIs s b.length st) := by
  intro n
  induction n with
  | zero => intro s vs; exact Yields.throw
  | succ n ih =>
    intro s vs
    cases s with
    | null => exact ⟨fun _ _ _ h => by cases h; exact fun _ => rfl⟩
    | skip _ => exact ⟨fun _ _ _ h => by cases h; exact fun _ => rfl⟩
    | cond => exact Yields.throw
    | selfT => exact Yields.throw
    | struct s =>
      constructor; intro st b st' h
      simp only [pack] at h
      cases hp : s.pack env.plat vs with
      | error e => rw [hp] at h; cases h
      | ok d => rw [hp] at h; cases h; intro _; rw [structSer_pack_length hp]; rfl
    | dynChar id s =>
      exact Yields.skip fun ⟨t, vals⟩ => leaf_size (fun _ => rfl) (fun b hb => structSer_pack_length hb)
    | net id =>
      exact Yields.skip fun ⟨t, vals⟩ => leaf_size (fun _ => rfl) (fun b hb => structSer_pack_length hb)
    | dynArr id c i =>
      exact Yields.skip fun ⟨t, vals⟩ => leaf_size (fun _ => rfl) (fun b hb => structSer_pack_length hb)
    | terminated id term =>
      exact Yields.skip fun b => leaf_size (fun _ => rfl) (fun b' hb => termPack_length hb)
    | consuming id =>
      refine Yields.skip fun b => ⟨fun st r st' h => ?_⟩
      obtain ⟨_, st1, e1, e2⟩ := M.bind_ok h
      cases e1; cases e2
      intro _; simp [Ser.readSize, getCellSize]
    | unicode inner en de => exact Yields.skip fun b => ⟨fun st r st' h => (ih inner _).run _ _ _ h⟩
    | staticArr count item ser =>
      simp only [pack]
      refine Yields.skip fun items => ⟨fun st b st' h => ?_⟩
      cases hp : packOpt env.plat ser items with
      | error e => rw [hp] at h; cases h
      | ok d => rw [hp] at h; cases h; intro _; rw [packOpt_length hp]; rfl
    | array id hdr item sl =>
      simp only [pack]
      refine Yields.skip fun p => Yields.skip fun item' => Yields.skip fun v => Yields.skip fun items => ?_
      refine Yields.bind (packItems_size ih item' items) ?_
      rintro ⟨data, size⟩ st1 b st' hsz e
      simp only at hsz; subst hsz
      obtain ⟨hv, st2, e1, e2⟩ := M.bind_ok e
      obtain ⟨h, st3, e3, e4⟩ := M.bind_ok e2
      obtain ⟨_, st4, e5, e6⟩ := M.bind_ok e4
      cases hp : packOpt env.plat hdr hv with
      | error e => rw [hp] at e3; cases e3
      | ok d =>
        rw [hp] at e3; cases e3; cases e5; cases e6
        intro _
        have := packOpt_length hp
        simp [Ser.readSize, getCellSize, this, hdrSize]
    | tuple id inner =>
      simp only [pack]
      rcases vs with _ | ⟨v, _ | ⟨w, ws⟩⟩
      · exact Yields.throw
      · refine Yields.skip fun p => ⟨fun st b st' e => ?_⟩
        obtain ⟨inner', st1, e1, e2⟩ := M.bind_ok e
        obtain ⟨vals, st2, e3, e4⟩ := M.bind_ok e2
        have h := (ih _ _).run _ _ _ e4
        obtain ⟨q, hq⟩ := prepack_ok e1
        intro hs
        obtain ⟨g1, g2⟩ := pre_readSize hq (by simpa [Ser.sized] using hs)
        show inner.readSize st' = _
        rw [g1]; exact h g2
      · exact Yields.throw
    | lookback id d keys opts dflt =>
      exact Yields.skip fun p => Yields.skip fun r => Yields.skip fun s => union_size ih (fun _ => rfl) s
    | lookahead id ra d keys opts dflt =>
      exact Yields.skip fun p => Yields.skip fun r => Yields.skip fun s => union_size ih (fun _ => rfl) s
    | structured id cls =>
      simp only [pack]
      rcases vs with _ | ⟨v, _ | ⟨w, ws⟩⟩
      · exact Yields.throw
      · refine Yields.bind (objPack_size env ih v) ?_
        rintro ⟨b, ser⟩ st1 r st' h e
        obtain ⟨sz, st2, e1, e2⟩ := M.bind_ok e
        obtain ⟨rfl, rfl⟩ := readSize_det h e1
        obtain ⟨_, st3, e3, e4⟩ := M.bind_ok e2
        cases e3; cases e4
        intro _; simp [Ser.readSize, getCellSize]
      · exact Yields.throw
    | compound id ss =>
      refine Yields.bind (packLoop_size ih _ ss vs) ?_
      rintro ⟨b, t⟩ st1 r st' h e
      simp only at h; subst h
      obtain ⟨_, st3, e3, e4⟩ := M.bind_ok e
      cases e3; cases e4
      intro _; simp [Ser.readSize, getCellSize]
    | specialized id p ss =>
      refine Yields.bind (packLoop_size ih _ ss vs) ?_
      rintro ⟨b, t⟩ st1 r st' h e
      simp only at h; subst h
      obtain ⟨_, st3, e3, e4⟩ := M.bind_ok e
      cases e3; cases e4
      intro _; simp [Ser.readSize, getCellSize]

/-! ### `pack_write` -/

/-- `y` (a `pack_write`) does to the cells what `x` (a `pack`) does, fails alike, and writes. -/
structure SimW (x : M α) (y : M β) (Φ : α → β → Bytes → Prop) : Prop where
  run : ∀ st1 st2 : St, st1.cells = st2.cells → match x st1 with
    | .ok a st1' => ∃ b st2' w, y st2 = .ok b st2' ∧ st2'.cells = st1'.cells ∧ FrW w st2 st2' ∧ Φ a b w
    | .err e st1' => ∃ st2' w, y st2 = .err e st2' ∧ st2'.cells = st1'.cells ∧ FrW w st2 st2'

theorem SimW.bind {x : M α} {y : M β} {Φ : α → β → Bytes → Prop} {f : α → M γ} {g : β → M δ}
    {Ψ : γ → δ → Bytes → Prop} (h : SimW x y Φ)
    (k : ∀ a b w, Φ a b w → SimW (f a) (g b) (fun c d w' => Ψ c d (w ++ w'))) : SimW (x >>= f) (y >>= g) Ψ := by
  constructor; intro st1 st2 hc
  have h1 := h.run st1 st2 hc
  cases hx : x st1 with
  | err e st1' =>
    rw [hx] at h1
    obtain ⟨st2', w, e2, c2, f2⟩ := h1
    have e1 : (x >>= f) st1 = .err e st1' := by show M.bind x f st1 = _; simp [M.bind, hx]
    rw [e1]
    exact ⟨st2', w, by show M.bind y g st2 = _; simp [M.bind, e2], c2, f2⟩
  | ok a st1' =>
    rw [hx] at h1
    obtain ⟨b, st2', w, e2, c2, f2, hΦ⟩ := h1
    rw [M.bind_eq hx, M.bind_eq e2]
    have h2 := (k a b w hΦ).run st1' st2' c2.symm
    cases hf : f a st1' with
    | err e s1 =>
      rw [hf] at h2
      obtain ⟨s2, w2, q1, q2, q3⟩ := h2
      exact ⟨s2, w ++ w2, q1, q2, f2.trans q3⟩
    | ok c s1 =>
      rw [hf] at h2
      obtain ⟨d, s2, w2, q1, q2, q3, q4⟩ := h2
      exact ⟨d, s2, w ++ w2, q1, q2, f2.trans q3, q4⟩

theorem SimW.same {x : M α} (h : CellOp x) : SimW x x (fun a b w => a = b ∧ w = []) := by
  constructor; intro st1 st2 hc
  have := h.run st1 st2 hc
  cases hx : x st1 with
  | err e s => rw [hx] at this; obtain ⟨s2, a, b, c, d⟩ := this; exact ⟨s2, [], a, b, FrW.of_fr d⟩
  | ok v s => rw [hx] at this; obtain ⟨s2, a, b, c, d⟩ := this; exact ⟨v, s2, [], a, b, FrW.of_fr d, rfl, rfl⟩

theorem SimW.mono {x : M α} {y : M β} {Φ Φ' : α → β → Bytes → Prop} (h : SimW x y Φ)
    (k : ∀ a b w, Φ a b w → Φ' a b w) : SimW x y Φ' := by
  constructor; intro st1 st2 hc
  have := h.run st1 st2 hc
  cases hx : x st1 with
  | err e s => rw [hx] at this; exact this
  | ok v s =>
    rw [hx] at this
    obtain ⟨b, s2, w, q1, q2, q3, q4⟩ := this
    exact ⟨b, s2, w, q1, q2, q3, k _ _ _ q4⟩

/-- A common step. -/
theorem SimW.step {x : M α} {f : α → M γ} {g : α → M δ} {Ψ : γ → δ → Bytes → Prop} (h : CellOp x)
    (k : ∀ a, SimW (f a) (g a) Ψ) : SimW (x >>= f) (x >>= g) Ψ := by
  refine SimW.bind (SimW.same h) ?_
  rintro a _ _ ⟨rfl, rfl⟩
  exact k a

theorem SimW.pure {a : α} {b : β} {Φ : α → β → Bytes → Prop} (h : Φ a b []) :
    SimW (Pure.pure a) (Pure.pure b) Φ :=
  ⟨fun _ st2 hc => ⟨b, st2, [], rfl, hc.symm, FrW.of_fr (Fr.refl _), h⟩⟩

theorem SimW.throw {e : Err} {Φ : α → β → Bytes → Prop} : SimW (M.throw e) (M.throw e) Φ :=
  ⟨fun _ st2 hc => ⟨st2, [], rfl, hc.symm, FrW.of_fr (Fr.refl _)⟩⟩

/-- A last step that writes the bytes. -/
theorem SimW.write {x : M Bytes} (h : CellOp x) : SimW x (x >>= ioWrite) (fun b _ w => w = b) := by
  constructor; intro st1 st2 hc
  have := h.run st1 st2 hc
  cases hx : x st1 with
  | err e s =>
    rw [hx] at this; obtain ⟨s2, a, b, c, d⟩ := this
    exact ⟨s2, [], by show M.bind x ioWrite st2 = _; simp [M.bind, a], b, FrW.of_fr d⟩
  | ok v s =>
    rw [hx] at this; obtain ⟨s2, a, b, c, d⟩ := this
    rw [M.bind_eq a]
    exact ⟨(), _, v, rfl, b, ⟨d.1, by show s2.io.write v = _; rw [d.2]⟩, rfl⟩

theorem packWriteLoop_sim {packN : Ser → List Val → M Bytes} {writeN : Ser → List Val → M Unit}
    (hN : ∀ s vs, SimW (packN s vs) (writeN s vs) (fun b _ w => w = b)) {pre : Ser → M Ser}
    (hp : ∀ s, CellOp (pre s)) : ∀ ss vals size, SimW (packLoop packN pre ss vals)
      (packWriteLoop writeN pre size ss vals) (fun r t w => w = r.1 ∧ t = size + r.2) := by
  intro ss
  induction ss with
  | nil => intro vals size; exact SimW.pure ⟨rfl, rfl⟩
  | cons s ss ih =>
    intro vals size
    rw [packLoop, packWriteLoop]
    refine SimW.step (hp s) fun s' => SimW.bind (hN _ _) ?_
    rintro b _ w rfl
    refine SimW.step (CellOp.readSize _) fun sz => ?_
    have := ih (vals.drop s'.numValues) (size + sz)
    constructor; intro st1 st2 hc
    have h := this.run st1 st2 hc
    cases hx : packLoop packN pre ss (vals.drop s'.numValues) st1 with
    | err e s1 =>
      rw [hx] at h
      have e1 : (packLoop packN pre ss (vals.drop s'.numValues) >>= fun x => match x with
          | (bs, total) => (Pure.pure (w ++ bs, sz + total) : M _)) st1 = .err e s1 := by
        show M.bind _ _ _ = _; simp [M.bind, hx]
      rw [e1]; exact h
    | ok r s1 =>
      rw [hx] at h
      rw [M.bind_eq hx]
      obtain ⟨t, s2, w2, q1, q2, q3, rfl, rfl⟩ := h
      exact ⟨_, s2, _, q1, q2, q3, rfl, by simp [Nat.add_assoc]⟩

theorem objPackWrite_sim (env : Env) {packN : Ser → List Val → M Bytes} {writeN : Ser → List Val → M Unit}
    (hN : ∀ s vs, SimW (packN s vs) (writeN s vs) (fun b _ w => w = b)) (v : Val) :
    SimW (objPack env packN v) (objPackWrite env writeN v) (fun r ser w => w = r.1 ∧ ser = r.2) := by
  cases v with
  | obj cls bo attrs =>
    simp only [objPack, objPackWrite]
    refine SimW.step (CellOp.lift _) fun ⟨ci, ser⟩ => SimW.step (CellOp.prepack _ _) fun s =>
      SimW.step (CellOp.lift _) fun vals => SimW.bind (hN _ _) ?_
    rintro b _ w rfl
    exact SimW.pure ⟨by simp, rfl⟩
  | _ => exact SimW.throw

/-- `pack_write` writes what `pack` returns, from the same serializer state; it fails alike. -/
theorem packWrite_sim (env : Env) : ∀ n s vs,
    SimW (pack env n s vs) (packWrite env n s vs) (fun b _ w => w = b) := by
  intro n
  induction n with
  | zero => intro s vs; exact SimW.throw
  | succ n ih =>
    intro s vs
    have union : ∀ (id : SerId) (s : Ser), SimW (do
        let b ← pack env n s vs
        setSize id (← s.readSize)
        Pure.pure b) (do
        packWrite env n s vs
        setSize id (← s.readSize)) (fun b _ w => w = b) := by
      intro id s
      refine SimW.bind (ih _ _) ?_
      rintro b _ w rfl
      refine SimW.step (CellOp.readSize _) fun sz => ?_
      constructor; intro st1 st2 hc
      exact ⟨(), st2.withSize id sz, [], rfl, by simp only [St.withSize, hc], FrW.of_fr (Fr.withSize ..), by simp⟩
    have total : ∀ (id : SerId) (x : M (Bytes × Nat)) (y : M Nat),
        SimW x y (fun r t w => w = r.1 ∧ t = 0 + r.2) →
        SimW (do let (b, total) ← x; setSize id total; Pure.pure b) (do let total ← y; setSize id total)
          (fun b _ w => w = b) := by
      intro id x y h
      refine SimW.bind h ?_
      rintro ⟨b, t⟩ _ w ⟨rfl, rfl⟩
      constructor; intro st1 st2 hc
      exact ⟨(), st2.withSize id (0 + t), [], rfl, by simp only [St.withSize, hc, Nat.zero_add],
        FrW.of_fr (Fr.withSize ..), by simp⟩
    cases s with
    | null => exact SimW.pure rfl
    | skip _ => exact SimW.pure rfl
    | cond => exact SimW.throw
    | selfT => exact SimW.throw
    | struct s => exact SimW.write (CellOp.lift _)
    | dynChar id s =>
      exact SimW.step (CellOp.lift _) fun ⟨t, vals⟩ => SimW.step (CellOp.setSize _ _) fun _ =>
        SimW.write (CellOp.lift _)
    | net id =>
      exact SimW.step (CellOp.lift _) fun ⟨t, vals⟩ => SimW.step (CellOp.setSize _ _) fun _ =>
        SimW.write (CellOp.lift _)
    | dynArr id c i =>
      exact SimW.step (CellOp.lift _) fun ⟨t, vals⟩ => SimW.step (CellOp.setSize _ _) fun _ =>
        SimW.write (CellOp.lift _)
    | terminated id term =>
      exact SimW.step (CellOp.lift _) fun b => SimW.step (CellOp.setSize _ _) fun _ =>
        SimW.write (CellOp.lift _)
    | consuming id =>
      exact SimW.step (CellOp.lift _) fun b => SimW.step (CellOp.setSize _ _) fun _ =>
        SimW.write (CellOp.pure b)
    | unicode inner en de => exact SimW.step (CellOp.lift _) fun b => ih _ _
    | staticArr count item ser =>
      exact SimW.step (CellOp.lift _) fun items => SimW.write (CellOp.lift _)
    | array id hdr item sl => exact SimW.write (pack_cell env (n + 1) _ _)
    | tuple id inner =>
      simp only [pack, packWrite]
      rcases vs with _ | ⟨v, _ | ⟨w, ws⟩⟩
      · exact SimW.throw
      · exact SimW.step (CellOp.getPart _) fun p => SimW.step (CellOp.prepack _ _) fun inner' =>
          SimW.step (CellOp.lift _) fun vals => ih _ _
      · exact SimW.throw
    | lookback id d keys opts dflt =>
      exact SimW.step (CellOp.getPart _) fun p => SimW.step (CellOp.lift _) fun r =>
        SimW.step (CellOp.getSerializer _ _ _ _ _ _) fun s => union id s
    | lookahead id ra d keys opts dflt =>
      exact SimW.step (CellOp.getPart _) fun p => SimW.step (CellOp.lift _) fun r =>
        SimW.step (CellOp.getSerializer _ _ _ _ _ _) fun s => union id s
    | structured id cls =>
      simp only [pack, packWrite]
      rcases vs with _ | ⟨v, _ | ⟨w, ws⟩⟩
      · exact SimW.throw
      · refine SimW.bind (objPackWrite_sim env ih v) ?_
        rintro ⟨b, ser⟩ _ w ⟨rfl, rfl⟩
        refine SimW.step (CellOp.readSize _) fun sz => ?_
        constructor; intro st1 st2 hc
        exact ⟨(), st2.withSize id sz, [], rfl, by simp only [St.withSize, hc],
          FrW.of_fr (Fr.withSize ..), by simp⟩
      · exact SimW.throw
    | compound id ss => exact total id _ _ (packWriteLoop_sim ih (fun _ => CellOp.pure _) ss vs 0)
    | specialized id p ss => exact total id _ _ (packWriteLoop_sim ih (fun _ => CellOp.prepack _ _) ss vs 0)

end Verif
