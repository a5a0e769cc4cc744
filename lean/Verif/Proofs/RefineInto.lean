import Verif.Proofs.RefinePack
/-
`pack_into` writes `Sem.enc` into the buffer, from every state.
-/
namespace Verif
open Sem

/-- The operation fails where the functional result does; where that is a success, every success of
the operation is related to it, and there is one, without growing the buffer, when the bytes fit. -/
def Into (x : M α) (o : Out β) (st : St) (fit : β → Nat → Prop) (Φ : α → β → St → Prop) : Prop :=
  match o with
  | .stuck => True
  | .err _ => ∀ a st', x st ≠ .ok a st'
  | .ok b => (∀ a st', x st = .ok a st' → Φ a b st') ∧
      (fit b st.buf.length → ∃ a st', x st = .ok a st' ∧ st'.buf.length = st.buf.length)

theorem M.bind_ok {x : M α} {f : α → M γ} {st st' : St} {c : γ} (h : (x >>= f) st = .ok c st') :
    ∃ a st1, x st = .ok a st1 ∧ f a st1 = .ok c st' := by
  have h' : M.bind x f st = .ok c st' := h
  unfold M.bind at h'
  cases hx : x st with
  | err e s => rw [hx] at h'; cases h'
  | ok a s => rw [hx] at h'; exact ⟨a, s, rfl, h'⟩

theorem M.bind_eq {x : M α} {f : α → M γ} {st st' : St} {a : α} (h : x st = .ok a st') :
    (x >>= f) st = f a st' := by
  show M.bind x f st = _
  simp [M.bind, h]

theorem Into.bind {x : M α} {o : Out β} {st : St} {fit1 : β → Nat → Prop} {Φ : α → β → St → Prop}
    {f : α → M γ} {g : β → Out δ} {fit : δ → Nat → Prop} {fit2 : β → δ → Nat → Prop}
    {Ψ : γ → δ → St → Prop} (h : Into x o st fit1 Φ)
    (hk : ∀ a b st', o = .ok b → Φ a b st' → Into (f a) (g b) st' (fit2 b) Ψ)
    (hfit : ∀ b c L, o = .ok b → g b = .ok c → fit c L → fit1 b L ∧ fit2 b c L) :
    Into (x >>= f) (o >>= g) st fit Ψ := by
  cases o with
  | stuck => trivial
  | err e =>
    intro c st' hc
    obtain ⟨a, st1, h1, _⟩ := M.bind_ok hc
    exact h a st1 h1
  | ok b =>
    obtain ⟨ha, hb⟩ := h
    show Into (x >>= f) (g b) st fit Ψ
    cases hg : g b with
    | stuck => trivial
    | err e =>
      intro c st' hc
      obtain ⟨a, st1, h1, h2⟩ := M.bind_ok hc
      have := hk a b st1 rfl (ha a st1 h1)
      rw [hg] at this
      exact this c st' h2
    | ok d =>
      refine ⟨?_, ?_⟩
      · intro c st' hc
        obtain ⟨a, st1, h1, h2⟩ := M.bind_ok hc
        have := hk a b st1 rfl (ha a st1 h1)
        rw [hg] at this
        exact this.1 c st' h2
      · intro hf
        obtain ⟨f1, f2⟩ := hfit b d _ rfl hg hf
        obtain ⟨a, st1, h1, h2⟩ := hb f1
        have := hk a b st1 rfl (ha a st1 h1)
        rw [hg] at this
        obtain ⟨c, st', h3, h4⟩ := this.2 (by rw [h2]; exact f2)
        exact ⟨c, st', by rw [M.bind_eq h1]; exact h3, h4.trans h2⟩

theorem Into.map {x : M α} {o : Out β} {st : St} {fit1 : β → Nat → Prop} {Φ : α → β → St → Prop}
    {g : β → δ} {fit : δ → Nat → Prop} {Ψ : α → δ → St → Prop} (h : Into x o st fit1 Φ)
    (hk : ∀ a b st', Φ a b st' → Ψ a (g b) st') (hfit : ∀ b L, fit (g b) L → fit1 b L) :
    Into x (o >>= fun b => .ok (g b)) st fit Ψ := by
  cases o with
  | stuck => trivial
  | err e => exact h
  | ok b => exact ⟨fun a st' hx => hk _ _ _ (h.1 a st' hx), fun k => h.2 (hfit _ _ k)⟩

/-- From an exact relation. -/
theorem Into.of_rel {F : St → Prop} {x : M α} {o : Out β} {st : St} {Φ : α → β → St → Prop}
    {fit : β → Nat → Prop} (h : Rel F x o st Φ)
    (hl : ∀ a b st', Φ a b st' → st'.buf.length = st.buf.length) : Into x o st fit Φ := by
  cases o with
  | stuck => trivial
  | err e =>
    obtain ⟨st', h1, _⟩ := h
    intro a st'' h2; rw [h1] at h2; cases h2
  | ok b =>
    obtain ⟨a, st', h1, h2⟩ := h
    refine ⟨?_, fun _ => ⟨a, st', h1, hl _ _ _ h2⟩⟩
    intro a' st'' h3; rw [h1] at h3; cases h3; exact h2

theorem Into.mono {x : M α} {o : Out β} {st : St} {fit fit' : β → Nat → Prop}
    {Φ Φ' : α → β → St → Prop} (h : Into x o st fit Φ) (hΦ : ∀ a b st', o = .ok b → Φ a b st' → Φ' a b st')
    (hf : ∀ b L, o = .ok b → fit' b L → fit b L) : Into x o st fit' Φ' := by
  cases o with
  | stuck => trivial
  | err e => exact h
  | ok b => exact ⟨fun a st' hx => hΦ _ _ _ rfl (h.1 a st' hx), fun k => h.2 (hf _ _ rfl k)⟩

theorem Into.step {x : M α} {a : α} {st st' : St} {f : α → M γ} {o : Out δ} {fit : δ → Nat → Prop}
    {Ψ : γ → δ → St → Prop} (hx : x st = .ok a st') (hl : st'.buf.length = st.buf.length)
    (h : Into (f a) o st' fit Ψ) : Into (x >>= f) o st fit Ψ := by
  have e : (x >>= f) st = f a st' := M.bind_eq hx
  unfold Into at h ⊢
  rw [e, ← hl]
  exact h

theorem Into.pure {a : α} {b : β} {st : St} {fit : β → Nat → Prop} {Φ : α → β → St → Prop} (h : Φ a b st) :
    Into (Pure.pure a) (.ok b) st fit Φ :=
  ⟨fun a' st' h' => by cases h'; exact h, fun _ => ⟨a, st, rfl, rfl⟩⟩

theorem Into.throw {e e' : Err} {st : St} {fit : β → Nat → Prop} {Φ : α → β → St → Prop} :
    Into (M.throw e) (.err e') st fit Φ := nofun

theorem Into.lift {e : Except Err α} {st : St} {fit : α → Nat → Prop} :
    Into (M.lift e) (.ofE e) st fit (fun a b st' => a = b ∧ st' = st) := by
  cases e with
  | error e => exact nofun
  | ok a => exact ⟨fun a' st' h => by cases h; exact ⟨rfl, rfl⟩, fun _ => ⟨a, st, rfl, rfl⟩⟩

theorem Into.size {s : Ser} {n : Nat} {st : St} {k : Nat → M α} {o : Out β} {fit : β → Nat → Prop}
    {Ψ : α → β → St → Prop} (h : SizeIs s n st) (hk : s.sized = true → Into (k n) o st fit Ψ) :
    Into (s.readSize >>= k) (if ¬ (s.sized = true) then .err .attributeError else o) st fit Ψ := by
  by_cases hs : s.sized = true
  · rw [if_neg (by simp [hs])]
    exact Into.step (h hs) rfl (hk hs)
  · rw [if_pos hs]
    intro a st' hx
    obtain ⟨b, st1, h1, _⟩ := M.bind_ok hx
    rw [readSize_unsized s (by simpa using hs) st] at h1
    cases h1

/-! ### What a successful write leaves -/

theorem splice_nil (b : Bytes) (off : Nat) : splice b off [] = b := by
  simp [splice]

theorem splice_length {b : Bytes} {off : Nat} {d : Bytes} (h : off + d.length ≤ b.length) :
    (splice b off d).length = b.length := by
  simp [splice]; omega

theorem splice_length_ge (b : Bytes) (off : Nat) (d : Bytes) : b.length ≤ (splice b off d).length := by
  simp [splice]; omega

theorem splice_length_eq {b : Bytes} {off : Nat} {d : Bytes} (h : (splice b off d).length = b.length) :
    d = [] ∨ off + d.length ≤ b.length := by
  by_cases hd : d = []
  · exact .inl hd
  · right
    have : 0 < d.length := by
      cases d with
      | nil => exact (hd rfl).elim
      | cons => simp
    simp [splice] at h; omega

theorem splice_seq {b : Bytes} {off : Nat} {x y : Bytes} (h : off ≤ b.length) :
    splice (splice b off x) (off + x.length) y = splice b off (x ++ y) := by
  have h1 : (b.take off).length = off := by simp; omega
  have h2 : (b.take off ++ x).length = off + x.length := by simp; omega
  simp only [splice]
  rw [List.take_left' h2, List.append_assoc (b.take off) x]
  congr 1
  rw [← List.drop_drop, List.drop_left' h2, List.drop_drop]
  simp [Nat.add_assoc]

theorem splice_front {b : Bytes} {off : Nat} {x y : Bytes} (h : off + x.length ≤ b.length) :
    splice (splice b (off + x.length) y) off x = splice b off (x ++ y) := by
  have h2 : (b.take (off + x.length)).length = off + x.length := by simp; omega
  simp only [splice]
  have e1 : (b.take (off + x.length) ++ y ++ b.drop (off + x.length + y.length)).take off = b.take off := by
    rw [List.append_assoc, List.take_append, List.take_take]
    rw [Nat.min_eq_left (by omega), h2, show off - (off + x.length) = 0 by omega]
    simp
  have e2 : (b.take (off + x.length) ++ y ++ b.drop (off + x.length + y.length)).drop (off + x.length)
      = y ++ b.drop (off + x.length + y.length) := by
    rw [List.append_assoc, List.drop_left' h2]
  rw [e1, e2]
  simp [Nat.add_assoc]

/-- `d` was written at `off`, unless the buffer grew. -/
structure IW (off : Nat) (d : Bytes) (st st' : St) : Prop where
  len : st.buf.length ≤ st'.buf.length
  exact : st'.buf.length = st.buf.length →
    (d = [] ∨ off + d.length ≤ st.buf.length) ∧ st'.buf = splice st.buf off d
  io : st'.io = st.io

theorem IW.of_fr {off : Nat} {st st' : St} (h : Fr st st') : IW off [] st st' :=
  ⟨by rw [h.1]; exact Nat.le_refl _, fun _ => ⟨.inl rfl, by rw [splice_nil, h.1]⟩, h.2⟩

theorem IW.frL {off : Nat} {d : Bytes} {a b c : St} (h : Fr a b) (k : IW off d b c) : IW off d a c :=
  ⟨by rw [← h.1]; exact k.len, fun e => by
    rw [← h.1]; exact k.exact (by rw [h.1]; exact e), k.io.trans h.2⟩

theorem IW.frR {off : Nat} {d : Bytes} {a b c : St} (k : IW off d a b) (h : Fr b c) : IW off d a c :=
  ⟨by rw [h.1]; exact k.len, fun e => by rw [h.1] at e ⊢; exact k.exact e, h.2.trans k.io⟩

theorem IW.seq {off : Nat} {x y : Bytes} {a b c : St} (h : IW off x a b) (k : IW (off + x.length) y b c) :
    IW off (x ++ y) a c := by
  refine ⟨Nat.le_trans h.len k.len, ?_, k.io.trans h.io⟩
  intro e
  have hab : b.buf.length = a.buf.length := Nat.le_antisymm (by rw [← e]; exact k.len) h.len
  obtain ⟨h1, h2⟩ := h.exact hab
  obtain ⟨k1, k2⟩ := k.exact (e.trans hab.symm)
  rw [k2, h2]
  rw [hab] at k1
  rcases h1 with rfl | h1
  · simp only [splice_nil, List.nil_append, List.length_nil, Nat.add_zero] at k1 ⊢
    exact ⟨k1, trivial⟩
  · refine ⟨?_, splice_seq (by omega)⟩
    rcases k1 with rfl | k1
    · right; simpa using h1
    · right; simp; omega

/-- Items first, then the header in front of them. -/
theorem IW.front {off : Nat} {x y : Bytes} {a b c : St} (h : IW (off + x.length) y a b) (k : IW off x b c) :
    IW off (x ++ y) a c := by
  refine ⟨Nat.le_trans h.len k.len, ?_, k.io.trans h.io⟩
  intro e
  have hab : b.buf.length = a.buf.length := Nat.le_antisymm (by rw [← e]; exact k.len) h.len
  obtain ⟨h1, h2⟩ := h.exact hab
  obtain ⟨k1, k2⟩ := k.exact (e.trans hab.symm)
  rw [k2, h2]
  rw [hab] at k1
  rcases k1 with rfl | k1
  · simp only [splice_nil, List.nil_append, List.length_nil, Nat.add_zero] at h1 ⊢
    exact ⟨h1, trivial⟩
  · refine ⟨?_, splice_front k1⟩
    rcases h1 with rfl | h1
    · right; simpa using k1
    · right; simp; omega

structure IPost (s : Ser) (r : Enc) (off : Nat) (st st' : St) : Prop where
  iw : IW off r.bytes st st'
  size : SizeIs s r.bytes.length st'
  keeps : Keeps r.touched st st'

/-- The bytes fit at `off`. -/
def fitAt (off : Nat) (r : Enc) (L : Nat) : Prop := off + r.bytes.length ≤ L

def IntoRel (packN : Ser → Nat → List Val → M Unit) (encN : Ser → Option PObj → List Val → Out Enc) : Prop :=
  ∀ s q off vs st, Primed s q st →
    Into (packN s off vs) (encN s q vs) st (fitAt off) (fun _ r st' => IPost s r off st st')

/-! ### Leaves -/

theorem keeps_cells' {a b : St} (h : b.cells = a.cells) (l : List SerId) : Keeps l a b := by
  intro id _; rw [h]

theorem structPackInto_into (env : Env) (s : StructSer) (off : Nat) (vs : List Val) (st : St) :
    Into (structPackIntoM env s off vs) (encLeaf (s.pack env.plat vs)) st (fitAt off)
      (fun _ r st' => IW off r.bytes st st' ∧ st'.cells = st.cells ∧ r.bytes.length = s.size ∧ r.touched = []) := by
  cases hb : s.pack env.plat vs with
  | error e =>
    intro a st' h
    simp only [structPackIntoM, StructSer.packInto, structPackInto] at h
    simp only [StructSer.pack, structPack] at hb
    split at hb
    · rename_i hn
      simp only [hn, ↓reduceIte, hb] at h
      split at h <;> rename_i heq <;> split at heq <;> cases heq <;> cases h
    · rename_i hn
      simp only [hn, ↓reduceIte] at h
      cases h
  | ok b =>
    have hlen := structSer_pack_length hb
    have hb' := hb
    simp only [StructSer.pack, structPack] at hb'
    split at hb'
    case isFalse => cases hb'
    rename_i hn
    have run : structPackIntoM env s off vs st =
        if off ≤ st.buf.length ∧ s.size ≤ st.buf.length - off then
          .ok () { st with buf := splice st.buf off b } else .err .structError st := by
      simp only [structPackIntoM, StructSer.packInto, structPackInto, hn, ↓reduceIte, hb']
      by_cases hr : off ≤ st.buf.length ∧ s.size ≤ st.buf.length - off
      · have hr' : off ≤ st.buf.length ∧ sizeToks s.byteOrder.isNative s.toks ≤ st.buf.length - off := hr
        simp only [hr, hr', and_self, ↓reduceIte]
      · have hr' : ¬ (off ≤ st.buf.length ∧ sizeToks s.byteOrder.isNative s.toks ≤ st.buf.length - off) := hr
        simp only [hr, hr', ↓reduceIte]
    refine ⟨?_, ?_⟩
    · intro a st' h
      rw [run] at h
      split at h
      · rename_i hr
        cases h
        have hfit : off + b.length ≤ st.buf.length := by omega
        exact ⟨⟨by rw [splice_length hfit]; exact Nat.le_refl _, fun _ => ⟨.inr hfit, rfl⟩, rfl⟩, rfl,
          hlen, rfl⟩
      · cases h
    · intro hf
      simp only [fitAt] at hf
      refine ⟨(), { st with buf := splice st.buf off b }, ?_, splice_length hf⟩
      rw [run, if_pos (by omega)]

theorem packIntoOpt_into (env : Env) (s : Option StructSer) (off : Nat) (vs : List Val) (st : St) :
    Into (packIntoOpt env s off vs) (encLeaf (packOpt env.plat s vs)) st (fitAt off)
      (fun _ r st' => IW off r.bytes st st' ∧ st'.cells = st.cells ∧
        r.bytes.length = s.elim 0 StructSer.size ∧ r.touched = []) := by
  cases s with
  | none => exact Into.pure ⟨IW.of_fr (Fr.refl _), rfl, rfl, rfl⟩
  | some s => exact structPackInto_into env s off vs st

/-- A leaf: prepare, set the size, write. -/
theorem Into.leaf {env : Env} {s : Ser} {id : SerId} {e : Except Err (StructSer × List Val)} {off : Nat} {st : St}
    (hs : ∀ st', s.readSize st' = .ok ((st'.cells id).size) st') :
    Into (do let (t, vals) ← M.lift e; setSize id t.size; structPackIntoM env t off vals)
      (encLeaf (do let (t, vals) ← e; t.pack env.plat vals)) st (fitAt off)
      (fun _ r st' => IPost s r off st st') := by
  cases e with
  | error e => exact nofun
  | ok tv =>
    obtain ⟨t, vals⟩ := tv
    refine Into.step (a := (t, vals)) rfl rfl (Into.step (setSize_run ..) rfl ?_)
    refine (structPackInto_into env t off vals (st.withSize id t.size)).mono ?_ (fun _ _ _ h => h)
    rintro _ r st' - ⟨h1, h2, h3, h4⟩
    refine ⟨h1.frL (Fr.withSize ..), ?_, ?_⟩
    · intro _; rw [hs, h2]; simp [h3]
    · rw [h4]; exact (Keeps.withSize _ _ _).trans (keeps_cells' h2 [])

/-! ### Containers -/

theorem packIntoLoop_into {packN : Ser → Nat → List Val → M Unit}
    {encN : Ser → Option PObj → List Val → Out Enc}
    (hN : IntoRel packN encN) {preM : Ser → M Ser} {preF : Ser → Except Err (Ser × Option PObj)}
    {tch : Ser → List SerId}
    (hpre : ∀ s st, Rel (Fr st) (preM s) (.ofE (preF s)) st
      (fun s' r st' => s' = r.1 ∧ Primed r.1 r.2 st' ∧ Fr st st' ∧ Keeps (tch s) st st')) (off : Nat) :
    ∀ ss vals size st, Into (packIntoLoop packN preM off size ss vals) (encLoop encN preF tch ss vals) st
      (fitAt (off + size))
      (fun t r st' => t = size + r.bytes.length ∧ IW (off + size) r.bytes st st' ∧ Keeps r.touched st st') := by
  intro ss
  induction ss with
  | nil => intro vals size st; exact Into.pure ⟨rfl, IW.of_fr (Fr.refl _), Keeps.refl _ _⟩
  | cons s ss ih =>
    intro vals size st
    rw [packIntoLoop, encLoop]
    refine Into.bind (fit1 := fun _ _ => True) (fit2 := fun _ => fitAt (off + size))
      (Into.of_rel (hpre s st) (fun _ _ _ h => by rw [h.2.2.1.1])) ?_ (fun _ _ _ _ _ h => ⟨trivial, h⟩)
    rintro s' ⟨s'', q⟩ st1 - ⟨rfl, hp, hf1, hk1⟩
    refine Into.bind (fit2 := fun _ => fitAt (off + size)) (hN s' q (off + size) _ st1 hp) ?_ ?_
    · rintro _ a st2 - post
      refine Into.size post.size ?_
      intro _
      refine (ih (vals.drop s'.numValues) (size + a.bytes.length) st2).map ?_ ?_
      · rintro t r st3 ⟨rfl, h1, h2⟩
        refine ⟨by simp; omega, ?_, (hk1.trans post.keeps).trans h2⟩
        have := post.iw.seq (by rw [Nat.add_assoc]; exact h1)
        exact this.frL hf1
      · intro b L hf
        simp only [fitAt, List.length_append] at hf ⊢
        omega
    · intro b c L hb hc hf
      refine ⟨?_, hf⟩
      by_cases hs : s'.sized = true
      · simp only [hs, not_true_eq_false, ↓reduceIte] at hc
        revert hc
        cases encLoop encN preF tch ss (vals.drop s'.numValues) with
        | stuck => nofun
        | err e => nofun
        | ok r =>
          intro hc
          cases hc
          simp only [fitAt, List.length_append] at hf ⊢
          omega
      · simp only [hs] at hc
        cases hc

theorem packIntoItems_into {packN : Ser → Nat → List Val → M Unit}
    {encN : Ser → Option PObj → List Val → Out Enc}
    (hN : IntoRel packN encN) (item : Ser) (q : Option PObj) (off : Nat) :
    ∀ vals size st, Primed item q st →
      Into (packIntoItems packN item off size vals) (encItems encN item q vals) st (fitAt (off + size))
        (fun t r st' => t = size + r.bytes.length ∧ IW (off + size) r.bytes st st' ∧ Keeps r.touched st st') := by
  intro vals
  induction vals with
  | nil => intro size st _; exact Into.pure ⟨rfl, IW.of_fr (Fr.refl _), Keeps.refl _ _⟩
  | cons v vs ih =>
    intro size st hp
    rw [packIntoItems, encItems]
    refine Into.bind (fit2 := fun _ => fitAt (off + size)) (hN item q (off + size) _ st hp) ?_ ?_
    · rintro _ a st2 - post
      refine Into.size post.size ?_
      intro _
      split
      · trivial
      · rename_i hno
        have hp2 : Primed item q st2 := hp.keep post.keeps (by
          intro id hid
          simpa [hid] using hno)
        refine (ih (size + a.bytes.length) st2 hp2).map ?_ ?_
        · rintro t r st3 ⟨rfl, h1, h2⟩
          refine ⟨by simp; omega, ?_, post.keeps.trans h2⟩
          exact post.iw.seq (by rw [Nat.add_assoc]; exact h1)
        · intro b L hf
          simp only [fitAt, List.length_append] at hf ⊢
          omega
    · intro b c L hb hc hf
      refine ⟨?_, hf⟩
      by_cases hs : item.sized = true
      · simp only [hs, not_true_eq_false, ↓reduceIte] at hc
        split at hc
        · cases hc
        revert hc
        cases encItems encN item q vs with
        | stuck => nofun
        | err e => nofun
        | ok r =>
          intro hc
          cases hc
          simp only [fitAt, List.length_append] at hf ⊢
          omega
      · simp only [hs] at hc
        cases hc

theorem objPackInto_into {env : Env} {packN : Ser → Nat → List Val → M Unit}
    {encN : Ser → Option PObj → List Val → Out Enc} (hN : IntoRel packN encN) (off : Nat) (v : Val) (st : St) :
    Into (objPackInto env packN off v) (encObj env encN v) st (fun r L => fitAt off r.1 L)
      (fun ser r st' => ser = r.2 ∧ IW off r.1.bytes st st' ∧ SizeIs r.2 r.1.bytes.length st' ∧
        Keeps r.1.touched st st') := by
  cases v with
  | obj cls bo attrs =>
    simp only [objPackInto, encObj]
    refine Into.bind (fit1 := fun _ _ => True) (fit2 := fun _ r L => fitAt off r.1 L) Into.lift ?_
      (fun _ _ _ _ _ h => ⟨trivial, h⟩)
    rintro ⟨ci, ser⟩ _ _ - ⟨rfl, rfl⟩
    refine Into.bind (fit1 := fun _ _ => True) (fit2 := fun _ r L => fitAt off r.1 L)
      (Into.of_rel (prepack_rel ser _ _) (fun _ _ _ h => by rw [h.2.2.2.1.1])) ?_
      (fun _ _ _ _ _ h => ⟨trivial, h⟩)
    rintro s' ⟨s'', q⟩ st1 - ⟨rfl, hpre, hp, hf1, hk1⟩
    refine Into.bind (fit1 := fun _ _ => True) (fit2 := fun _ r L => fitAt off r.1 L) Into.lift ?_
      (fun _ _ _ _ _ h => ⟨trivial, h⟩)
    rintro vals _ _ - ⟨rfl, rfl⟩
    refine Into.bind (fit2 := fun _ _ _ => True) (hN s' q off vals _ hp) ?_ ?_
    · rintro _ a st2 - post
      refine Into.pure ⟨rfl, post.iw.frL hf1, ?_, hk1.trans post.keeps⟩
      intro hs
      obtain ⟨h1, h2⟩ := pre_readSize hpre hs
      show ser.readSize st2 = _
      rw [h1]
      exact post.size h2
    · intro b c L _ hc hf
      cases hc
      exact ⟨hf, trivial⟩
  | _ => exact Into.throw

theorem getSerializer_run {id : SerId} {keys : List Val} {opts : List Ser} {dflt : Ser} {r : Val} {p : PObj}
    {st : St} (hg : getPart id st = .ok p st) :
    Rel (Fr st) (getSerializer true id keys opts dflt r)
      (do let s ← .ofE (unionPick keys opts dflt r); let x ← .ofE (pre s p); .ok (s, x)) st
      (fun s' x st' => s' = x.2.1 ∧ pre x.1 p = .ok x.2 ∧ Primed x.2.1 x.2.2 st' ∧ Fr st st' ∧
        Keeps (touch x.1) st st') := by
  have h := getSerializer_bind (keys := keys) (opts := opts) (dflt := dflt) (r := r) hg (k := fun s => pure s)
    (g := fun s x => Out.ok (s, x)) (F := Fr st)
    (Ψ := fun s' x st' => s' = x.2.1 ∧ pre x.1 p = .ok x.2 ∧ Primed x.2.1 x.2.2 st' ∧ Fr st st' ∧
        Keeps (touch x.1) st st') (fun _ h => h)
    (fun s x st' h1 h2 h3 h4 => Rel.pure ⟨rfl, h1, h2, h3, h4⟩)
  have e : (getSerializer true id keys opts dflt r >>= fun s => pure s) st
      = getSerializer true id keys opts dflt r st := by
    show M.bind _ _ st = _
    unfold M.bind
    cases getSerializer true id keys opts dflt r st <;> rfl
  unfold Rel at h ⊢
  rw [e] at h
  exact h

theorem packIntoUnion_into {packN : Ser → Nat → List Val → M Unit}
    {encN : Ser → Option PObj → List Val → Out Enc}
    (hN : IntoRel packN encN) {u : Ser} {id : SerId} {keys : List Val} {opts : List Ser} {dflt : Ser}
    {r : Val} {p : PObj} {off : Nat} {vs : List Val} {st : St} (hg : getPart id st = .ok p st)
    (hs : ∀ st', u.readSize st' = .ok ((st'.cells id).size) st') :
    Into (do
        let s ← getSerializer true id keys opts dflt r
        packN s off vs
        setSize id (← s.readSize))
      (encUnion encN keys opts dflt p r vs) st (fitAt off) (fun _ r st' => IPost u r off st st') := by
  have e : encUnion encN keys opts dflt p r vs = (do
      let x ← (do let s ← .ofE (unionPick keys opts dflt r); let x ← .ofE (pre s p); .ok (s, x))
      let a ← encN x.2.1 x.2.2 vs
      if ¬ x.2.1.sized then .err .attributeError else .ok ⟨a.bytes, touch x.1 ++ a.touched⟩) := by
    unfold encUnion
    cases unionPick keys opts dflt r with
    | error e => rfl
    | ok s =>
      show (Out.ofE (pre s p) >>= _) = ((Out.ofE (pre s p) >>= _) >>= _)
      cases pre s p <;> rfl
  rw [e]
  refine Into.bind (fit1 := fun _ _ => True) (fit2 := fun _ => fitAt off)
    (Into.of_rel (getSerializer_run hg) (fun _ _ _ h => by rw [h.2.2.2.1.1])) ?_
    (fun _ _ _ _ _ h => ⟨trivial, h⟩)
  rintro s' ⟨s, s'', q⟩ st1 - ⟨rfl, hpre, hp, hf1, hk1⟩
  refine Into.bind (fit2 := fun _ => fitAt off) (hN s' q off vs _ hp) ?_ ?_
  · rintro _ a st2 - post
    refine Into.size post.size ?_
    intro _
    refine ⟨?_, fun _ => ⟨(), _, setSize_run _ _ st2, rfl⟩⟩
    intro _ st' h
    cases h
    refine ⟨(post.iw.frL hf1).frR (Fr.withSize st2 id a.bytes.length), ?_, ?_⟩
    · intro _; rw [hs]; simp
    · have := (hk1.trans post.keeps).trans (Keeps.withSize st2 id a.bytes.length)
      rw [List.append_nil] at this
      exact this
  · intro b c L _ hc hf
    refine ⟨?_, hf⟩
    simp only at hc
    split at hc
    · cases hc
    · cases hc; exact hf

/-- `pack_into` writes `Sem.enc`. -/
theorem packInto_into (env : Env) (n : Nat) : IntoRel (packInto env n) (enc env n) := by
  induction n with
  | zero => intro s q off vs st _; exact Into.throw
  | succ n ih =>
    intro s q off vs st hp
    cases s with
    | null => exact Into.pure ⟨IW.of_fr (Fr.refl _), fun _ => rfl, Keeps.refl _ _⟩
    | struct s =>
      refine (structPackInto_into env s off vs st).mono ?_ (fun _ _ _ h => h)
      rintro _ r st' - ⟨h1, h2, h3, h4⟩
      exact ⟨h1, fun _ => by rw [h3]; rfl, keeps_cells' h2 _⟩
    | dynChar id s => exact Into.leaf (fun _ => rfl)
    | net id => exact Into.leaf (fun _ => rfl)
    | dynArr id c i => exact Into.leaf (fun _ => rfl)
    | consuming id =>
      simp only [packInto, enc]
      cases h : consumeData vs with
      | error e => exact nofun
      | ok b =>
        refine ⟨?_, ?_⟩
        · intro a st' hx
          cases hx
          refine ⟨⟨splice_length_ge _ _ _, fun e => ⟨splice_length_eq e, rfl⟩, rfl⟩, ?_, ?_⟩
          · intro _; simp [Ser.readSize, getCellSize]
          · exact fun i hi => Keeps.withSize st id b.length i hi
        · intro hf
          exact ⟨(), _, rfl, splice_length hf⟩
    | terminated id term =>
      simp only [packInto, enc]
      cases h : termData term vs with
      | error e => exact nofun
      | ok b =>
        refine Into.step (a := b) rfl rfl (Into.step (setSize_run ..) rfl ?_)
        show Into _ (encLeaf (do packOpt env.plat (← singleChar.matmul b.length) [.bytes b])) _ _ _
        cases hm : singleChar.matmul b.length with
        | error e => exact nofun
        | ok s =>
          refine Into.step (a := s) rfl rfl ?_
          refine (packIntoOpt_into env s off [.bytes b] (st.withSize id b.length)).mono ?_ (fun _ _ _ h => h)
          rintro _ r st' ho ⟨h1, h2, h3, h4⟩
          have hlen : r.bytes.length = b.length := by
            cases hx : packOpt env.plat s [.bytes b] with
            | error e => rw [hx] at ho; cases ho
            | ok c =>
              rw [hx] at ho; cases ho
              exact termPack_length (P := env.plat) (by rw [hm]; exact hx)
          refine ⟨h1.frL (Fr.withSize ..), ?_, ?_⟩
          · intro _; simp [Ser.readSize, getCellSize, h2, hlen]
          · rw [h4]; exact (Keeps.withSize _ _ _).trans (keeps_cells' h2 [])
    | unicode inner en de =>
      simp only [packInto, enc]
      refine Into.bind (fit1 := fun _ _ => True) (fit2 := fun _ => fitAt off) Into.lift ?_
        (fun _ _ _ _ _ h => ⟨trivial, h⟩)
      rintro b _ _ - ⟨rfl, rfl⟩
      exact (ih inner none off _ _ (Primed.none _ _)).mono
        (fun _ _ _ _ h => ⟨h.iw, h.size, h.keeps⟩) (fun _ _ _ h => h)
    | array id hdr item sl =>
      simp only [packInto, enc]
      cases q with
      | none => trivial
      | some p =>
        simp only
        cases hv : first vs with
        | error e =>
          have hfail : ∀ (o : Out Enc), (∀ r, o ≠ .ok r) → Into (do
              let v ← M.lift (.error e : Except Err Val)
              let p ← getPart id
              let item' ← item.prepack p
              let items ← M.lift (pyIter v)
              let size ← packIntoItems (packInto env n) item' off (hdrSize hdr) items
              let hv ← M.lift (headerPackValues hdr sl items.length (size - hdrSize hdr))
              setSize id size
              packIntoOpt env hdr off hv) o st (fitAt off)
                (fun _ r st' => IPost (.array id hdr item sl) r off st st') := by
            intro o ho
            cases o with
            | stuck => trivial
            | err e => exact nofun
            | ok r => exact (ho r rfl).elim
          refine hfail _ ?_
          intro r
          cases pre item p <;> nofun
        | ok v =>
          refine Into.step (a := v) rfl rfl ?_
          refine Into.step (hp.getPart rfl) rfl ?_
          refine Into.bind (fit1 := fun _ _ => True) (fit2 := fun _ => fitAt off)
            (Into.of_rel (prepack_rel item p st) (fun _ _ _ h => by rw [h.2.2.2.1.1])) ?_
            (fun _ _ _ _ _ h => ⟨trivial, h⟩)
          rintro item' ⟨i', qi⟩ st1 - ⟨rfl, hpre, hp1, hf1, hk1⟩
          show Into _ (Out.ofE (pyIter v) >>= _) _ _ _
          refine Into.bind (fit1 := fun _ _ => True) (fit2 := fun _ => fitAt off) Into.lift ?_
            (fun _ _ _ _ _ h => ⟨trivial, h⟩)
          rintro items _ _ - ⟨rfl, rfl⟩
          rename_i st1
          refine Into.bind (fit2 := fun _ => fitAt off)
            (packIntoItems_into ih item' qi off items (hdrSize hdr) st1 hp1) ?_ ?_
          · rintro t r st2 - ⟨rfl, h1, h2⟩
            rw [Nat.add_sub_cancel_left]
            refine Into.bind (fit1 := fun _ _ => True) (fit2 := fun _ => fitAt off) Into.lift ?_
              (fun _ _ _ _ _ h => ⟨trivial, h⟩)
            rintro hvals _ _ - ⟨rfl, rfl⟩
            rename_i st2
            refine Into.step (setSize_run ..) rfl ?_
            have hh := packIntoOpt_into env hdr off hvals (st2.withSize id (hdrSize hdr + r.bytes.length))
            revert hh
            cases hpk : packOpt env.plat hdr hvals with
            | error e => exact fun h => h
            | ok h =>
              rintro ⟨g1, g2⟩
              refine ⟨?_, ?_⟩
              · intro a st' hx
                obtain ⟨k1, k2, k3, k4⟩ := g1 a st' hx
                have hhs : h.length = hdrSize hdr := k3
                refine ⟨?_, ?_, ?_⟩
                · have w1 : IW (off + h.length) r.bytes st (st2.withSize id (hdrSize hdr + r.bytes.length)) := by
                    rw [hhs]; exact (h1.frL hf1).frR (Fr.withSize ..)
                  exact w1.front k1
                · intro _
                  simp [Ser.readSize, getCellSize, k2, hhs]
                · have := ((hk1.trans h2).trans (Keeps.withSize st2 id (hdrSize hdr + r.bytes.length))).trans
                    (keeps_cells' k2 [])
                  simpa using this
              · intro hf
                refine g2 ?_
                simp only [fitAt, List.length_append] at hf ⊢
                omega
          · intro b c L _ hc hf
            refine ⟨?_, hf⟩
            revert hc
            cases headerPackValues hdr sl items.length b.bytes.length with
            | error e => nofun
            | ok hvals =>
              show (Out.ofE (packOpt env.plat hdr hvals) >>= _) = _ → _
              cases hpk : packOpt env.plat hdr hvals with
              | error e => nofun
              | ok h =>
                intro hc
                cases hc
                have := packOpt_length hpk
                simp only [fitAt, List.length_append] at hf ⊢
                have h2 : h.length = hdrSize hdr := this
                omega
    | staticArr count item ser =>
      simp only [packInto, enc]
      cases h : staticArrPrep count vs with
      | error e => exact nofun
      | ok items =>
        refine Into.step (a := items) rfl rfl ?_
        refine (packIntoOpt_into env ser off items st).mono ?_ (fun _ _ _ h => h)
        rintro _ r st' - ⟨h1, h2, h3, h4⟩
        exact ⟨h1, fun _ => by rw [h3]; rfl, keeps_cells' h2 _⟩
    | tuple id inner =>
      simp only [packInto, enc]
      rcases vs with _ | ⟨v, _ | ⟨w, ws⟩⟩
      · exact Into.throw
      · cases q with
        | none => trivial
        | some p =>
          refine Into.step (hp.getPart rfl) rfl ?_
          refine Into.bind (fit1 := fun _ _ => True) (fit2 := fun _ => fitAt off)
            (Into.of_rel (prepack_rel inner p st) (fun _ _ _ h => by rw [h.2.2.2.1.1])) ?_
            (fun _ _ _ _ _ h => ⟨trivial, h⟩)
          rintro inner' ⟨i', qi⟩ st1 - ⟨rfl, hpre, hp1, hf1, hk1⟩
          refine Into.bind (fit1 := fun _ _ => True) (fit2 := fun _ => fitAt off) Into.lift ?_
            (fun _ _ _ _ _ h => ⟨trivial, h⟩)
          rintro vals _ _ - ⟨rfl, rfl⟩
          refine (ih inner' qi off vals _ hp1).map ?_ (fun _ _ h => h)
          rintro _ r st2 post
          refine ⟨post.iw.frL hf1, ?_, hk1.trans post.keeps⟩
          intro hs
          obtain ⟨h1, h2⟩ := pre_readSize hpre (by simpa [Ser.sized] using hs)
          show inner.readSize st2 = _
          rw [h1]
          exact post.size h2
      · exact Into.throw
    | lookback id d k o df =>
      simp only [packInto, enc]
      cases q with
      | none => trivial
      | some p =>
        have hg := hp.getPart (id := id) rfl
        refine Into.step hg rfl ?_
        refine Into.bind (fit1 := fun _ _ => True) (fit2 := fun _ => fitAt off) Into.lift ?_
          (fun _ _ _ _ _ h => ⟨trivial, h⟩)
        rintro r _ _ - ⟨rfl, rfl⟩
        exact packIntoUnion_into ih hg (fun _ => rfl)
    | lookahead id ra d k o df =>
      simp only [packInto, enc]
      cases q with
      | none => trivial
      | some p =>
        have hg := hp.getPart (id := id) rfl
        refine Into.step hg rfl ?_
        refine Into.bind (fit1 := fun _ _ => True) (fit2 := fun _ => fitAt off) Into.lift ?_
          (fun _ _ _ _ _ h => ⟨trivial, h⟩)
        rintro r _ _ - ⟨rfl, rfl⟩
        exact packIntoUnion_into ih hg (fun _ => rfl)
    | cond => exact Into.throw
    | skip vals => exact Into.pure ⟨IW.of_fr (Fr.refl _), fun _ => rfl, Keeps.refl _ _⟩
    | structured id cls =>
      simp only [packInto, enc]
      rcases vs with _ | ⟨v, _ | ⟨w, ws⟩⟩
      · exact Into.throw
      · refine Into.bind (fit2 := fun _ => fitAt off) (objPackInto_into ih off v st) ?_ ?_
        · rintro ser ⟨r, ser'⟩ st1 - ⟨h1, h2, h3, h4⟩
          simp only at h1 h2 h3 h4
          subst h1
          refine Into.size h3 ?_
          intro _
          refine ⟨?_, fun _ => ⟨(), _, setSize_run _ _ st1, rfl⟩⟩
          intro _ st' h
          cases h
          refine ⟨h2.frR (Fr.withSize st1 id r.bytes.length), ?_, ?_⟩
          · intro _; simp [Ser.readSize, getCellSize]
          · have := h4.trans (Keeps.withSize st1 id r.bytes.length)
            rw [List.append_nil] at this
            exact this
        · rintro ⟨r, ser⟩ c L _ hc hf
          refine ⟨?_, hf⟩
          simp only at hc ⊢
          split at hc
          · cases hc
          · cases hc; exact hf
      · exact Into.throw
    | selfT => exact Into.throw
    | compound id ss =>
      simp only [packInto, enc]
      have h := packIntoLoop_into ih (preM := pure) (preF := fun s => .ok (s, none)) (tch := fun _ => [])
        (by intro s st; exact ⟨s, st, rfl, rfl, Primed.none _ _, Fr.refl _, Keeps.refl _ _⟩) off ss vs 0 st
      have := Into.bind (f := fun t => setSize id t) (g := fun r => Out.ok r) (fit := fitAt off)
        (fit2 := fun _ _ _ => True) (Ψ := fun _ r st' => IPost (.compound id ss) r off st st') h ?_ ?_
      · have e : (encLoop (enc env n) (fun s => .ok (s, none)) (fun _ => []) ss vs >>= fun r => Out.ok r)
            = encLoop (enc env n) (fun s => .ok (s, none)) (fun _ => []) ss vs := by
          cases encLoop (enc env n) (fun s => .ok (s, none)) (fun _ => []) ss vs <;> rfl
        rw [e] at this
        exact this
      · rintro t r st1 - ⟨rfl, h1, h2⟩
        refine ⟨?_, fun _ => ⟨(), _, setSize_run _ _ st1, rfl⟩⟩
        intro _ st' h
        cases h
        refine ⟨h1.frR (Fr.withSize st1 id (0 + r.bytes.length)), ?_, ?_⟩
        · intro _; simp [Ser.readSize, getCellSize]
        · have := h2.trans (Keeps.withSize st1 id (0 + r.bytes.length))
          rw [List.append_nil] at this
          exact this
      · intro b c L _ hc hf
        cases hc
        exact ⟨hf, trivial⟩
    | specialized id p ss =>
      simp only [packInto, enc]
      have h := packIntoLoop_into ih (preM := fun s => s.prepack p) (preF := fun s => pre s p) (tch := touch)
        (fun s st => (prepack_rel s p st).mono (fun _ h => h) (fun _ _ _ h => ⟨h.1, h.2.2⟩)) off ss vs 0 st
      have := Into.bind (f := fun t => setSize id t) (g := fun r => Out.ok r) (fit := fitAt off)
        (fit2 := fun _ _ _ => True) (Ψ := fun _ r st' => IPost (.specialized id p ss) r off st st') h ?_ ?_
      · have e : (encLoop (enc env n) (fun s => pre s p) touch ss vs >>= fun r => Out.ok r)
            = encLoop (enc env n) (fun s => pre s p) touch ss vs := by
          cases encLoop (enc env n) (fun s => pre s p) touch ss vs <;> rfl
        rw [e] at this
        exact this
      · rintro t r st1 - ⟨rfl, h1, h2⟩
        refine ⟨?_, fun _ => ⟨(), _, setSize_run _ _ st1, rfl⟩⟩
        intro _ st' h
        cases h
        refine ⟨h1.frR (Fr.withSize st1 id (0 + r.bytes.length)), ?_, ?_⟩
        · intro _; simp [Ser.readSize, getCellSize]
        · have := h2.trans (Keeps.withSize st1 id (0 + r.bytes.length))
          rw [List.append_nil] at this
          exact this
      · intro b c L _ hc hf
        cases hc
        exact ⟨hf, trivial⟩

end Verif
