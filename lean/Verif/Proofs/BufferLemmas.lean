import Verif.Proofs.PlainValues
/-
Reading from buffers of any kind (C46).
-/
namespace Verif
open Buf Verif.Neg

variable {env : Env} {raw net : Bool}

/-! ### Equal runs -/

theorem bind_congr_ok {x : M α} {f g : α → M β} {st : St} (h : ∀ a st1, x st = .ok a st1 → f a st1 = g a st1) :
    (x >>= f) st = (x >>= g) st := by
  show M.bind x f st = M.bind x g st
  unfold M.bind
  cases hx : x st with
  | err e s => rfl
  | ok a s => exact h a s hx

theorem bind_congr2 {x y : M α} {f g : α → M β} {st : St} (hxy : x st = y st)
    (h : ∀ a st1, y st = .ok a st1 → f a st1 = g a st1) : (x >>= f) st = (y >>= g) st := by
  show M.bind x f st = M.bind y g st
  unfold M.bind
  rw [hxy]
  cases hx : y st with
  | err e s => rfl
  | ok a s => exact h a s hx

/-- The source is one for such programs. -/
def Fits (k : Kind) (raw net : Bool) (src : Src) : Prop :=
  k = .bytes ∨ ((raw = true → src.raw = true) ∧ (net = true → src.net = true))

theorem Fits.next {k : Kind} {src : Src} {n : Nat} (h : Fits k raw net src) : Fits k raw net (src.next n) := by
  cases src <;> exact h

/-- What the induction hypothesis says about the recursive calls. -/
def SameN (k : Kind) (raw net : Bool) (f f' : Ser → Src → M (List Val)) : Prop :=
  (∀ s src st, Fits k raw net src → (k ≠ .bytes → s.Plain raw net ∧ st.Plain) → f s src st = f' s src st) ∧
  (k ≠ .bytes → GoodN raw net f')

variable {k : Kind} {f f' : Ser → Src → M (List Val)}

theorem same_loop (ih : SameN k raw net f f') {src : Src} (h : Fits k raw net src) :
    ∀ (ss : List Ser) (size : Nat) (st : St), (k ≠ .bytes → Ser.PlainList raw net ss ∧ st.Plain) →
      unpackLoop f src size ss st = unpackLoop f' src size ss st
  | [], _, _, _ => rfl
  | s :: ss, size, st, hs => by
    simp only [Ser.PlainList] at hs
    refine bind_congr2 (ih.1 s _ _ h.next fun hk => ⟨(hs hk).1.1, (hs hk).2⟩) fun vs st1 h1 => ?_
    refine bind_congr_ok fun sz st2 h2 => ?_
    have := readSize_cells _ h2
    subst this
    exact bind_congr2 (same_loop ih h ss _ _ fun hk => ⟨(hs hk).1.2, (ih.2 hk _ _ _ _ _ (hs hk).1.1 (hs hk).2 h1).2⟩)
      fun q st3 _ => rfl

theorem same_loopSpec (ih : SameN k raw net f f') {upd : Upd} (hu : UpdPlain upd) {src : Src} (h : Fits k raw net src) :
    ∀ (ss : List Ser) (p : PObj) (done size : Nat) (st : St),
      (k ≠ .bytes → Ser.PlainList raw net ss ∧ Val.NoSliceAttrs p.attrs ∧ st.Plain) →
      unpackLoopSpec f upd src p done size ss st = unpackLoopSpec f' upd src p done size ss st
  | [], _, _, _, _, _ => rfl
  | s :: ss, p, done, size, st, hs => by
    simp only [Ser.PlainList] at hs
    refine bind_congr_ok fun s' st1 hs' => ?_
    have g1 := fun hk => plain_preunpack hs' (hs hk).1.1 (hs hk).2.1 (hs hk).2.2
    refine bind_congr2 (ih.1 s' _ _ h.next g1) fun vs st2 h2 => ?_
    have g2 := fun hk => ih.2 hk _ _ _ _ _ (g1 hk).1 (g1 hk).2 h2
    refine bind_congr_ok fun p' st3 h3 => ?_
    obtain ⟨h4, rfl⟩ := lift_ok' h3
    refine bind_congr_ok fun sz st4 h5 => ?_
    have := readSize_cells _ h5
    subst this
    exact bind_congr2 (same_loopSpec ih hu h ss _ _ _ _ fun hk =>
      ⟨(hs hk).1.2, hu _ _ _ _ (hs hk).2.1 (g2 hk).1 h4, (g2 hk).2⟩) fun q st3 _ => rfl

theorem same_items (ih : SameN k raw net f f') {item : Ser} (hi : k ≠ .bytes → item.Plain raw net) {src : Src}
    (h : Fits k raw net src) :
    ∀ (c size : Nat) (st : St), (k ≠ .bytes → st.Plain) →
      unpackItems f item src size c st = unpackItems f' item src size c st
  | 0, _, _, _ => rfl
  | c + 1, size, st, hst => by
    refine bind_congr2 (ih.1 item _ _ h.next fun hk => ⟨hi hk, hst hk⟩) fun vs st1 h1 => ?_
    refine bind_congr_ok fun sz st2 h2 => ?_
    have := readSize_cells _ h2
    subst this
    exact bind_congr2 (same_items ih hi h c _ _ fun hk => (ih.2 hk _ _ _ _ _ (hi hk) (hst hk) h1).2) fun q st3 _ => rfl

theorem same_union (ih : SameN k raw net f f') {i : SerId} {s : Ser} {src : Src}
    (h : Fits k raw net src) {st : St} (hs : k ≠ .bytes → s.Plain raw net ∧ st.Plain) :
    unionUnpack f i s src st = unionUnpack f' i s src st := by
  unfold unionUnpack
  by_cases hl : s.isLazy = true
  · rw [if_pos hl, if_pos hl]
    refine bind_congr_ok fun sz st1 h1 => ?_
    have := readSize_cells _ h1
    subst this
    exact bind_congr_ok fun _ st2 h2 => ih.1 s _ _ h fun hk => ⟨(hs hk).1, plain_setSize (hs hk).2 h2⟩
  · rw [if_neg hl, if_neg hl]
    exact bind_congr2 (ih.1 s _ _ h hs) fun vs st1 _ => rfl

theorem same_create (he : k ≠ .bytes → env.Plain raw net) {g g' : Upd → Ser → Src → M (List Val)}
    (ih : ∀ upd, UpdPlain upd → SameN k raw net (g upd) (g' upd)) {cls : ClassId} {src : Src} (h : Fits k raw net src)
    {st : St} (hst : k ≠ .bytes → st.Plain) : createUnpackWith env g cls src st = createUnpackWith env g' cls src st := by
  unfold createUnpackWith
  cases hc : env.classes cls with
  | none => rfl
  | some ci =>
    refine bind_congr_ok fun s st1 hs => ?_
    exact bind_congr2 ((ih _ (assignVals_plain _)).1 s _ _ h fun hk =>
      plain_preunpack hs (he hk cls ci hc).1 trivial (hst hk)) fun vals st2 _ => rfl

theorem same_consuming {i : SerId} {src : Src} (h : k = .bytes ∨ src.raw = true) :
    Buf.consumingUnpack k i src = Verif.consumingUnpack i src := by
  cases src with
  | io => rfl
  | _ =>
    rcases h with rfl | h
    · rfl
    · cases h

theorem same_net {i : SerId} {src : Src} (h : k = .bytes ∨ src.net = true) {st : St} :
    Buf.netUnpack env k i src st = Verif.netUnpack env i src st := by
  cases src with
  | buf b =>
    rcases h with rfl | h
    · unfold Buf.netUnpack Verif.netUnpack
      have hget : ∀ {k : St → M (List Val)}, (M.get >>= k) st = k st st := fun {k} => rfl
      rw [hget]
      refine bind_congr_ok fun hv st1 _ => ?_
      refine bind_congr_ok fun c st2 _ => ?_
      by_cases hc : 128 ≤ c
      · simp only [if_pos hc]
        rfl
      · simp only [if_neg hc]
        rfl
    · cases h
  | _ => rfl

theorem keyOf_eq {r : Val} (h : k ≠ .bytes → r.NoSlice) : keyOf k r = .ok r := by
  cases k <;> first | rfl | exact asKey_plain r (h Kind.noConfusion)

theorem same_unpack (he : k ≠ .bytes → env.Plain raw net) :
    ∀ (n : Nat) (upd : Upd), UpdPlain upd → SameN k raw net (Buf.unpack env k n upd) (Verif.unpack env n upd)
  | 0, _, hu => ⟨fun _ _ _ _ _ => rfl, fun hk => good_unpack (he hk) 0 _ hu⟩
  | n + 1, upd, hu => ⟨fun s src st h hs => by
    have ih := same_unpack he n noUpd noUpd_plain
    cases s with
    | consuming i =>
      simp only [Ser.Plain] at hs
      show Buf.consumingUnpack k i src st = _
      rw [same_consuming (h.elim .inl fun h => Classical.or_iff_not_imp_left.2 fun hk => h.1 (hs hk).1)]
      rfl
    | net i =>
      simp only [Ser.Plain] at hs
      exact same_net (h.elim .inl fun h => Classical.or_iff_not_imp_left.2 fun hk => h.2 (hs hk).1)
    | unicode inner enc dec =>
      simp only [Ser.Plain] at hs
      exact bind_congr2 (ih.1 inner _ _ h hs) fun vs st1 _ => rfl
    | array i hdr item sl =>
      simp only [Ser.Plain] at hs
      refine bind_congr_ok fun hv st1 h1 => ?_
      have e1 := structUnpackOpt_cells h1
      refine bind_congr_ok fun q st2 h2 => ?_
      obtain ⟨_, rfl⟩ := lift_ok' h2
      refine bind_congr_ok fun p st3 h3 => ?_
      refine bind_congr_ok fun item' st4 hi => ?_
      have g := fun hk => plain_getPart h3 ((hs hk).2.cells e1)
      have g' := fun hk => plain_preunpack hi (hs hk).1 (g hk).1 ((g hk).2 ▸ (hs hk).2.cells e1)
      exact bind_congr2 (same_items ih (fun hk => (g' hk).1) h _ _ _ fun hk => (g' hk).2) fun w st5 hw => rfl
    | tuple i inner =>
      simp only [Ser.Plain] at hs
      refine bind_congr_ok fun p st1 h1 => ?_
      refine bind_congr_ok fun inner' st2 hi => ?_
      have g := fun hk => plain_getPart h1 (hs hk).2
      have g' := fun hk => plain_preunpack hi (hs hk).1 (g hk).1 ((g hk).2 ▸ (hs hk).2)
      by_cases hl : inner'.isLazy = true
      · simp only [if_pos hl]
      · simp only [if_neg hl]
        exact bind_congr2 (ih.1 inner' _ _ h g') fun vs st1 _ => rfl
    | lookback i dec keys opts dflt =>
      simp only [Ser.Plain] at hs
      refine bind_congr_ok fun p st1 h1 => ?_
      have g := fun hk => plain_getPart h1 (hs hk).2
      refine bind_congr_ok fun r st2 hr => ?_
      obtain ⟨hr', rfl⟩ := lift_ok' hr
      have hk : keyOf k r = .ok r := keyOf_eq fun hk => (hs hk).1.1 p _ (g hk).1 hr'
      show (M.lift (keyOf k r) >>= _) _ = _
      rw [hk]
      show (getSerializer false i keys opts dflt r >>= _) _ = _
      refine bind_congr_ok fun s st3 hg => ?_
      exact same_union ih h fun hk => plain_getSerializer hg (hs hk).1.2.1 (hs hk).1.2.2 ((g hk).2 ▸ (hs hk).2)
    | lookahead i ra dec keys opts dflt =>
      simp only [Ser.Plain] at hs
      refine bind_congr2 (ih.1 ra _ _ h fun hk => ⟨(hs hk).1.1, (hs hk).2⟩) fun hv st1 hra => ?_
      have g := fun hk => ih.2 hk _ _ _ _ _ (hs hk).1.1 (hs hk).2 hra
      refine bind_congr_ok fun r st2 hr => ?_
      obtain ⟨hr', rfl⟩ := lift_ok' hr
      have hk : keyOf k r = .ok r := keyOf_eq fun hk => by
        cases hv with
        | nil => cases hr'
        | cons v vs => cases hr'; exact (g hk).1.1
      refine bind_congr_ok fun _ st3 h3 => ?_
      have p3 : k ≠ .bytes → st3.Plain := by
        intro hk
        cases src with
        | io =>
          obtain ⟨sz, st5, h5, h6⟩ := M.bind_ok h3
          have := readSize_cells _ h5
          subst this
          cases h6
          exact (g hk).2.cells rfl
        | _ => cases h3; exact (g hk).2
      show (M.lift (keyOf k r) >>= _) st3 = _
      rw [hk]
      show (getSerializer false i keys opts dflt r >>= _) st3 = _
      refine bind_congr_ok fun s st4 hg => ?_
      exact same_union ih h fun hk => plain_getSerializer hg (hs hk).1.2.1 (hs hk).1.2.2 (p3 hk)
    | structured i cls =>
      exact bind_congr2 (same_create he (fun upd hu => same_unpack he n upd hu) h fun hk => (hs hk).2) fun q st1 _ => rfl
    | compound i ss =>
      simp only [Ser.Plain] at hs
      exact bind_congr2 (same_loop ih h ss 0 st hs) fun q st1 _ => rfl
    | specialized i p ss =>
      simp only [Ser.Plain] at hs
      exact bind_congr2 (same_loopSpec ih hu h ss p 0 0 st fun hk => ⟨(hs hk).1.2, (hs hk).1.1, (hs hk).2⟩) fun q st1 _ => rfl
    | _ => rfl, fun hk => good_unpack (he hk) (n + 1) _ hu⟩

/-! ### A read-to-end string at the end -/

/-- The two runs end with the rest of the buffer, as `bytes` and as a slice. -/
def RestOf (k : Kind) (b : Bytes) (off : Nat) (r r' : Res (List Val × Nat)) : Prop :=
  match r' with
  | .err e st' => r = .err e st'
  | .ok q st' => ∃ ws size, q.1 = ws ++ [.bytes (b.drop (off + size))] ∧
      r = .ok (ws ++ [k.wrap (b.drop (off + size))], q.2) st'

theorem bind_eq_err {x : M α} {f : α → M β} {st st' : St} {e : Err} (h : x st = .err e st') : (x >>= f) st = .err e st' := by
  show M.bind x f st = _
  unfold M.bind
  rw [h]

theorem rest_loop {n : Nat} (ih : SameN k false true (Buf.unpack env k (n + 1) noUpd) (Verif.unpack env (n + 1) noUpd))
    {b : Bytes} {off : Nat} {j : SerId} :
    ∀ (ss : List Ser) (size : Nat) (st : St), Ser.PlainList false true ss → (k ≠ .bytes → st.Plain) →
      RestOf k b off (unpackLoop (Buf.unpack env k (n + 1) noUpd) (.at b off) size (ss ++ [.consuming j]) st)
        (unpackLoop (Verif.unpack env (n + 1) noUpd) (.at b off) size (ss ++ [.consuming j]) st)
  | [], size, st, _, _ => ⟨[], size, rfl, rfl⟩
  | s :: ss, size, st, hs, hst => by
    simp only [Ser.PlainList] at hs
    have e := ih.1 s (.at b (off + size)) st (.inr ⟨Bool.noConfusion, fun _ => rfl⟩) fun hk => ⟨hs.1, hst hk⟩
    show RestOf k b off ((Buf.unpack env k (n + 1) noUpd s (.at b (off + size)) >>= _) st)
      ((Verif.unpack env (n + 1) noUpd s (.at b (off + size)) >>= _) st)
    cases h1 : Verif.unpack env (n + 1) noUpd s (.at b (off + size)) st with
    | err er st1 =>
      rw [bind_eq_err h1, bind_eq_err (e.trans h1)]
      rfl
    | ok vs st1 =>
      rw [M.bind_eq h1, M.bind_eq (e.trans h1)]
      show RestOf k b off ((s.readSize >>= _) st1) ((s.readSize >>= _) st1)
      cases h2 : s.readSize st1 with
      | err er st2 =>
        rw [bind_eq_err h2, bind_eq_err h2]
        rfl
      | ok sz st2 =>
        have := readSize_cells _ h2
        subst this
        rw [M.bind_eq h2, M.bind_eq h2]
        have r := rest_loop ih (b := b) (off := off) (j := j) ss (size + sz) st2 hs.2
          fun hk => (ih.2 hk _ _ _ _ _ hs.1 (hst hk) h1).2
        show RestOf k b off ((unpackLoop _ (.at b off) (size + sz) (ss ++ [.consuming j]) >>= _) st2)
          ((unpackLoop _ (.at b off) (size + sz) (ss ++ [.consuming j]) >>= _) st2)
        cases h3 : unpackLoop (Verif.unpack env (n + 1) noUpd) (.at b off) (size + sz) (ss ++ [.consuming j]) st2 with
        | err er st3 =>
          rw [h3] at r
          rw [bind_eq_err h3, bind_eq_err r]
          rfl
        | ok q st3 =>
          rw [h3] at r
          obtain ⟨ws, sz', e1, e2⟩ := r
          rw [M.bind_eq h3, M.bind_eq e2]
          obtain ⟨q1, q2⟩ := q
          cases e1
          exact ⟨vs ++ ws, sz', (List.append_assoc ..).symm, by rw [List.append_assoc]; rfl⟩

end Verif
