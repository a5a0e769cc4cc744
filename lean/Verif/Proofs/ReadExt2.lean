import Verif.Proofs.ReadExt
/-
The main induction: a reading that stays inside a buffer is the same from every source that shows
these bytes.
-/
namespace Verif
open Sem

variable {env : Env} {k : Allow}

theorem Out.bind_ok' {x : Out α} {f : α → Out β} {b : β} (h : x >>= f = .ok b) : ∃ a, x = .ok a ∧ f a = .ok b := by
  cases x with
  | ok a => exact ⟨a, rfl, h⟩
  | err e => cases h
  | stuck => cases h

theorem Out.ofE_ok' {x : Except Err α} {f : α → Out β} {b : β} (h : Out.ofE x >>= f = .ok b) :
    ∃ a, x = .ok a ∧ f a = .ok b := by
  obtain ⟨a, h1, h2⟩ := Out.bind_ok' h
  exact ⟨a, ofE_ok h1, h2⟩

theorem Out.ok_bind {a : α} {f : α → Out β} : (Out.ok a >>= f) = f a := rfl
theorem Out.ofE_ok_bind {x : Except Err α} {a : α} {f : α → Out β} (h : x = .ok a) : (Out.ofE x >>= f) = f a := by
  rw [h]; rfl

/-- What a source must satisfy for the admitted serializers. -/
structure Reads (env : Env) (k : Allow) (src : PSrc) (rest : Bytes) : Prop where
  cons : k.cons = true → rest = []
  term : k.term = true → src.isAt = false
  codec : src.isBuf = false → k.codec = false
  post : src.isBuf = false → env.noPost
  peek : k.peek = true → src.isBuf = true ∧ ∀ n upd s q b r, s.steady true = true → dec env n upd s q (.buf b) = .ok r →
    r.size ≤ b.length

theorem Reads.next {src : PSrc} {rest : Bytes} {a b : Nat} (h : Reads env k src rest) : Reads env k (src.next a b) rest :=
  ⟨h.cons, fun t => by rw [isAt_next]; exact h.term t, fun t => h.codec (by rwa [isBuf_next] at t),
    fun t => h.post (by rwa [isBuf_next] at t),
    fun t => ⟨by rw [isBuf_next]; exact (h.peek t).1, (h.peek t).2⟩⟩

theorem allowedList_mem {ss : List Ser} : Ser.allowedList k ss = true ↔ ∀ s ∈ ss, s.allowed k = true := by
  induction ss with
  | nil => simp [Ser.allowedList]
  | cons s ss ih => simp [Ser.allowedList, ih]

theorem preU_allowed {s s' : Ser} {p : PObj} {q : Option PObj} (ha : s.allowed k = true) (h : preU s p = .ok (s', q)) :
    s'.allowed k = true := by
  rcases preU_cases s p with ⟨id, rfl⟩ | ⟨_, h2⟩
  · obtain ⟨c, h1, h⟩ := Except.bind_ok' h
    cases h
    rfl
  · rw [h2] at h
    cases s with
    | cond ser c defs =>
      obtain ⟨r, h1, h⟩ := Except.bind_ok' h
      obtain ⟨s2, h2, h⟩ := Except.bind_ok' h
      cases h
      rcases condPick_cases h2 with rfl | rfl
      · simpa [Ser.allowed] using ha
      · rfl
    | compound id ss =>
      simp only [Sem.pre, Except.ok.injEq, Prod.mk.injEq] at h
      obtain ⟨h1, h2⟩ := h
      split at h1
      · subst h1; simpa [Ser.allowed] using ha
      · subst h1; exact ha
    | _ => cases h; first | exact ha | rfl

theorem unionPick_allowed {keys : List Val} {opts : List Ser} {dflt s : Ser} {r : Val}
    (h : unionPick keys opts dflt r = .ok s) (ho : Ser.allowedList k opts = true) (hd : dflt.allowed k = true) :
    s.allowed k = true := by
  rcases unionPick_mem h with h | rfl
  · exact allowedList_mem.1 ho s h
  · exact hd

/-- Reading from a buffer determines reading from every source that shows its bytes. -/
def Extends (env : Env) (k : Allow) (decN : Upd → Ser → Option PObj → PSrc → Out Dec) : Prop :=
  ∀ upd s q b r src rest, s.allowed k = true → decN upd s q (.buf b) = .ok r → r.size ≤ b.length →
    Views src (b ++ rest) → Reads env k src rest → (src.isBuf = false → Val.noEmptyList r.vals = true) →
    decN upd s q src = .ok (r.moved src)

section loops
variable {decN : Upd → Ser → Option PObj → PSrc → Out Dec} {src : PSrc} {b rest : Bytes}

theorem decLoop_size {decN : Ser → Option PObj → PSrc → Out Dec} : ∀ ss size pos r,
    decLoop decN src size pos ss = .ok r → size ≤ r.size := by
  intro ss
  induction ss with
  | nil => intro size pos r h; cases h; exact Nat.le_refl _
  | cons s ss ih =>
    intro size pos r h
    rw [decLoop] at h
    obtain ⟨a, h1, h⟩ := Out.bind_ok' h
    split at h
    · cases h
    · obtain ⟨r', h2, h⟩ := Out.bind_ok' h
      cases h
      have := ih _ _ _ h2
      simp only; omega

theorem decLoopSpec_size {decN : Ser → Option PObj → PSrc → Out Dec} {upd : Upd} : ∀ ss p done size pos r,
    decLoopSpec decN upd src p done size pos ss = .ok r → size ≤ r.size := by
  intro ss
  induction ss with
  | nil => intro p done size pos r h; cases h; exact Nat.le_refl _
  | cons s ss ih =>
    intro p done size pos r h
    rw [decLoopSpec] at h
    obtain ⟨⟨s', q⟩, h0, h⟩ := Out.ofE_ok' h
    obtain ⟨a, h1, h⟩ := Out.bind_ok' h
    obtain ⟨p', h3, h⟩ := Out.ofE_ok' h
    split at h
    · cases h
    · obtain ⟨r', h2, h⟩ := Out.bind_ok' h
      cases h
      have := ih _ _ _ _ _ h2
      simp only; omega

theorem decItems_size {decN : Ser → Option PObj → PSrc → Out Dec} {item : Ser} {q : Option PObj} : ∀ k size pos r,
    decItems decN item q src size pos k = .ok r → size ≤ r.size := by
  intro k
  induction k with
  | zero => intro size pos r h; cases h; exact Nat.le_refl _
  | succ k ih =>
    intro size pos r h
    rw [decItems] at h
    obtain ⟨a, h1, h⟩ := Out.bind_ok' h
    split at h
    · cases h
    · split at h
      · cases h
      · obtain ⟨r', h2, h⟩ := Out.bind_ok' h
        cases h
        have := ih _ _ _ h2
        simp only; omega

theorem decLoop_ext (hN : Extends env k decN) (hv : Views src (b ++ rest)) (hr : Reads env k src rest) {upd : Upd} :
    ∀ ss size pos r, Ser.allowedList k ss = true → decLoop (decN upd) (.buf b) size pos ss = .ok r → r.size ≤ b.length →
      (src.isBuf = false → Val.noEmptyList r.vals = true) →
      decLoop (decN upd) src size (src.ahead size) ss = .ok (r.moved src) := by
  intro ss
  induction ss with
  | nil => intro size pos r _ h hl hne; cases h; rfl
  | cons s ss ih =>
    intro size pos r ha h hl hne
    simp only [Ser.allowedList, Bool.and_eq_true] at ha
    rw [decLoop] at h
    obtain ⟨a, h1, h⟩ := Out.bind_ok' h
    split at h
    · cases h
    · rename_i hs
      obtain ⟨r', h2, h⟩ := Out.bind_ok' h
      cases h
      simp only at hl hne
      have hsz := decLoop_size _ _ _ _ h2
      have e1 := hN upd s none _ a (src.next size (src.ahead size)) rest ha.1 h1 (by rw [List.length_drop]; omega)
        (hv.next (by omega)) hr.next (fun hb => by
          have := hne (by rwa [isBuf_next] at hb)
          rw [noEmptyList_append, Bool.and_eq_true] at this
          exact this.1)
      have e2 := ih _ _ _ ha.2 h2 hl (fun hb => by
          have := hne hb
          rw [noEmptyList_append, Bool.and_eq_true] at this
          exact this.2)
      rw [decLoop, e1, Out.ok_bind, if_neg hs]
      simp only [Dec.moved, ahead_next] at e2 ⊢
      rw [e2]
      rfl

theorem decLoopSpec_ext (hN : Extends env k decN) (hv : Views src (b ++ rest)) (hr : Reads env k src rest) {upd upd' : Upd} :
    ∀ ss p done size pos r, Ser.allowedList k ss = true →
      decLoopSpec (decN upd) upd' (.buf b) p done size pos ss = .ok r → r.size ≤ b.length →
      (src.isBuf = false → Val.noEmptyList r.vals = true) →
      decLoopSpec (decN upd) upd' src p done size (src.ahead size) ss = .ok (r.moved src) := by
  intro ss
  induction ss with
  | nil => intro p done size pos r _ h hl hne; cases h; rfl
  | cons s ss ih =>
    intro p done size pos r ha h hl hne
    simp only [Ser.allowedList, Bool.and_eq_true] at ha
    rw [decLoopSpec] at h
    obtain ⟨⟨s', q⟩, h0, h⟩ := Out.ofE_ok' h
    obtain ⟨a, h1, h⟩ := Out.bind_ok' h
    obtain ⟨p', h3, h⟩ := Out.ofE_ok' h
    split at h
    · cases h
    · rename_i hs
      obtain ⟨r', h2, h⟩ := Out.bind_ok' h
      cases h
      simp only at hl hne
      have hsz := decLoopSpec_size _ _ _ _ _ _ h2
      have e1 := hN upd s' q _ a (src.next size (src.ahead size)) rest (preU_allowed ha.1 h0) h1
        (by rw [List.length_drop]; omega)
        (hv.next (by omega)) hr.next (fun hb => by
          have := hne (by rwa [isBuf_next] at hb)
          rw [noEmptyList_append, Bool.and_eq_true] at this
          exact this.1)
      have e2 := ih p' _ _ _ _ ha.2 h2 hl (fun hb => by
          have := hne hb
          rw [noEmptyList_append, Bool.and_eq_true] at this
          exact this.2)
      rw [decLoopSpec, Out.ofE_ok_bind h0]
      simp only
      rw [e1, Out.ok_bind, 
        Out.ofE_ok_bind (show upd' p done (a.moved (src.next size (src.ahead size))).vals = .ok p' from h3), if_neg hs]
      simp only [Dec.moved, ahead_next] at e2 ⊢
      rw [e2]
      rfl

theorem decItems_ext (hN : Extends env k decN) (hv : Views src (b ++ rest)) (hr : Reads env k src rest) {upd : Upd}
    {item : Ser} {q : Option PObj} (ha : item.allowed k = true) :
    ∀ n size pos r, decItems (decN upd) item q (.buf b) size pos n = .ok r → r.size ≤ b.length →
      (src.isBuf = false → Val.noEmptyList r.vals = true) →
      decItems (decN upd) item q src size (src.ahead size) n = .ok (r.moved src) := by
  intro n
  induction n with
  | zero => intro size pos r h hl hne; cases h; rfl
  | succ n ih =>
    intro size pos r h hl hne
    rw [decItems] at h
    obtain ⟨a, h1, h⟩ := Out.bind_ok' h
    split at h
    · cases h
    · rename_i hs
      split at h
      · cases h
      · rename_i hk
        obtain ⟨r', h2, h⟩ := Out.bind_ok' h
        cases h
        simp only at hl hne
        have hsz := decItems_size _ _ _ _ h2
        have e1 := hN upd item q _ a (src.next size (src.ahead size)) rest ha h1 (by rw [List.length_drop]; omega)
          (hv.next (by omega)) hr.next (fun hb => by
            have := hne (by rwa [isBuf_next] at hb)
            rw [noEmptyList_append, Bool.and_eq_true] at this
            exact this.1)
        have e2 := ih _ _ _ h2 hl (fun hb => by
            have := hne hb
            rw [noEmptyList_append, Bool.and_eq_true] at this
            exact this.2)
        rw [decItems, e1, Out.ok_bind, if_neg hs]
        have hk' : ¬ (item.keeper.any ((a.moved (src.next size (src.ahead size))).touched.contains ·)) = true := hk
        rw [if_neg hk']
        simp only [Dec.moved, ahead_next] at e2 ⊢
        rw [e2]
        rfl

theorem decUnion_ext (hN : Extends env k decN) (hv : Views src (b ++ rest)) (hr : Reads env k src rest) {upd : Upd}
    {keys : List Val} {opts : List Ser} {dflt : Ser} {p : PObj} {v : Val} {r : Dec}
    (ho : Ser.allowedList k opts = true) (hd : dflt.allowed k = true)
    (h : decUnion (decN upd) keys opts dflt p v (.buf b) = .ok r) (hl : r.size ≤ b.length)
    (hne : src.isBuf = false → Val.noEmptyList r.vals = true) :
    decUnion (decN upd) keys opts dflt p v src = .ok (r.moved src) := by
  unfold decUnion at h ⊢
  obtain ⟨s, h1, h⟩ := Out.ofE_ok' h
  obtain ⟨⟨s', q⟩, h2, h⟩ := Out.ofE_ok' h
  rw [Out.ofE_ok_bind h1, Out.ofE_ok_bind h2]
  simp only at h ⊢
  split at h
  · cases h
  · rename_i hz
    rw [if_neg hz]
    obtain ⟨a, h3, h⟩ := Out.bind_ok' h
    split at h
    · cases h
    · rename_i hs
      cases h
      rw [hN upd s' q b a src rest (preU_allowed (unionPick_allowed h1 ho hd) h2) h3 hl hv hr hne, Out.ok_bind, if_neg hs]
      rfl

theorem decObj_ext (he : env.allowed k) (hN : Extends env k decN) (hv : Views src (b ++ rest)) (hr : Reads env k src rest)
    {cls : ClassId} {v : Val} {r : Dec} {ser : Ser} (h : decObj env decN cls (.buf b) = .ok (v, r, ser))
    (hl : r.size ≤ b.length) (hne : src.isBuf = false → v.noEmpty = true) :
    decObj env decN cls src = .ok (v, r.moved src, ser) := by
  unfold decObj at h ⊢
  split at h
  · cases h
  · rename_i ci hci
    obtain ⟨⟨s, q⟩, h1, h⟩ := Out.ofE_ok' h
    obtain ⟨a, h2, h⟩ := Out.bind_ok' h
    obtain ⟨v', h3, h⟩ := Out.ofE_ok' h
    cases h
    simp only [Out.ofE_ok_bind h1]
    rw [hN _ s q b a src rest (preU_allowed (he cls ci hci) h1) h2 hl hv hr (fun hb => by
      have hp := hr.post hb cls ci hci
      unfold construct at h3
      split at h3
      · rename_i hlen
        simp only [hp, bind, Except.bind, Except.ok.injEq] at h3
        have := hne hb
        rw [← h3, Val.noEmpty, noEmptyAttrs_zip hlen] at this
        exact this
      · cases h3), Out.ok_bind]
    rw [Out.ofE_ok_bind (show construct cls ci (a.moved src).vals = .ok v from h3)]
    rfl

end loops

/-- The leaves; empty strings matter only for `char[uint*]`. -/
theorem charLike_ext {n : Nat} {upd : Upd} {s : Ser} {q : Option PObj} {b rest : Bytes} {r : Dec} {src : PSrc}
    (hc : s.charLike = true) (ha : s.allowed k = true) (h : dec env (n+1) upd s q (.buf b) = .ok r) (hl : r.size ≤ b.length)
    (hv : Views src (b ++ rest)) (hr : Reads env k src rest)
    (hne : src.isBuf = false → ∀ id st, s = .dynChar id st → Val.noEmptyList r.vals = true) :
    dec env (n+1) upd s q src = .ok (r.moved src) := by
  cases s with
  | null =>
    simp only [dec] at h ⊢
    cases h
    simp [Dec.moved, ahead_zero]
  | struct st =>
    simp only [dec] at h ⊢
    rw [(structSer_ext (ofE_ok h) hv).2]; rfl
  | dynChar id st =>
    simp only [dec] at h ⊢
    rw [dynChar_ext (by simpa [Ser.allowed] using ha) (ofE_ok h) hv hl (fun hb => hne hb id st rfl)]; rfl
  | consuming id =>
    simp only [dec] at h ⊢
    cases h
    simp only [Ser.allowed] at ha
    have hr0 := hr.cons ha
    subst hr0
    rw [List.append_nil] at hv
    rw [consuming_ext hv]
  | terminated id t =>
    simp only [dec] at h ⊢
    simp only [Ser.allowed] at ha
    rw [terminated_ext (ofE_ok h) hv (hr.term ha)]; rfl
  | net id =>
    simp only [dec] at h ⊢
    rw [net_ext (ofE_ok h) hv hl]; rfl
  | _ => cases hc

theorem dynChar_vals {n : Nat} {upd : Upd} {id : SerId} {st : StructSer} {q : Option PObj} {b : Bytes} {r : Dec}
    (h : dec env (n+1) upd (.dynChar id st) q (.buf b) = .ok r) : ∃ x, r.vals = [.bytes x] := by
  simp only [dec] at h
  have h := ofE_ok h
  obtain ⟨⟨hv, pos⟩, _, h⟩ := Except.bind_ok' h
  obtain ⟨v, _, h⟩ := Except.bind_ok' h
  obtain ⟨c, _, h⟩ := Except.bind_ok' h
  cases h
  exact ⟨_, rfl⟩

/-- Reading ahead gives the same values and leaves the source where it was. -/
theorem solid_ext {n : Nat} {upd : Upd} {s : Ser} {q : Option PObj} {b rest : Bytes} {r : Dec} {src : PSrc}
    (hc : s.solid = true) (h : dec env (n+1) upd s q (.buf b) = .ok r) (hv : Views src (b ++ rest)) :
    r.size ≤ b.length ∧ r.touched = [] ∧ s.sized = true ∧ dec env (n+1) upd s q src = .ok (r.moved src) := by
  cases s with
  | struct st =>
    simp only [dec] at h ⊢
    obtain ⟨h1, h2⟩ := structSer_ext (ofE_ok h) hv
    refine ⟨h1, ?_, rfl, by rw [h2]; rfl⟩
    obtain ⟨_, _, h⟩ := Except.bind_ok' (ofE_ok h)
    cases h; rfl
  | staticArr count item ser =>
    simp only [dec] at h ⊢
    obtain ⟨h1, h2⟩ := staticArr_ext (ofE_ok h) hv
    refine ⟨h1, ?_, rfl, by rw [h2]; rfl⟩
    obtain ⟨_, _, h⟩ := Except.bind_ok' (ofE_ok h)
    cases h; rfl
  | dynArr id cnt item =>
    simp only [dec] at h ⊢
    obtain ⟨h1, h2⟩ := dynArr_ext (ofE_ok h) hv
    refine ⟨h1, ?_, rfl, congrArg Out.ofE h2⟩
    obtain ⟨_, _, h⟩ := Except.bind_ok' (ofE_ok h)
    split at h
    · obtain ⟨_, _, h⟩ := Except.bind_ok' h
      obtain ⟨_, _, h⟩ := Except.bind_ok' h
      obtain ⟨_, _, h⟩ := Except.bind_ok' h
      cases h; rfl
    · cases h
  | _ => cases hc

theorem back_self {src : PSrc} {size : Nat} : src.back (src.ahead size) size = src := by
  cases src with
  | io data pos =>
    simp only [PSrc.back, PSrc.ahead]
    congr
    omega
  | _ => rfl

theorem unicode_noEmpty {de : Bytes → Except Err PyStr} {x : Bytes} {vs : List Val}
    (h : unicodeDecode de [.bytes x] = .ok vs) (hd : (match de [] with | .ok [] => true | _ => false) = true)
    (hv : Val.noEmptyList vs = true) : Val.noEmptyList [.bytes x] = true := by
  cases x with
  | cons a x => simp [Val.noEmptyList, Val.noEmpty]
  | nil =>
    exfalso
    split at hd
    · rename_i e
      simp only [unicodeDecode, first, e, bind, Except.bind, Except.ok.injEq] at h
      subst h
      simp [rstripNul, Val.noEmptyList, Val.noEmpty] at hv
    · cases hd

theorem dec_ext (he : env.allowed k) : ∀ n, Extends env k (dec env n) := by
  intro n
  induction n with
  | zero => intro upd s q b r src rest _ h; cases h
  | succ n ih =>
    intro upd s q b r src rest ha h hl hv hr hne
    have leaf : s.charLike = true → dec env (n+1) upd s q src = .ok (r.moved src) := fun hc =>
      charLike_ext hc ha h hl hv hr (fun hb _ _ _ => hne hb)
    have hard : s.solid = true → dec env (n+1) upd s q src = .ok (r.moved src) := fun hc => (solid_ext hc h hv).2.2.2
    cases s with
    | null => exact leaf rfl
    | struct st => exact leaf rfl
    | dynChar id st => exact leaf rfl
    | consuming id => exact leaf rfl
    | terminated id term => exact leaf rfl
    | net id => exact leaf rfl
    | staticArr count item ser => exact hard rfl
    | dynArr id cnt item => exact hard rfl
    | cond => simp only [dec] at h; cases h
    | skip =>
      simp only [dec] at h ⊢
      cases h
      simp [Dec.moved, ahead_zero]
    | selfT => simp only [dec] at h; cases h
    | unicode inner en de =>
      simp only [Ser.allowed, Bool.and_eq_true] at ha
      rw [dec] at h ⊢
      obtain ⟨a, h1, h⟩ := Out.bind_ok' h
      obtain ⟨vs, h2, h⟩ := Out.ofE_ok' h
      cases h
      simp only at hl hne
      have e1 : dec env n noUpd inner none src = .ok (a.moved src) := by
        cases n with
        | zero => cases h1
        | succ n =>
          refine charLike_ext ha.1.1 ha.1.2 h1 hl hv hr ?_
          intro hb id st e
          subst e
          obtain ⟨x, hx⟩ := dynChar_vals h1
          have hcod := hr.codec hb
          have h3 := ha.2
          rw [hcod, Bool.false_or] at h3
          rw [hx] at h2 ⊢
          exact unicode_noEmpty h2 h3 (hne hb)
      rw [e1, Out.ok_bind, Out.ofE_ok_bind (show unicodeDecode de (a.moved src).vals = .ok vs from h2)]
      rfl
    | array id hdr item sl =>
      simp only [Ser.allowed] at ha
      cases q with
      | none =>
        simp only [dec] at h
        obtain ⟨⟨hv, pos⟩, _, h⟩ := Out.ofE_ok' h
        obtain ⟨⟨c, d⟩, _, h⟩ := Out.ofE_ok' h
        cases h
      | some p =>
        simp only [dec] at h ⊢
        obtain ⟨⟨hv', pos⟩, h1, h⟩ := Out.ofE_ok' h
        obtain ⟨⟨c, d⟩, h2, h⟩ := Out.ofE_ok' h
        obtain ⟨⟨item', qi⟩, h3, h⟩ := Out.ofE_ok' h
        obtain ⟨a, h4, h⟩ := Out.bind_ok' h
        obtain ⟨u, h5, h⟩ := Out.ofE_ok' h
        cases h
        simp only at hl hne
        obtain ⟨g1, g2⟩ := structDecOpt_ext h1 hv
        have e4 := decItems_ext ih hv hr (preU_allowed ha h3) _ _ _ _ h4 hl
          (fun hb => by simpa [Val.noEmptyList, Val.noEmpty] using hne hb)
        rw [Out.ofE_ok_bind g1]
        simp only
        rw [Out.ofE_ok_bind h2]
        simp only
        rw [Out.ofE_ok_bind h3]
        simp only
        have e4' : decItems (dec env n noUpd) item' qi src (hdrSize hdr) (src.ahead (hdr.elim 0 StructSer.size)) c.toNat
            = .ok (a.moved src) := e4
        rw [e4', Out.ok_bind, Out.ofE_ok_bind (a := u) (show checkDataSize d ((a.moved src).size - hdrSize hdr) = .ok u from h5)]
        rfl
    | tuple id inner =>
      simp only [Ser.allowed] at ha
      cases q with
      | none => simp only [dec] at h; cases h
      | some p =>
        simp only [dec] at h ⊢
        obtain ⟨⟨s', q'⟩, h1, h⟩ := Out.ofE_ok' h
        simp only at h
        rw [Out.ofE_ok_bind h1]
        simp only
        split at h
        · cases h
        · rename_i hz
          rw [if_neg hz]
          obtain ⟨a, h2, h⟩ := Out.bind_ok' h
          cases h
          simp only at hl hne
          rw [ih noUpd s' q' b a src rest (preU_allowed ha h1) h2 hl hv hr
            (fun hb => by simpa [Val.noEmptyList, Val.noEmpty] using hne hb), Out.ok_bind]
          rfl
    | lookback id decider keys opts dflt =>
      simp only [Ser.allowed, Bool.and_eq_true] at ha
      cases q with
      | none => simp only [dec] at h; cases h
      | some p =>
        simp only [dec] at h ⊢
        obtain ⟨v, h1, h⟩ := Out.ofE_ok' h
        rw [Out.ofE_ok_bind h1]
        exact decUnion_ext ih hv hr ha.1 ha.2 h hl hne
    | lookahead id ra decider keys opts dflt =>
      simp only [Ser.allowed, Bool.and_eq_true] at ha
      rw [dec] at h ⊢
      obtain ⟨a, h1, h⟩ := Out.bind_ok' h
      obtain ⟨v, h2, h⟩ := Out.ofE_ok' h
      cases n with
      | zero => cases h1
      | succ n =>
        have key : dec env (n + 1) noUpd ra none src = .ok (a.moved src) ∧ ¬ (src.isIo && !ra.sized) = true := by
          rcases Bool.or_eq_true _ _ ▸ ha.1.1 with ho | ho
          · obtain ⟨g1, g2, g3, g4⟩ := solid_ext ho h1 hv
            exact ⟨g4, by simp [g3]⟩
          · simp only [Bool.and_eq_true] at ho
            obtain ⟨p1, p2⟩ := hr.peek ho.1.1
            refine ⟨ih noUpd ra none b a src rest ho.2 h1 (p2 _ _ _ _ _ _ ho.1.2 h1) hv hr (fun hb => by rw [p1] at hb; cases hb), ?_⟩
            cases src <;> simp_all [PSrc.isBuf, PSrc.isIo]
        obtain ⟨g4, g5⟩ := key
        rw [g4, Out.ok_bind, Out.ofE_ok_bind (show first (a.moved src).vals = .ok v from h2)]
        rw [if_neg g5]
        rw [if_neg (by simp [PSrc.isIo])] at h
        have g6 : ¬ a.touched.contains id = true := fun hc => by rw [if_pos hc] at h; cases h
        rw [if_neg (show ¬ (a.moved src).touched.contains id = true from g6)]
        rw [if_neg g6] at h
        cases q with
        | none => cases h
        | some p =>
          obtain ⟨a', h3, h⟩ := Out.bind_ok' h
          cases h
          simp only at hl hne
          simp only [Dec.moved, back_self]
          rw [decUnion_ext ih hv hr ha.1.2 ha.2 h3 hl hne]
          rfl
    | structured id cls =>
      rw [dec] at h ⊢
      obtain ⟨⟨v, a, ser⟩, h1, h⟩ := Out.bind_ok' h
      simp only at h
      split at h
      · cases h
      · rename_i hs
        cases h
        simp only at hl hne
        rw [decObj_ext he ih hv hr h1 hl (fun hb => by simpa [Val.noEmptyList] using hne hb), Out.ok_bind]
        simp only
        rw [if_neg hs]
        rfl
    | compound id ss =>
      simp only [Ser.allowed] at ha
      rw [dec] at h ⊢
      have := decLoop_ext ih hv hr (upd := noUpd) ss 0 _ r ha h hl hne
      rwa [ahead_zero] at this
    | specialized id p ss =>
      simp only [Ser.allowed] at ha
      rw [dec] at h ⊢
      have := decLoopSpec_ext ih hv hr (upd := noUpd) (upd' := upd) ss p 0 0 _ r ha h hl hne
      rwa [ahead_zero] at this

end Verif
