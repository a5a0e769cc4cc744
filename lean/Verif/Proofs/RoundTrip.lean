import Verif.Proofs.RoundTripLeaf
/-
The main induction of the round trip: what was packed is read back as `Kept` says, from every source
that shows the bytes, whatever follows them.
-/
namespace Verif
open Sem

variable {env : Env} {t : Bool}

/-! ### Array headers -/

def isInt : Val → Bool
  | .int _ => true
  | _ => false

theorem storedTok_ints {P : Platform} {nat sg : Bool} {w : Width} {n : Nat} {vs : List Val} (h : vs.all isInt = true) :
    storedTok P nat ⟨n, .int sg w⟩ vs = vs := by
  simp only [storedTok]
  induction vs with
  | nil => rfl
  | cons v vs ih =>
    simp only [List.all_cons, Bool.and_eq_true] at h
    rw [List.map_cons, ih h.2]
    cases v <;> simp_all [isInt, storedOne, Val.asIndex, Val.strip]

theorem storedToks_ints {P : Platform} {nat : Bool} {ts : List Tok} : ∀ {vs : List Val},
    (ts.all fun t => match t.c with | .int _ _ => true | _ => false) = true → vs.all isInt = true → vs.length = numVals ts →
    storedToks P nat ts vs = vs := by
  induction ts with
  | nil => intro vs _ _ h; simp [numVals] at h; simp [storedToks, h]
  | cons t ts ih =>
    intro vs h1 h2 h3
    simp only [List.all_cons, Bool.and_eq_true] at h1
    have hn : numVals (t :: ts) = t.numVals + numVals ts := by simp [numVals]
    rw [hn] at h3
    have ht : (vs.take t.numVals).all isInt = true := by
      rw [List.all_eq_true] at h2 ⊢
      exact fun x hx => h2 x (List.mem_of_mem_take hx)
    have hd : (vs.drop t.numVals).all isInt = true := by
      rw [List.all_eq_true] at h2 ⊢
      exact fun x hx => h2 x (List.mem_of_mem_drop hx)
    simp only [storedToks]
    rw [ih h1.2 hd (by simp; omega)]
    obtain ⟨n, c⟩ := t
    obtain ⟨h1, _⟩ := h1
    cases c <;> simp only [Bool.false_eq_true] at h1
    rw [storedTok_ints ht, List.take_append_drop]

theorem header_kept {P : Platform} {hdr : Option StructSer} {sl : Int} {count size : Nat} {hv : List Val} {b : Bytes}
    (hh : hdrOk hdr sl = true) (h1 : headerPackValues hdr sl count size = .ok hv) (h2 : packOpt P hdr hv = .ok b) :
    keptOpt P hdr hv = .ok hv ∧ ∃ d, headerUnpackValues hdr sl hv = .ok ((count : Int), d) ∧ checkDataSize d size = .ok () := by
  have hints : hv.all isInt = true := by
    unfold headerPackValues at h1
    split at h1
    · split at h1
      · cases h1
      · split at h1 <;> cases h1 <;> rfl
    · split at h1 <;> cases h1 <;> rfl
  have hlen : ∀ h, hdr = some h → hv.length = numVals h.toks := by
    rintro h rfl
    simp only [packOpt, StructSer.pack, structPack] at h2
    split at h2
    · assumption
    · cases h2
  constructor
  · cases hdr with
    | none =>
      simp only [hdrOk, decide_eq_true_eq] at hh
      unfold headerPackValues at h1
      rw [if_pos hh] at h1
      split at h1
      · cases h1
      · simp only [hdrNum, Option.elim] at h1
        cases h1; rfl
    | some h =>
      simp only [hdrOk, Bool.and_eq_true, Option.isNone_iff_eq_none] at hh
      simp only [keptOpt, StructSer.kept]
      rw [storedToks_ints hh.2 hints (hlen h rfl)]
      simp [StructSer.applyActions, hh.1]
  · unfold headerPackValues at h1
    unfold headerUnpackValues
    split at h1
    · rename_i hsl
      rw [if_pos hsl]
      split at h1
      · cases h1
      · rename_i hc
        have hc : (count : Int) = sl := by simpa using hc
        split at h1
        · rename_i hn
          rw [if_pos hn]
          cases h1
          exact ⟨size, by simp [first, bind, Except.bind, needInt, Val.asIndex, Val.strip, hc], by simp [checkDataSize]⟩
        · rename_i hn
          rw [if_neg hn]
          exact ⟨-1, by rw [hc], by simp [checkDataSize]⟩
    · rename_i hsl
      rw [if_neg hsl]
      split at h1
      · rename_i hn
        rw [if_pos hn]
        cases h1
        exact ⟨size, by simp [bind, Except.bind, needInt, Val.asIndex, Val.strip], by simp [checkDataSize]⟩
      · rename_i hn
        rw [if_neg hn]
        cases h1
        exact ⟨-1, by simp [first, bind, Except.bind, needInt, Val.asIndex, Val.strip], by simp [checkDataSize]⟩

/-! ### The induction -/

theorem Kept.shape {l : Bool} {upd : Upd} {s1 s2 : Ser} {q q' : Option PObj} {vs vs' : List Val}
    (h : Kept env t l upd s1 s2 q q' vs vs') : s1.sized = s2.sized ∧ s1.keeper = s2.keeper := by
  cases h <;> first | exact ⟨rfl, rfl⟩ | simp [Ser.sized, Ser.keeper]

/-- Packed and read back with recursion limit `n`. -/
def Inverts (env : Env) (t : Bool) (n : Nat) : Prop :=
  ∀ l upd s1 s2 q q' vs vs' e src rest, Kept env t l upd s1 s2 q q' vs vs' → enc env n s1 q vs = .ok e →
    Views src (e.bytes ++ rest) → (l = true → rest = []) → (t = true → src.isAt = false) →
    dec env n upd s2 q' src = .ok ⟨vs', e.bytes.length, src.ahead e.bytes.length, e.touched⟩

theorem Views.step {src : PSrc} {a b : Bytes} (h : Views src (a ++ b)) : Views (src.next a.length (src.ahead a.length)) b := by
  have := h.next (k := a.length) (Nat.le_refl _)
  rwa [List.drop_length, List.nil_append] at this

theorem ahead_step {src : PSrc} {k j : Nat} : (src.next k (src.ahead k)).ahead j = src.ahead (k + j) := ahead_next

theorem sized_of_enc {α : Type} {s : Ser} {x : Out α} {a : α} (h : (if ¬ s.sized = true then Out.err .attributeError else x) = .ok a) :
    s.sized = true ∧ x = .ok a := by
  split at h
  · cases h
  · rename_i hs; exact ⟨by simpa using hs, h⟩

theorem items_invert {n : Nat} (ih : Inverts env t n) {i1 i2 : Ser} {q1 q2 : Option PObj} {src : PSrc}
    (hsrc : t = true → src.isAt = false) : ∀ items ws e done rest,
    KeptItems env t i1 i2 q1 q2 items ws → encItems (enc env n) i1 q1 items = .ok e →
    Views src (done ++ e.bytes ++ rest) →
    decItems (dec env n noUpd) i2 q2 src done.length (src.ahead done.length) items.length =
      .ok ⟨ws, done.length + e.bytes.length, src.ahead (done.length + e.bytes.length), e.touched⟩ := by
  intro items
  induction items with
  | nil => intro ws e done rest hk h hv; cases hk; cases h; rfl
  | cons v vs ihl =>
    intro ws e done rest hk h hv
    cases hk with
    | cons _ _ _ _ _ _ ws1 ws2 k1 k2 =>
    rw [encItems] at h
    obtain ⟨a, h1, h⟩ := Out.bind_ok' h
    obtain ⟨hsz, h⟩ := sized_of_enc h
    obtain ⟨s1, s2⟩ := k1.shape
    split at h
    · cases h
    · rename_i hst
      obtain ⟨r, h2, h⟩ := Out.bind_ok' h
      cases h
      simp only at hv
      have hv1 : Views src (done ++ (a.bytes ++ (r.bytes ++ rest))) := by
        simpa [List.append_assoc] using hv
      have e1 := ih _ _ _ _ _ _ _ _ _ _ _ k1 h1 hv1.step (by simp) (fun ht => by rw [isAt_next]; exact hsrc ht)
      rw [List.length_cons, decItems, e1, Out.ok_bind, if_neg (by rw [← s1, hsz]; simp)]
      rw [if_neg (by rw [← s2]; exact hst)]
      simp only [ahead_step]
      have := ihl ws2 r (done ++ a.bytes) rest k2 h2 (by simpa [List.append_assoc] using hv1)
      rw [List.length_append] at this
      rw [this, Out.ok_bind]
      simp [Nat.add_assoc]

theorem loop_invert {n : Nat} (ih : Inverts env t n) {src : PSrc} (hsrc : t = true → src.isAt = false) {l : Bool} : ∀ ss vs ws e done rest,
    KeptLoop env t l ss vs ws → encLoop (enc env n) (fun s => .ok (s, none)) (fun _ => []) ss vs = .ok e →
    Views src (done ++ e.bytes ++ rest) → (l = true → rest = []) →
    decLoop (dec env n noUpd) src done.length (src.ahead done.length) ss =
      .ok ⟨ws, done.length + e.bytes.length, src.ahead (done.length + e.bytes.length), e.touched⟩ := by
  intro ss
  induction ss with
  | nil => intro vs ws e done rest hk h hv hl; cases hk; cases h; rfl
  | cons s ss ihl =>
    intro vs ws e done rest hk h hv hl
    cases hk with
    | cons _ _ _ _ ws1 ws2 k1 k2 =>
    rw [encLoop] at h
    obtain ⟨⟨s', q⟩, h0, h⟩ := Out.ofE_ok' h
    cases h0
    obtain ⟨a, h1, h⟩ := Out.bind_ok' h
    obtain ⟨hsz, h⟩ := sized_of_enc h
    obtain ⟨r, h2, h⟩ := Out.bind_ok' h
    cases h
    simp only at hv
    have hv1 : Views src (done ++ (a.bytes ++ (r.bytes ++ rest))) := by
      simpa [List.append_assoc] using hv
    have e1 := ih _ _ _ _ _ _ _ _ _ _ _ k1 h1 hv1.step (fun hb => by
      simp only [Bool.and_eq_true, List.isEmpty_iff] at hb
      obtain ⟨hb1, rfl⟩ := hb
      cases h2
      simp [hl hb1]) (fun ht => by rw [isAt_next]; exact hsrc ht)
    rw [decLoop, e1, Out.ok_bind, if_neg (by rw [hsz]; simp)]
    simp only [ahead_step]
    have := ihl _ ws2 r (done ++ a.bytes) rest k2 h2 (by simpa [List.append_assoc] using hv1) hl
    rw [List.length_append] at this
    rw [this, Out.ok_bind]
    simp [Nat.add_assoc]

theorem spec_invert {n : Nat} (ih : Inverts env t n) {src : PSrc} (hsrc : t = true → src.isAt = false) {l : Bool} {upd : Upd} {p : PObj} :
    ∀ ss vs ws e done rest p' k,
    KeptSpec env t l upd p p' k ss vs ws → encLoop (enc env n) (fun s => pre s p) touch ss vs = .ok e →
    Views src (done ++ e.bytes ++ rest) → (l = true → rest = []) →
    decLoopSpec (dec env n noUpd) upd src p' k done.length (src.ahead done.length) ss =
      .ok ⟨ws, done.length + e.bytes.length, src.ahead (done.length + e.bytes.length), e.touched⟩ := by
  intro ss
  induction ss with
  | nil => intro vs ws e done rest p' k hk h hv hl; cases hk; cases h; rfl
  | cons s ss ihl =>
    intro vs ws e done rest p' k hk h hv hl
    cases hk with
    | cons _ _ _ _ p2 _ _ _ i1 i2 q1 q2 _ ws1 ws2 g1 g2 k1 g3 k2 =>
    rw [encLoop] at h
    obtain ⟨⟨s', q⟩, h0, h⟩ := Out.ofE_ok' h
    rw [g1] at h0
    cases h0
    obtain ⟨a, h1, h⟩ := Out.bind_ok' h
    obtain ⟨hsz, h⟩ := sized_of_enc h
    obtain ⟨r, h2, h⟩ := Out.bind_ok' h
    cases h
    simp only at hv
    have hv1 : Views src (done ++ (a.bytes ++ (r.bytes ++ rest))) := by
      simpa [List.append_assoc] using hv
    have e1 := ih _ _ _ _ _ _ _ _ _ _ _ k1 h1 hv1.step (fun hb => by
      simp only [Bool.and_eq_true, List.isEmpty_iff] at hb
      obtain ⟨hb1, rfl⟩ := hb
      cases h2
      simp [hl hb1]) (fun ht => by rw [isAt_next]; exact hsrc ht)
    rw [decLoopSpec, Out.ofE_ok_bind g2]
    simp only
    rw [e1, Out.ok_bind]
    simp only
    rw [Out.ofE_ok_bind g3, if_neg (by rw [← k1.shape.1, hsz]; simp)]
    simp only [ahead_step]
    have := ihl _ ws2 r (done ++ a.bytes) rest p2 _ k2 h2 (by simpa [List.append_assoc] using hv1) hl
    rw [List.length_append] at this
    rw [this, Out.ok_bind]
    simp [Nat.add_assoc]

theorem obj_invert {n : Nat} (ih : Inverts env t n) {src : PSrc} (hsrc : t = true → src.isAt = false) {l : Bool} {cls : ClassId} {v v' : Val}
    {e : Enc} {ser : Ser} {rest : Bytes} (hk : KeptObj env t l cls v v') (h : encObj env (enc env n) v = .ok (e, ser))
    (hv : Views src (e.bytes ++ rest)) (hl : l = true → rest = []) :
    ∃ vals, decObj env (dec env n) cls src = .ok (v', ⟨vals, e.bytes.length, src.ahead e.bytes.length, e.touched⟩, ser) := by
  cases hk with
  | mk _ _ attrs ci _ s1 q1 s2 q2 vals vals' h1 h2 h3 h4 h5 h6 =>
  simp only [encObj] at h
  have ho : objSer env cls none = .ok (ci, ci.serializer) := by simp [objSer, h1]
  rw [Out.ofE_ok_bind ho] at h
  simp only at h
  rw [Out.ofE_ok_bind h3] at h
  simp only at h
  rw [Out.ofE_ok_bind h2] at h
  obtain ⟨r, g1, h⟩ := Out.bind_ok' h
  cases h
  have e1 := ih _ _ _ _ _ _ _ _ _ _ _ h5 g1 hv hl hsrc
  refine ⟨vals', ?_⟩
  unfold decObj
  rw [h1]
  simp only
  rw [Out.ofE_ok_bind h4]
  simp only
  rw [e1, Out.ok_bind]
  simp only
  rw [Out.ofE_ok_bind h6]

theorem encLeaf_ok {x : Except Err Bytes} {e : Enc} (h : encLeaf x = .ok e) : x = .ok e.bytes ∧ e.touched = [] := by
  unfold encLeaf at h
  split at h
  · cases h; exact ⟨rfl, rfl⟩
  · cases h

theorem solid_fuel {n : Nat} {upd : Upd} {s : Ser} {q : Option PObj} {src : PSrc} (hs : s.solid = true) :
    dec env (n + 1) upd s q src = dec env 1 noUpd s q src := by
  cases s <;> simp [Ser.solid] at hs <;> simp only [dec]

theorem inverts (env : Env) (t : Bool) : ∀ n, Inverts env t n := by
  intro n
  induction n with
  | zero => intro l upd s1 s2 q q' vs vs' e src rest _ h; cases h
  | succ n ih =>
    intro l upd s1 s2 q q' vs vs' e src rest hk h hv hl hsrc
    obtain ⟨eb, et⟩ := e
    simp only at hv ⊢
    cases hk with
    | null => simp only [enc] at h; cases h; simp [dec, ahead_zero]
    | struct _ _ _ _ s _ _ hk =>
      simp only [enc] at h
      obtain ⟨h1, h2⟩ := encLeaf_ok h
      simp only at h1 h2
      subst h2
      obtain ⟨g1, g2⟩ := structDec_kept h1 hv
      simp only [dec, g2, hk, Except.map, bind, Except.bind, Out.ofE, g1]
    | dynChar _ _ _ _ id st v b hc hb =>
      simp only [enc] at h
      obtain ⟨h1, h2⟩ := encLeaf_ok h
      simp only at h1 h2
      subst h2
      simp only [dec]
      rw [dynChar_kept hc hb h1 hv]; rfl
    | consuming _ _ _ id v b hb =>
      simp only [enc] at h
      obtain ⟨h1, h2⟩ := encLeaf_ok h
      simp only at h1 h2
      subst h2
      rw [hl rfl, List.append_nil] at hv
      simp only [dec]
      rw [(consuming_kept hb h1 hv).2]
    | terminated _ _ _ _ id term v b ht hb hn =>
      simp only [enc] at h
      obtain ⟨h1, h2⟩ := encLeaf_ok h
      simp only at h1 h2
      subst h2
      simp only [dec]
      rw [term_kept hb hn h1 hv (hsrc ht)]; rfl
    | net _ _ _ _ id v b hb hle =>
      simp only [enc] at h
      obtain ⟨h1, h2⟩ := encLeaf_ok h
      simp only at h1 h2
      subst h2
      simp only [dec]
      rw [net_kept hb hle h1 hv]; rfl
    | unicode _ _ _ _ inner en de v b ws _ k1 k2 k3 =>
      simp only [enc] at h
      rw [Out.ofE_ok_bind (a := b) (by simpa [first, bind, Except.bind] using k1)] at h
      have e1 := ih _ _ _ _ _ _ _ _ _ _ _ k2 h hv hl hsrc
      simp only [dec]
      rw [e1, Out.ok_bind]
      simp only
      rw [Out.ofE_ok_bind k3]
    | array _ _ p p' id hdr item sl v items ws i1 i2 q1 q2 hh k1 k2 k3 k4 =>
      simp only [enc] at h
      rw [Out.ofE_ok_bind k2] at h
      simp only at h
      rw [Out.ofE_ok_bind (show first [v] = .ok v from rfl), Out.ofE_ok_bind k1] at h
      obtain ⟨r, h1, h⟩ := Out.bind_ok' h
      obtain ⟨hvals, h2, h⟩ := Out.ofE_ok' h
      obtain ⟨hb, h3, h⟩ := Out.ofE_ok' h
      cases h
      obtain ⟨g1, d, g2, g3⟩ := header_kept hh h2 h3
      have hv1 : Views src (hb ++ (r.bytes ++ rest)) := by rwa [List.append_assoc] at hv
      obtain ⟨g4, g5⟩ := structDecOpt_kept (env := env) h3 g1 hv1
      simp only [dec]
      rw [Out.ofE_ok_bind g5]
      simp only
      rw [Out.ofE_ok_bind g2]
      simp only
      rw [Out.ofE_ok_bind k3]
      simp only
      have hz : hdrSize hdr = hb.length := by rw [g4]; rfl
      have := items_invert ih hsrc items ws r hb rest k4 h1 hv
      rw [hz, Int.toNat_natCast, this, Out.ok_bind]
      simp only
      rw [Nat.add_sub_cancel_left, Out.ofE_ok_bind g3]
      simp
    | staticArr _ _ _ _ count item ser v items ws k1 k2 =>
      simp only [enc] at h
      obtain ⟨h1, h2⟩ := encLeaf_ok h
      simp only at h1 h2
      subst h2
      obtain ⟨its, h3, h1⟩ := Except.bind_ok' h1
      have : its = items := by
        unfold staticArrPrep at h3
        obtain ⟨v', g1, h3⟩ := Except.bind_ok' h3
        cases g1
        obtain ⟨len, g2, h3⟩ := Except.bind_ok' h3
        split at h3
        · cases h3
        · rw [k1] at h3; cases h3; rfl
      subst this
      obtain ⟨g1, g2⟩ := structDecOpt_kept (env := env) h1 k2 hv
      simp only [dec, g2, bind, Except.bind, Out.ofE, g1]
    | dynArr _ _ _ _ id cnt item v items ws hc hi hs hb hp ha k1 k2 =>
      simp only [enc] at h
      obtain ⟨h1, h2⟩ := encLeaf_ok h
      simp only at h1 h2
      subst h2
      obtain ⟨tk, hi1, hi2⟩ := hi
      have := dynArr_kept (env := env) hc hi1 hi2 hs hb hp ha k1 k2 h1 hv
      exact congrArg Out.ofE this
    | tuple _ _ p p' id inner v items ws i1 i2 q1 q2 k1 k2 k3 hz k4 =>
      simp only [enc] at h
      rw [Out.ofE_ok_bind k2] at h
      simp only at h
      rw [Out.ofE_ok_bind k1] at h
      obtain ⟨r, h1, h⟩ := Out.bind_ok' h
      cases h
      have e1 := ih _ _ _ _ _ _ _ _ _ _ _ k4 h1 hv hl hsrc
      simp only [dec]
      rw [Out.ofE_ok_bind k3]
      simp only
      rw [if_neg (by simp [hz]), e1, Out.ok_bind]
    | lookback _ _ p p' id decider keys opts dflt r r' s i1 i2 q1 q2 _ _ k1 k2 k3 k4 k5 k6 hz k7 =>
      simp only [enc] at h
      rw [Out.ofE_ok_bind k1] at h
      unfold encUnion at h
      rw [Out.ofE_ok_bind k3, Out.ofE_ok_bind k5] at h
      simp only at h
      obtain ⟨a, h1, h⟩ := Out.bind_ok' h
      obtain ⟨hsz, h⟩ := sized_of_enc h
      cases h
      have e1 := ih _ _ _ _ _ _ _ _ _ _ _ k7 h1 hv hl hsrc
      simp only [dec]
      rw [Out.ofE_ok_bind k2]
      unfold decUnion
      rw [Out.ofE_ok_bind k4, Out.ofE_ok_bind k6]
      simp only
      rw [if_neg (by simp [hz]), e1, Out.ok_bind, if_neg (by rw [← k7.shape.1, hsz]; simp)]
    | lookahead _ _ p p' id ra decider keys opts dflt r s i1 i2 q1 q2 _ _ hs k1 k2 k3 k5 k6 hz k7 =>
      simp only [enc] at h
      rw [Out.ofE_ok_bind k1] at h
      unfold encUnion at h
      rw [Out.ofE_ok_bind k2, Out.ofE_ok_bind k5] at h
      simp only at h
      obtain ⟨a, h1, h⟩ := Out.bind_ok' h
      obtain ⟨hsz, h⟩ := sized_of_enc h
      cases h
      have e1 := ih _ _ _ _ _ _ _ _ _ _ _ k7 h1 hv hl hsrc
      obtain ⟨hr, key, g1, g2, g3⟩ := k3 _ _ h1
      cases n with
      | zero => cases h1
      | succ m =>
        obtain ⟨z1, z2, z3, z4⟩ := solid_ext (n := 0) hs g1 hv
        have z5 : dec env (m + 1) noUpd ra none src = .ok (hr.moved src) := by rw [solid_fuel hs]; exact z4
        rw [dec, z5, Out.ok_bind, Out.ofE_ok_bind (show first (hr.moved src).vals = .ok key from g2)]
        rw [if_neg (by simp [z3]), if_neg (by simp [Dec.moved, z2])]
        simp only
        have hback : src.back (hr.moved src).pos (hr.moved src).size = src := back_self
        rw [hback]
        unfold decUnion
        rw [Out.ofE_ok_bind g3, Out.ofE_ok_bind k6]
        simp only
        rw [if_neg (by simp [hz]), e1, Out.ok_bind, if_neg (by rw [← k7.shape.1, hsz]; simp), Out.ok_bind]
        simp [Dec.moved, z2]
    | skip => simp only [enc] at h; cases h; simp [dec, ahead_zero]
    | structured _ _ _ _ id c1 cls v v' k1 =>
      simp only [enc] at h
      obtain ⟨⟨r, ser⟩, h1, h⟩ := Out.bind_ok' h
      simp only at h
      obtain ⟨hsz, h⟩ := sized_of_enc h
      cases h
      obtain ⟨vals, e1⟩ := obj_invert ih hsrc k1 h1 hv hl
      simp only [dec]
      rw [e1, Out.ok_bind]
      simp only
      rw [if_neg (by simp [hsz])]
    | compound _ _ _ _ id ss _ _ k1 =>
      simp only [enc] at h
      have := loop_invert ih hsrc ss vs vs' _ [] rest k1 h hv hl
      simp only [dec]
      simpa [ahead_zero] using this
    | specialized _ _ _ _ id p p' ss _ _ k1 =>
      simp only [enc] at h
      have := spec_invert ih hsrc ss vs vs' _ [] rest p' 0 k1 h hv hl
      simp only [dec]
      simpa [ahead_zero] using this

end Verif
