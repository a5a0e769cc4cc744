import Verif.Proofs.RefinePack
import Verif.Spec.Instances
/-
Packing depends on the object being packed only through the attributes its deciders look at.
-/
namespace Verif
open Sem

/-- Serializers that differ at most in the partial object they were specialized for. -/
inductive SameSer (names : List Name) : Ser → Ser → Prop
  | refl (s) : SameSer names s s
  | spec (id p q ss) (h : Agrees names p q) : SameSer names (.specialized id p ss) (.specialized id q ss)

inductive SameQ (names : List Name) : Option PObj → Option PObj → Prop
  | none : SameQ names none none
  | some (p q) (h : Agrees names p q) : SameQ names (some p) (some q)

theorem SameSer.numValues {names : List Name} {s s' : Ser} (h : SameSer names s s') : s.numValues = s'.numValues := by
  cases h <;> simp [Ser.numValues]

theorem SameSer.sized {names : List Name} {s s' : Ser} (h : SameSer names s s') : s.sized = s'.sized := by
  cases h <;> simp [Ser.sized]

theorem SameSer.keeper {names : List Name} {s s' : Ser} (h : SameSer names s s') : s.keeper = s'.keeper := by
  cases h <;> simp [Ser.keeper]

theorem Agrees.refl (names : List Name) (p : PObj) : Agrees names p p := ⟨rfl, rfl, fun _ _ => rfl⟩

theorem SameQ.refl (names : List Name) (q : Option PObj) : SameQ names q q := by
  cases q
  · exact .none
  · exact .some _ _ (.refl _ _)

/-- What `prepack` gives for two objects. -/
inductive SamePre (names : List Name) : Except Err (Ser × Option PObj) → Except Err (Ser × Option PObj) → Prop
  | err (e) : SamePre names (.error e) (.error e)
  | ok (s s' q q') (hs : SameSer names s s') (hq : SameQ names q q') (hl : s.looksAt names) : SamePre names (.ok (s, q)) (.ok (s', q'))

theorem condPick_looks {names : List Name} {s s' : Ser} {defs : List Val} {r : Val} (h : condPick s defs r = .ok s') (hl : s.looksAt names) :
    s'.looksAt names := by
  unfold condPick at h
  repeat' split at h
  all_goals cases h
  · exact hl
  · simp [Ser.looksAt]

theorem pre_agrees {names : List Name} {s : Ser} {p q : PObj} (hl : s.looksAt names) (h : Agrees names p q) : SamePre names (pre s p) (pre s q) := by
  cases s with
  | cond ser c defs =>
    simp only [Ser.looksAt] at hl
    simp only [pre, bind, Except.bind, hl.1 p q h]
    cases c q with
    | error e => exact .err e
    | ok r =>
      simp only
      cases hc : condPick ser defs r with
      | error e => exact .err e
      | ok s' => exact .ok _ _ _ _ (.refl _) .none (condPick_looks hc hl.2)
  | selfT id =>
    simp only [pre, h.1]
    exact .ok _ _ _ _ (.refl _) .none (by simp [Ser.looksAt])
  | compound id ss =>
    simp only [Ser.looksAt] at hl
    simp only [pre]
    split
    · exact .ok _ _ _ _ (.spec _ _ _ _ h) .none (by simpa [Ser.looksAt] using hl)
    · exact .ok _ _ _ _ (.refl _) .none (by simpa [Ser.looksAt] using hl)
  | array => exact .ok _ _ _ _ (.refl _) (.some _ _ h) hl
  | tuple => exact .ok _ _ _ _ (.refl _) (.some _ _ h) hl
  | lookback => exact .ok _ _ _ _ (.refl _) (.some _ _ h) hl
  | lookahead => exact .ok _ _ _ _ (.refl _) (.some _ _ h) hl
  | _ => exact .ok _ _ _ _ (.refl _) .none hl

theorem looksAtList_mem {names : List Name} : ∀ {ss : List Ser}, Ser.looksAtList names ss → ∀ s ∈ ss, s.looksAt names
  | [], _, s, hs => by simp at hs
  | x :: xs, h, s, hs => by
    simp only [Ser.looksAtList] at h
    rcases List.mem_cons.mp hs with rfl | hs
    · exact h.1
    · exact looksAtList_mem h.2 s hs

theorem unionPick_looks {names : List Name} {keys : List Val} {opts : List Ser} {dflt s : Ser} {r : Val}
    (h : unionPick keys opts dflt r = .ok s) (h1 : Ser.looksAtList names opts) (h2 : dflt.looksAt names) : s.looksAt names := by
  unfold unionPick at h
  split at h
  · cases h
  · split at h
    · rename_i s' hs
      cases h
      simp only [lookupOpt, Option.map_eq_some_iff] at hs
      obtain ⟨⟨k, x⟩, hs, rfl⟩ := hs
      have := List.mem_of_find?_eq_some hs
      exact looksAtList_mem h1 _ (List.of_mem_zip this).2
    · split at h
      · cases h
      · cases h; exact h2

/-- `encN` gives the same for serializers and partial objects that agree. -/
def EncAgrees (names : List Name) (encN : Ser → Option PObj → List Val → Out Enc) : Prop :=
  ∀ s s' q q' vs, SameSer names s s' → SameQ names q q' → s.looksAt names → encN s q vs = encN s' q' vs

theorem encLoop_agrees {names : List Name} {encN : Ser → Option PObj → List Val → Out Enc} (hN : EncAgrees names encN)
    {preF preG : Ser → Except Err (Ser × Option PObj)} {tch : Ser → List SerId}
    (hp : ∀ s, s.looksAt names → SamePre names (preF s) (preG s)) :
    ∀ (ss : List Ser), Ser.looksAtList names ss → ∀ vs, encLoop encN preF tch ss vs = encLoop encN preG tch ss vs
  | [], _, _ => rfl
  | s :: ss, hl, vs => by
    simp only [Ser.looksAtList] at hl
    rw [encLoop, encLoop]
    have h := hp s hl.1
    generalize preF s = x at h
    generalize preG s = y at h
    cases h with
    | err e => rfl
    | ok a a' q q' hs hq hla =>
      show ((encN a q (vs.take a.numValues)) >>= _) = (encN a' q' (vs.take a'.numValues)) >>= _
      rw [hN a a' q q' _ hs hq hla, hs.numValues, hs.sized]
      simp only [encLoop_agrees hN hp ss hl.2]

theorem encItems_agrees {names : List Name} {encN : Ser → Option PObj → List Val → Out Enc} (hN : EncAgrees names encN)
    {s s' : Ser} {q q' : Option PObj} (hs : SameSer names s s') (hq : SameQ names q q') (hl : s.looksAt names) :
    ∀ (vs : List Val), encItems encN s q vs = encItems encN s' q' vs
  | [] => rfl
  | v :: vs => by
    rw [encItems, encItems, hN s s' q q' _ hs hq hl, hs.sized, hs.keeper]
    simp only [encItems_agrees hN hs hq hl vs]

theorem encUnion_agrees {names : List Name} {encN : Ser → Option PObj → List Val → Out Enc} (hN : EncAgrees names encN)
    {keys : List Val} {opts : List Ser} {dflt : Ser} {p q : PObj} (h : Agrees names p q) (h1 : Ser.looksAtList names opts) (h2 : dflt.looksAt names)
    (r : Val) (vs : List Val) : encUnion encN keys opts dflt p r vs = encUnion encN keys opts dflt q r vs := by
  unfold encUnion
  cases hu : unionPick keys opts dflt r with
  | error e => rfl
  | ok s =>
    show (Out.ofE (pre s p) >>= _) = (Out.ofE (pre s q) >>= _)
    have hpre := pre_agrees (unionPick_looks hu h1 h2) h
    generalize pre s p = x at hpre
    generalize pre s q = y at hpre
    cases hpre with
    | err e => rfl
    | ok a a' q1 q2 hs hq hla =>
      show (encN a q1 vs >>= _) = (encN a' q2 vs >>= _)
      rw [hN a a' q1 q2 _ hs hq hla, hs.sized]

theorem enc_agrees (env : Env) (names : List Name) : ∀ n, EncAgrees names (enc env n)
  | 0 => fun _ _ _ _ _ _ _ _ => rfl
  | n + 1 => by
    have ih := enc_agrees env names n
    intro s s' q q' vs hs hq hl
    cases hs with
    | spec id p p' ss h =>
      simp only [Ser.looksAt] at hl
      rw [enc, enc]
      exact encLoop_agrees ih (fun s hs => pre_agrees hs h) ss hl vs
    | refl =>
      cases s with
      | unicode inner en de =>
        rw [enc, enc]
      | array id hdr item sl =>
        simp only [Ser.looksAt] at hl
        cases hq with
        | none => rfl
        | some p p' h =>
          rw [enc, enc]
          simp only
          have hpre := pre_agrees hl h
          generalize pre item p = x at hpre
          generalize pre item p' = y at hpre
          cases hpre with
          | err e => rfl
          | ok a a' q1 q2 hs hq hla =>
            simp only [Out.ofE, bind, Out.bind, encItems_agrees ih hs hq hla]
      | tuple id inner =>
        simp only [Ser.looksAt] at hl
        cases hq with
        | none => rfl
        | some p p' h =>
          match vs with
          | [] => rfl
          | _ :: _ :: _ => rfl
          | [v] =>
            rw [enc, enc]
            simp only
            have hpre := pre_agrees hl h
            generalize pre inner p = x at hpre
            generalize pre inner p' = y at hpre
            cases hpre with
            | err e => rfl
            | ok a a' q1 q2 hs hq hla =>
              simp only [Out.ofE, bind, Out.bind]
              split
              · rw [ih a a' q1 q2 _ hs hq hla]
              · rfl
              · rfl
      | lookback id d keys opts dflt =>
        simp only [Ser.looksAt] at hl
        cases hq with
        | none => rfl
        | some p p' h =>
          rw [enc, enc]
          simp only [hl.1 p p' h, encUnion_agrees ih h hl.2.1 hl.2.2]
      | lookahead id ra d keys opts dflt =>
        simp only [Ser.looksAt] at hl
        cases hq with
        | none => rfl
        | some p p' h =>
          rw [enc, enc]
          simp only [hl.1 p p' h, encUnion_agrees ih h hl.2.1 hl.2.2]
      | _ => rfl

/-- Two objects of one class with the same values in the attributes the class's serializer packs and looks at. -/
theorem encObj_agrees (env : Env) (n : Nat) (c : ClassId) (bo : Option ByteOrder) (as bs : List (Name × Val)) {ci : ClassInfo} {ser : Ser}
    (hs : objSer env c bo = .ok (ci, ser)) (hl : ser.looksAt ci.attrs) (h : ∀ a ∈ ci.attrs, getAttr? as a = getAttr? bs a) :
    encObj env (enc env n) (.obj c bo as) = encObj env (enc env n) (.obj c bo bs) := by
  have hg : ∀ names : List Name, (∀ a ∈ names, getAttr? as a = getAttr? bs a) → getAttrs as names = getAttrs bs names := by
    intro names
    induction names with
    | nil => intro _; rfl
    | cons a names ih =>
      intro hh
      rw [getAttrs, getAttrs, hh a (by simp), ih fun b hb => hh b (by simp [hb])]
  simp only [encObj, hs]
  have hpre := pre_agrees (p := ⟨c, false, as⟩) (q := ⟨c, false, bs⟩) hl ⟨rfl, rfl, h⟩
  show (Out.ofE (pre ser ⟨c, false, as⟩) >>= _) = (Out.ofE (pre ser ⟨c, false, bs⟩) >>= _)
  generalize pre ser ⟨c, false, as⟩ = x at hpre
  generalize pre ser ⟨c, false, bs⟩ = y at hpre
  cases hpre with
  | err e => rfl
  | ok a a' q1 q2 hs hq hla =>
    show (Out.ofE (getAttrs as ci.attrs) >>= _) = (Out.ofE (getAttrs bs ci.attrs) >>= _)
    rw [hg _ h]
    simp only [enc_agrees env ci.attrs n a a' q1 q2 _ hs hq hla]

end Verif
