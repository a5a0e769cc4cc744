import Verif.Proofs.LastWins
import Verif.Proofs.HintLemmas
/-
Helper lemmas: the identities given to serializer objects have no influence on which serializers are made.
-/
namespace Verif
open Spec

variable {cf : ClassId → Bool} {id : SerId}

mutual
theorem isFinal_anon : ∀ s : Ser, s.anon.isFinal cf = s.isFinal cf
  | .unicode inner _ _ => by simp only [Ser.anon, Ser.isFinal]; exact isFinal_anon inner
  | .tuple _ inner => by simp only [Ser.anon, Ser.isFinal]; exact isFinal_anon inner
  | .lookback _ _ _ opts _ => by simp only [Ser.anon, Ser.isFinal]; exact anyFinal_anon opts
  | .lookahead _ _ _ _ opts _ => by simp only [Ser.anon, Ser.isFinal]; exact anyFinal_anon opts
  | .cond s _ _ => by simp only [Ser.anon, Ser.isFinal]; exact isFinal_anon s
  | .compound _ ss => by simp only [Ser.anon, Ser.isFinal]; exact lastFinal_anon ss
  | .specialized _ _ ss => by simp only [Ser.anon, Ser.isFinal]; exact lastFinal_anon ss
  | .null => rfl
  | .struct _ => rfl
  | .dynChar .. => rfl
  | .consuming _ => rfl
  | .terminated .. => rfl
  | .net _ => rfl
  | .array .. => rfl
  | .staticArr .. => rfl
  | .dynArr .. => rfl
  | .skip _ => rfl
  | .structured .. => rfl
  | .selfT _ => rfl
theorem anyFinal_anon : ∀ ss : List Ser, Ser.anyFinal cf (Ser.anonList ss) = Ser.anyFinal cf ss
  | [] => rfl
  | s :: ss => by simp only [Ser.anonList, Ser.anyFinal, isFinal_anon s, anyFinal_anon ss]
theorem lastFinal_anon : ∀ ss : List Ser, Ser.lastFinal cf (Ser.anonList ss) = Ser.lastFinal cf ss
  | [] => rfl
  | [s] => by simp only [Ser.anonList, Ser.lastFinal, isFinal_anon s]
  | _ :: t :: ss => by simpa only [Ser.anonList, Ser.lastFinal] using lastFinal_anon (t :: ss)
end

mutual
theorem numValues_anon : ∀ s : Ser, s.anon.numValues = s.numValues
  | .cond s _ _ => by simp only [Ser.anon, Ser.numValues]; exact numValues_anon s
  | .compound _ ss => by simp only [Ser.anon, Ser.numValues]; exact numValuesList_anon ss
  | .specialized _ _ ss => by simp only [Ser.anon, Ser.numValues]; exact numValuesList_anon ss
  | .unicode .. => rfl
  | .tuple .. => rfl
  | .lookback .. => rfl
  | .lookahead .. => rfl
  | .null => rfl
  | .struct _ => rfl
  | .dynChar .. => rfl
  | .consuming _ => rfl
  | .terminated .. => rfl
  | .net _ => rfl
  | .array .. => rfl
  | .staticArr .. => rfl
  | .dynArr .. => rfl
  | .skip _ => rfl
  | .structured .. => rfl
  | .selfT _ => rfl
theorem numValuesList_anon : ∀ ss : List Ser, Ser.numValuesList (Ser.anonList ss) = Ser.numValuesList ss
  | [] => rfl
  | s :: ss => by simp only [Ser.anonList, Ser.numValuesList, numValues_anon s, numValuesList_anon ss]
end

mutual
theorem anon_anon : ∀ s : Ser, s.anon.anon = s.anon
  | .unicode inner _ _ => by simp only [Ser.anon, anon_anon inner]
  | .array _ _ item _ => by simp only [Ser.anon, anon_anon item]
  | .tuple _ inner => by simp only [Ser.anon, anon_anon inner]
  | .lookback _ _ _ opts d => by simp only [Ser.anon, anonList_anon opts, anon_anon d]
  | .lookahead _ ra _ _ opts d => by simp only [Ser.anon, anonList_anon opts, anon_anon d, anon_anon ra]
  | .cond s _ _ => by simp only [Ser.anon, anon_anon s]
  | .compound _ ss => by simp only [Ser.anon, anonList_anon ss]
  | .specialized _ _ ss => by simp only [Ser.anon, anonList_anon ss]
  | .null => rfl
  | .struct _ => rfl
  | .dynChar .. => rfl
  | .consuming _ => rfl
  | .terminated .. => rfl
  | .net _ => rfl
  | .staticArr .. => rfl
  | .dynArr .. => rfl
  | .skip _ => rfl
  | .structured .. => rfl
  | .selfT _ => rfl
theorem anonList_anon : ∀ ss : List Ser, Ser.anonList (Ser.anonList ss) = Ser.anonList ss
  | [] => rfl
  | s :: ss => by simp only [Ser.anonList, anon_anon s, anonList_anon ss]
end

theorem isCompound_anon (s : Ser) : s.anon.isCompound = s.isCompound := by cases s <;> rfl
theorem isUnion_anon (s : Ser) : s.anon.isUnion = s.isUnion := by cases s <;> rfl
theorem isPad_anon (s : Ser) : s.anon.isPad = s.isPad := by cases s <;> rfl

theorem anonList_map (ss : List Ser) : Ser.anonList ss = ss.map Ser.anon := by
  induction ss with
  | nil => rfl
  | cons s ss ih => rw [Ser.anonList, ih]; rfl

theorem mkCompound_anon (ss : List Ser) : (mkCompound id ss).map Ser.anon = mkCompound [] (Ser.anonList ss) := by
  unfold mkCompound
  have : (Ser.anonList ss).any Ser.isCompound = ss.any Ser.isCompound := by
    rw [anonList_map, List.any_map]
    congr 1
    funext s
    exact isCompound_anon s
  rw [this]
  split <;> rfl

/-- Neither a `NullSerializer` nor two struct serializers. -/
theorem addSimple_other {a b : Ser} (ha : a ≠ .null) (hb : b ≠ .null) (h : ∀ x y, a = .struct x → b = .struct y → False) :
    a.addSimple cf id b = if a.isFinal cf then .error .typeError else mkCompound id [a, b] := by
  unfold Ser.addSimple
  split
  · exact absurd rfl ha
  · exact absurd rfl hb
  · exact (h _ _ rfl rfl).elim
  · rfl

theorem anon_null {s : Ser} (h : s.anon = .null) : s = .null := by cases s <;> first | rfl | cases h
theorem anon_struct {s : Ser} {x : StructSer} (h : s.anon = .struct x) : s = .struct x := by
  cases s <;> first | exact h | cases h

theorem addSimple_anon (a b : Ser) : (a.addSimple cf id b).map Ser.anon = a.anon.addSimple cf [] b.anon := by
  by_cases ha : a = .null
  · subst ha; cases b <;> rfl
  by_cases hb : b = .null
  · subst hb; cases a <;> first | rfl | exact absurd rfl ha
  by_cases hs : ∃ x y, a = .struct x ∧ b = .struct y
  · obtain ⟨x, y, rfl, rfl⟩ := hs
    show Except.map Ser.anon (x.add y >>= fun s => Except.ok (Ser.struct s)) = (x.add y >>= fun s => Except.ok (Ser.struct s))
    cases x.add y <;> rfl
  · have hs' : ∀ x y, a = .struct x → b = .struct y → False := fun x y h1 h2 => hs ⟨x, y, h1, h2⟩
    rw [addSimple_other ha hb hs', addSimple_other (fun h => ha (anon_null h)) (fun h => hb (anon_null h))
      (fun x y h1 h2 => hs' x y (anon_struct h1) (anon_struct h2)), isFinal_anon]
    split
    · rfl
    · exact mkCompound_anon [a, b]

theorem anonList_append (xs ys : List Ser) : Ser.anonList (xs ++ ys) = Ser.anonList xs ++ Ser.anonList ys := by
  simp [anonList_map]

theorem Except.map_bind_eq {x : Except Err α} {g : α → β} {f : α → Except Err γ} {f' : β → Except Err δ} {k : γ → δ}
    {y : Except Err β} (hx : x.map g = y) (hf : ∀ a, x = .ok a → (f a).map k = f' (g a)) : (x >>= f).map k = (y >>= f') := by
  subst hx
  cases x with
  | error e => rfl
  | ok a => exact hf a rfl

theorem addImpl_anon (front : List Ser) (last : Ser) (cand : List Ser) :
    (addImpl cf id front last cand).map Ser.anonList = addImpl cf [] (Ser.anonList front) last.anon (Ser.anonList cand) := by
  induction cand generalizing front last with
  | nil =>
    simp only [addImpl, Ser.anonList, Except.map, anonList_append]
  | cons c cs ih =>
    rw [addImpl, Ser.anonList, addImpl]
    refine Except.map_bind_eq (addSimple_anon last c) fun j hj => ?_
    rw [isCompound_anon]
    split
    · rw [ih, anonList_append]; rfl
    · rw [ih]

theorem anonList_reverse (xs : List Ser) : (Ser.anonList xs).reverse = Ser.anonList xs.reverse := by
  simp [anonList_map]

/-- Adding up does not depend on identities. -/
theorem add_anon (a b : Ser) : (a.add cf id b).map Ser.anon = a.anon.add cf [] b.anon := by
  have key : ∀ ss ss' : Except Err (List Ser), ss.map Ser.anonList = ss' →
      (ss >>= fun xs => mkCompound id xs).map Ser.anon = (ss' >>= fun xs => mkCompound [] xs) :=
    fun ss ss' h => Except.map_bind_eq h fun xs _ => mkCompound_anon xs
  have comp : ∀ (i : SerId) (xs : List Ser) (b : Ser), (∀ j ys, b ≠ .compound j ys) →
      ((Ser.compound i xs).add cf id b).map Ser.anon = (Ser.compound i xs).anon.add cf [] b.anon := by
    intro i xs b hb
    have e1 : (Ser.compound i xs).add cf id b = (match xs.reverse with
        | [] => .error .indexError
        | last :: front => addImpl cf id front.reverse last [b] >>= fun x => mkCompound id x) := by
      cases b <;> first | rfl | exact absurd rfl (hb _ _)
    have e2 : (Ser.compound i xs).anon.add cf [] b.anon = (match (Ser.anonList xs).reverse with
        | [] => .error .indexError
        | last :: front => addImpl cf [] front.reverse last [b.anon] >>= fun x => mkCompound [] x) := by
      cases b <;> first | rfl | exact absurd rfl (hb _ _)
    rw [e1, e2, anonList_reverse]
    cases xs.reverse with
    | nil => rfl
    | cons last front =>
      simp only [Ser.anonList, anonList_reverse]
      exact key _ _ (addImpl_anon _ _ [b])
  have right : ∀ (a : Ser) (j : SerId) (ys : List Ser), a ≠ .null → (∀ i xs, a ≠ .compound i xs) →
      (a.add cf id (.compound j ys)).map Ser.anon = a.anon.add cf [] (Ser.compound j ys).anon := by
    intro a j ys h0 hc
    have e1 : ∀ (id j : SerId) (ys : List Ser) (a : Ser), a ≠ .null → (∀ i xs, a ≠ .compound i xs) →
        a.add cf id (.compound j ys) = (if a.isFinal cf then .error .typeError
          else addImpl cf id [] a ys >>= fun x => mkCompound id x) := by
      intro id j ys a h0 hc
      cases a <;> first | rfl | exact absurd rfl h0 | exact absurd rfl (hc _ _)
    rw [e1 _ _ _ a h0 hc, Ser.anon, e1 _ _ _ a.anon (fun h => h0 (anon_null h))
      (fun i xs h => by cases a <;> first | cases h; done | exact absurd rfl (hc _ _)), isFinal_anon]
    split
    · rfl
    · exact key _ _ (addImpl_anon [] a ys)
  by_cases h0 : a = .null
  · subst h0; cases b <;> rfl
  by_cases ha : ∃ i xs, a = .compound i xs
  · obtain ⟨i, xs, rfl⟩ := ha
    by_cases hb : ∃ j ys, b = .compound j ys
    · obtain ⟨j, ys, rfl⟩ := hb
      simp only [Ser.anon, Ser.add]
      rw [anonList_reverse]
      cases xs.reverse with
      | nil => rfl
      | cons last front =>
        simp only [Ser.anonList, anonList_reverse]
        exact key _ _ (addImpl_anon _ _ ys)
    · exact comp i xs b fun j ys h => hb ⟨j, ys, h⟩
  · have hc : ∀ i xs, a ≠ .compound i xs := fun i xs h => ha ⟨i, xs, h⟩
    by_cases hb : ∃ j ys, b = .compound j ys
    · obtain ⟨j, ys, rfl⟩ := hb
      exact right a j ys h0 hc
    · by_cases hn : b = .null
      · subst hn
        cases a <;> first | rfl | exact absurd rfl h0 | exact absurd rfl (hc _ _)
      · have hbc : ∀ j ys, b ≠ .compound j ys := fun j ys h => hb ⟨j, ys, h⟩
        have e : ∀ (id : SerId) (a b : Ser), a ≠ .null → b ≠ .null → (∀ i xs, a ≠ .compound i xs) → (∀ i xs, b ≠ .compound i xs) →
            a.add cf id b = a.addSimple cf id b := by
          intro id a b h1 h2 h3 h4
          unfold Ser.add
          split
          · exact absurd rfl h1
          · exact absurd rfl (h3 _ _)
          · exact absurd rfl (h3 _ _)
          · exact absurd rfl h2
          · exact absurd rfl (h4 _ _)
          · rfl
        rw [e _ _ _ h0 hn hc hbc, e _ _ _ (fun h => h0 (anon_null h)) (fun h => hn (anon_null h))
          (fun i xs h => by cases a <;> first | cases h; done | exact absurd rfl (hc _ _))
          (fun i xs h => by cases b <;> first | cases h; done | exact absurd rfl (hbc _ _))]
        exact addSimple_anon a b

theorem sum_anon (ss : List Ser) (acc : Ser) : (ss.foldlM (fun (acc : Ser) s => acc.add cf id s) acc).map Ser.anon =
    (Ser.anonList ss).foldlM (fun (acc : Ser) s => acc.add cf [] s) acc.anon := by
  induction ss generalizing acc with
  | nil => rfl
  | cons s ss ih =>
    rw [List.foldlM_cons, Ser.anonList, List.foldlM_cons]
    exact Except.map_bind_eq (add_anon acc s) fun a _ => ih a

theorem sumSers_anon (ss : List Ser) : (sumSers cf id ss).map Ser.anon = sumSers cf [] (Ser.anonList ss) := sum_anon ss .null

end Verif

namespace Verif
open Spec

variable {ctx : HintCtx} {id id' : SerId}

/-- The hint with the identities in a serializer left out. -/
def Hint.anon : Hint → Hint
  | .ser s => .ser s.anon
  | h => h

/-- Both fail alike, or both succeed with related results. -/
inductive Alike (R : α → β → Prop) : Except Err α → Except Err β → Prop
  | error (e : Err) : Alike R (.error e) (.error e)
  | ok {a : α} {b : β} : R a b → Alike R (.ok a) (.ok b)

theorem Alike.bind {R : α → β → Prop} {S : γ → δ → Prop} {x : Except Err α} {y : Except Err β} {f : α → Except Err γ}
    {g : β → Except Err δ} (h : Alike R x y) (hf : ∀ a b, R a b → Alike S (f a) (g b)) : Alike S (x >>= f) (y >>= g) := by
  cases h with
  | error e => exact .error e
  | ok h => exact hf _ _ h

/-- Equal up to identities. -/
def HRel (a b : Hint) : Prop := a.anon = b.anon

theorem HRel.refl (a : Hint) : HRel a a := rfl

theorem HRel.cases {a b : Hint} (h : HRel a b) : a = b ∨ ∃ s t, a = .ser s ∧ b = .ser t ∧ s.anon = t.anon := by
  unfold HRel at h
  cases a with
  | ser s => cases b <;> first | (cases h; done) | (right; exact ⟨_, _, rfl, rfl, Hint.ser.inj h⟩)
  | _ => cases b <;> first | (cases h; done) | (left; exact h)

theorem HRel.ser {s t : Ser} (h : s.anon = t.anon) : HRel (.ser s) (.ser t) := congrArg Hint.ser h

theorem Alike.refl (x : Except Err Hint) : Alike HRel x x := by
  cases x with
  | error e => exact .error e
  | ok a => exact .ok rfl

/-- Pointwise. -/
inductive HRelList : List Hint → List Hint → Prop
  | nil : HRelList [] []
  | cons {a b : Hint} {as bs : List Hint} : HRel a b → HRelList as bs → HRelList (a :: as) (b :: bs)

theorem subList_alike {f g : SerId → Hint → Except Err Hint} (hf : ∀ i j h, Alike HRel (f i h) (g j h)) (k : Nat) (hs : List Hint) :
    Alike HRelList (subList f id k hs) (subList g id' k hs) := by
  induction hs generalizing k with
  | nil => exact .ok .nil
  | cons h hs ih =>
    rw [subList, subList]
    exact (hf _ _ h).bind fun a b hab => (ih (k + 1)).bind fun as bs hh => .ok (.cons hab hh)

theorem sers?_alike {as bs : List Hint} (h : HRelList as bs) :
    (Hint.sers? as = none ∧ Hint.sers? bs = none) ∨
    ∃ ss ts, Hint.sers? as = some ss ∧ Hint.sers? bs = some ts ∧ Ser.anonList ss = Ser.anonList ts := by
  induction h with
  | nil => exact .inr ⟨[], [], rfl, rfl, rfl⟩
  | cons hab _ ih =>
    rcases hab.cases with rfl | ⟨s, t, rfl, rfl, hst⟩
    · rename_i a _ _ _
      rcases ih with ⟨h1, h2⟩ | ⟨ss, ts, h1, h2, h3⟩
      · left
        unfold Hint.sers?
        rw [h1, h2]
        cases a.ser? <;> exact ⟨rfl, rfl⟩
      · unfold Hint.sers?
        rw [h1, h2]
        cases hs : a.ser? with
        | none => exact .inl ⟨rfl, rfl⟩
        | some s => exact .inr ⟨s :: ss, s :: ts, rfl, rfl, by simp only [Ser.anonList, h3]⟩
    · rcases ih with ⟨h1, h2⟩ | ⟨ss, ts, h1, h2, h3⟩
      · left
        unfold Hint.sers?
        rw [h1, h2]
        exact ⟨rfl, rfl⟩
      · right
        refine ⟨s :: ss, t :: ts, ?_, ?_, by simp only [Ser.anonList, h3, hst]⟩
        · unfold Hint.sers?; rw [h1]; rfl
        · unfold Hint.sers?; rw [h2]; rfl

theorem alike_map {x y : Except Err Ser} (h : x.map Ser.anon = y.map Ser.anon) : Alike (fun a b => Ser.anon a = Ser.anon b) x y := by
  cases x <;> cases y
  · cases h; exact .error _
  · cases h
  · cases h
  · exact .ok (by injection h)

theorem sumSers_alike {cf : ClassId → Bool} {ss ts : List Ser} (h : Ser.anonList ss = Ser.anonList ts) :
    Alike (fun a b => Ser.anon a = Ser.anon b) (sumSers cf id ss) (sumSers cf id' ts) :=
  alike_map (by rw [sumSers_anon, sumSers_anon, h])

theorem step_alike {f g : SerId → Hint → Except Err Hint} (hf : ∀ i j h, Alike HRel (f i h) (g j h)) {b b' : Hint} (hb : HRel b b')
    (a : Hint) : Alike HRel (step ctx f id b a) (step ctx g id' b' a) := by
  have t1 : Alike HRel (tupleStep ctx f id b) (tupleStep ctx g id' b') := by
    rcases hb.cases with rfl | ⟨s, t, rfl, rfl, hst⟩
    · unfold tupleStep
      split
      · split
        · exact .ok rfl
        · split
          · exact .ok rfl
          · refine (subList_alike hf 0 _).bind fun as bs hab => ?_
            rcases sers?_alike hab with ⟨h1, h2⟩ | ⟨ss, ts, h1, h2, h3⟩
            · rw [h1, h2]; exact .ok rfl
            · rw [h1, h2]
              exact (sumSers_alike h3).bind fun x y hxy => .ok (HRel.ser (by simp only [Ser.anon, hxy]))
      · exact .ok rfl
    · exact .ok (.ser hst)
  have t2 : ∀ b b', HRel b b' → Alike HRel (serAsStep ctx b a) (serAsStep ctx b' a) := by
    intro b b' hb
    rcases hb.cases with rfl | ⟨s, t, rfl, rfl, hst⟩
    · exact Alike.refl _
    · unfold serAsStep
      split
      · split
        · exact .ok rfl
        · exact Alike.refl _
      · exact .ok hb
  have t3 : ∀ b b', HRel b b' → Alike HRel (condStep b a) (condStep b' a) := by
    intro b b' hb
    rcases hb.cases with rfl | ⟨s, t, rfl, rfl, hst⟩
    · exact Alike.refl _
    · unfold condStep
      split
      · simp only [← numValues_anon s, ← numValues_anon t, hst]
        split
        · exact .error _
        · exact .ok (HRel.ser (by simp only [Ser.anon, hst]))
      · exact .ok hb
  have t4 : ∀ b b', HRel b b' → Alike HRel (unionStep f id b a) (unionStep g id' b' a) := by
    intro b b' hb
    rcases hb.cases with rfl | ⟨s, t, rfl, rfl, hst⟩
    · unfold unionStep
      split
      · split
        · split
          · split
            · exact .error _
            · refine (subList_alike hf 0 _).bind fun as bs hab => ?_
              rcases sers?_alike hab with ⟨h1, h2⟩ | ⟨ss, ts, h1, h2, h3⟩
              · rw [h1, h2]; exact .ok rfl
              · rw [h1, h2]; exact .ok rfl
          · exact .error _
        · exact .ok rfl
      · exact .ok rfl
    · unfold unionStep
      split
      · split
        · exact .error _
        · exact .ok hb
      · exact .ok hb
  have t5 : ∀ b b', HRel b b' → Alike HRel (selfStep id b) (selfStep id' b') := by
    intro b b' hb
    rcases hb.cases with rfl | ⟨s, t, rfl, rfl, hst⟩
    · unfold selfStep
      split <;> exact .ok rfl
    · exact .ok hb
  have t6 : ∀ b b', HRel b b' → Alike HRel (structuredStep ctx id b) (structuredStep ctx id' b') := by
    intro b b' hb
    rcases hb.cases with rfl | ⟨s, t, rfl, rfl, hst⟩
    · unfold structuredStep
      split
      · exact .ok rfl
      · split
        · exact .ok rfl
        · cases ctx.spec _ _ with
          | error e => exact .error e
          | ok c => exact .ok rfl
      · exact .ok rfl
    · exact .ok hb
  have t7 : ∀ b b', HRel b b' → Alike HRel (indexingStep b a) (indexingStep b' a) := by
    intro b b' hb
    rcases hb.cases with rfl | ⟨s, t, rfl, rfl, hst⟩
    · exact Alike.refl _
    · cases a <;> first | exact .error _ | exact .ok hb
  have t8 : ∀ b b', HRel b b' → Alike HRel (finalStep b a) (finalStep b' a) := by
    intro b b' hb
    unfold finalStep
    split
    · exact .ok rfl
    · exact .ok hb
  unfold step
  exact t1.bind fun _ _ h => (t2 _ _ h).bind fun _ _ h => (t3 _ _ h).bind fun _ _ h => (t4 _ _ h).bind fun _ _ h =>
    (t5 _ _ h).bind fun _ _ h => (t6 _ _ h).bind fun _ _ h => (t7 _ _ h).bind fun _ _ h => t8 _ _ h

theorem steps_alike {f g : Hint → Hint → Except Err Hint} (hf : ∀ b b' a, HRel b b' → Alike HRel (f b a) (g b' a)) {b b' : Hint}
    (hb : HRel b b') (as : List Hint) : Alike HRel (steps f b as) (steps g b' as) := by
  induction as generalizing b b' with
  | nil => exact .ok hb
  | cons a as ih =>
    rw [steps, steps]
    exact (hf _ _ a hb).bind fun _ _ h => ih h

/-- The outcome of a transformation does not depend on the identities given to new objects. -/
theorem transform_alike (n : Nat) (id id' : SerId) (h : Hint) : Alike HRel (transform ctx n id h) (transform ctx n id' h) := by
  induction n generalizing id id' h with
  | zero => exact .error _
  | succ n ih =>
    rw [transform, transform]
    split
    · exact .error _
    · exact steps_alike (fun _ _ a hb => step_alike (fun i j h => ih i j h) hb a) rfl _

theorem transformTypehint_alike (n : Nat) (id id' : SerId) (h : Hint) :
    Alike (fun a b => a.map Ser.anon = b.map Ser.anon) (transformTypehint ctx n id h) (transformTypehint ctx n id' h) := by
  have key : Alike (fun a b => a.map Ser.anon = b.map Ser.anon) (do .ok (← transform ctx n id h).ser?)
      (do .ok (← transform ctx n id' h).ser?) := by
    refine (transform_alike n id id' h).bind fun a b hab => ?_
    rcases hab.cases with rfl | ⟨s, t, rfl, rfl, hst⟩
    · exact .ok rfl
    · exact .ok (congrArg some hst)
  unfold transformTypehint
  split
  · exact .ok rfl
  · exact key

/-- Two successful transformations of one hint agree up to identities, whatever their bounds. -/
theorem transformTypehint_same {n m : Nat} {h : Hint} {x y : Option Ser} (hx : transformTypehint ctx n id h = .ok x)
    (hy : transformTypehint ctx m id' h = .ok y) : x.map Ser.anon = y.map Ser.anon := by
  have mono : ∀ {n k : Nat} {i : SerId} {x : Option Ser}, n ≤ k → transformTypehint ctx n i h = .ok x →
      transformTypehint ctx k i h = .ok x := by
    intro n k i x hle hx
    unfold transformTypehint at hx ⊢
    split at hx
    · exact hx
    · obtain ⟨r, h1, h2⟩ := Except.bind_ok' hx
      rw [transform_mono hle h1]
      exact h2
  have h1 := mono (Nat.le_max_left n m) hx
  have h2 := mono (Nat.le_max_right n m) hy
  have := transformTypehint_alike (ctx := ctx) (max n m) id id' h
  rw [h1, h2] at this
  cases this with
  | ok h => exact h

end Verif
