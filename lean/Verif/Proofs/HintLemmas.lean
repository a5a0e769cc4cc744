import Verif.Spec.Hints
import Verif.Proofs.Enough
/-
Lemmas about the transformation of hints.
-/
namespace Verif
open Spec

variable {ctx : HintCtx} {sub : SerId → Hint → Except Err Hint} {id : SerId}

theorem flatMetas_append (xs ys : List Hint) : Hint.flatMetas (xs ++ ys) = Hint.flatMetas xs ++ Hint.flatMetas ys := by
  induction xs with
  | nil => rfl
  | cons x xs ih => simp only [List.cons_append, Hint.flatMetas, ih, List.append_assoc]

theorem steps_append (f : Hint → Hint → Except Err Hint) (b : Hint) (xs ys : List Hint) :
    steps f b (xs ++ ys) = (do steps f (← steps f b xs) ys) := by
  induction xs generalizing b with
  | nil => rfl
  | cons x xs ih =>
    simp only [List.cons_append, steps]
    cases f b x with
    | error e => rfl
    | ok c => exact ih c

/-- The base type and the metadata of a hint. -/
def Hint.base : Hint → Hint
  | .annot b _ => b
  | h => h

def Hint.metas : Hint → List Hint
  | .annot _ ms => ms
  | _ => []

theorem flatten_proper {h : Hint} (hp : proper h = true) : h.flatten = h.base :: Hint.flatMetas h.metas := by
  cases h with
  | annot b ms => cases b <;> first | rfl | cases hp
  | _ => rfl

theorem proper_annotate {h : Hint} (hp : proper h = true) (ms : List Hint) : proper (annotate h ms) = true := by
  cases h with
  | annot b ms => cases b <;> first | rfl | cases hp
  | _ => rfl

theorem base_annotate (h : Hint) (ms : List Hint) : (annotate h ms).base = h.base := by
  cases h <;> rfl

theorem metas_annotate (h : Hint) (ms : List Hint) : (annotate h ms).metas = h.metas ++ ms := by
  cases h <;> rfl

theorem transform_eq {h : Hint} (hp : proper h = true) (n : Nat) :
    transform ctx (n + 1) id h =
      steps (step ctx (transform ctx n) id) h.base (.noneT :: Hint.flatMetas h.metas) := by
  rw [transform, flatten_proper hp]

/-- Adding metadata continues the loop over the annotations. -/
theorem transform_annotate {h : Hint} (hp : proper h = true) (n : Nat) (ms : List Hint) :
    transform ctx (n + 1) id (annotate h ms) =
      (do steps (step ctx (transform ctx n) id) (← transform ctx (n + 1) id h) (Hint.flatMetas ms)) := by
  rw [transform_eq (proper_annotate hp ms), transform_eq hp, base_annotate, metas_annotate, flatMetas_append,
    ← List.cons_append, steps_append]

/-- A serializer stays what it is, unless the annotation is of interest. -/
theorem step_ser_inert {s : Ser} {a : Hint} (ha : inert a = true) : step ctx sub id (.ser s) a = .ok (.ser s) := by
  cases a <;> first | rfl | cases ha

/-- No step but the one for tuples looks at this base type. -/
def Hint.quiet : Hint → Bool
  | .selfT | .cls _ | .gen .. | .unindexed _ => false
  | _ => true

theorem step_quiet {r a : Hint} (ht : tupleStep ctx sub id r = .ok r) (hr : r.quiet = true) (ha : inert a = true) :
    step ctx sub id r a = .ok r := by
  unfold step
  rw [ht]
  cases a <;> first | (simp [inert] at ha; done) | (cases r <;> first | rfl | (simp [Hint.quiet] at hr; done))

theorem sersq_ser {ts : List Hint} {ss : List Ser} (h : Hint.sers? ts = some ss) : ts = ss.map .ser := by
  induction ts generalizing ss with
  | nil => cases h; rfl
  | cons t ts ih =>
    rw [Hint.sers?] at h
    cases t <;> simp only [Hint.ser?] at h
    case ser s =>
      cases hs : Hint.sers? ts with
      | none => rw [hs] at h; cases h
      | some ss' =>
        rw [hs] at h
        cases h
        rw [ih hs]; rfl
    all_goals cases h

/-- The cases of the step for tuples. -/
theorem tupleStep_cases {b r : Hint} (h : tupleStep ctx sub id b = .ok r) :
    (r = b) ∨ (∃ args, b = .tup args false ∧ r = .alias .tuple args) ∨
    (∃ args ss inner, b = .tup args false ∧ subList sub id 0 args = .ok (ss.map .ser) ∧
      sumSers ctx.clsFinal (6 :: id) ss = .ok inner ∧ r = .ser (.tuple id inner)) := by
  unfold tupleStep at h
  split at h
  · rename_i args
    split at h
    · cases h; exact .inl rfl
    · split at h
      · cases h; exact .inr (.inl ⟨args, rfl, rfl⟩)
      · obtain ⟨ts, h1, h2⟩ := Except.bind_ok' h
        cases hs : Hint.sers? ts with
        | none => rw [hs] at h2; cases h2; exact .inl rfl
        | some ss =>
          rw [hs] at h2
          obtain ⟨inner, h3, h4⟩ := Except.bind_ok' h2
          cases h4
          rw [sersq_ser hs] at h1
          exact .inr (.inr ⟨args, ss, inner, rfl, h1, h3, rfl⟩)
  · cases h; exact .inl rfl

/-- A pass ends in a serializer, or in something further passes do not change. -/
theorem step_cases {b r a : Hint} (h : step ctx sub id b a = .ok r) :
    (∃ s, r = .ser s) ∨ (tupleStep ctx sub id r = .ok r ∧ r.quiet = true) := by
  unfold step at h
  obtain ⟨b1, h1, h⟩ := Except.bind_ok' h
  obtain ⟨b2, h2, h⟩ := Except.bind_ok' h
  obtain ⟨b3, h3, h⟩ := Except.bind_ok' h
  obtain ⟨b4, h4, h⟩ := Except.bind_ok' h
  obtain ⟨b5, h5, h⟩ := Except.bind_ok' h
  obtain ⟨b6, h6, h⟩ := Except.bind_ok' h
  obtain ⟨b7, h7, h8⟩ := Except.bind_ok' h
  have q1 : tupleStep ctx sub id b1 = .ok b1 := by
    rcases tupleStep_cases h1 with rfl | ⟨_, rfl, rfl⟩ | ⟨_, _, _, rfl, _, _, rfl⟩
    · exact h1
    · rfl
    · rfl
  have q2 : (∃ s, b2 = .ser s) ∨ b2 = b1 := by
    unfold serAsStep at h2
    split at h2
    · split at h2
      · cases h2; exact .inl ⟨_, rfl⟩
      · obtain ⟨x, _, h2⟩ := Except.bind_ok' h2
        cases h2; exact .inl ⟨_, rfl⟩
    · cases h2; exact .inr rfl
  have q3 : (∃ s, b3 = .ser s) ∨ b3 = b2 := by
    unfold condStep at h3
    split at h3
    · split at h3
      · split at h3
        · cases h3
        · cases h3; exact .inl ⟨_, rfl⟩
      · cases h3
    · cases h3; exact .inr rfl
  have q4 : (∃ s, b4 = .ser s) ∨ b4 = b3 := by
    unfold unionStep at h4
    split at h4
    · split at h4
      · split at h4
        · split at h4
          · cases h4
          · obtain ⟨x, _, h4⟩ := Except.bind_ok' h4
            split at h4
            · cases h4; exact .inl ⟨_, rfl⟩
            · cases h4; exact .inr rfl
        · cases h4
      · cases h4; exact .inr rfl
    · cases h4; exact .inr rfl
  have q5 : (∃ s, b5 = .ser s) ∨ (b5 = b4 ∧ b4 ≠ .selfT) := by
    unfold selfStep at h5
    split at h5
    · cases h5; exact .inl ⟨_, rfl⟩
    · rename_i hne; cases h5; exact .inr ⟨rfl, fun e => hne e⟩
  have q6 : (∃ s, b6 = .ser s) ∨ (∃ c x y, b6 = .galias c x y) ∨ (b6 = b5 ∧ (∀ c, b5 ≠ .cls c) ∧ ∀ c x, b5 ≠ .gen c x) := by
    unfold structuredStep at h6
    split at h6
    · cases h6; exact .inl ⟨_, rfl⟩
    · split at h6
      · cases h6; exact .inr (.inl ⟨_, _, _, rfl⟩)
      · obtain ⟨x, _, h6⟩ := Except.bind_ok' h6
        cases h6; exact .inl ⟨_, rfl⟩
    · rename_i g1 g2
      cases h6; exact .inr (.inr ⟨rfl, fun c e => g1 c e, fun c x e => g2 c x e⟩)
  have q7 : b7 = b6 ∧ ∀ x, b6 ≠ .unindexed x := by
    unfold indexingStep at h7
    split at h7
    · cases h7
    · cases h7
    · rename_i g1 g2
      cases h7; exact ⟨rfl, fun x e => g1 x e⟩
  have q8 : (∃ s, r = .ser s) ∨ r = b7 := by
    unfold finalStep at h8
    split at h8
    · cases h8; exact .inl ⟨_, rfl⟩
    · cases h8; exact .inr rfl
  rcases q8 with q8 | rfl
  · exact .inl q8
  obtain ⟨rfl, q7⟩ := q7
  rcases q6 with q6 | ⟨c, x, y, rfl⟩ | ⟨rfl, q6a, q6b⟩
  · exact .inl q6
  · exact .inr ⟨rfl, rfl⟩
  rcases q5 with q5 | ⟨rfl, q5⟩
  · exact .inl q5
  rcases q4 with q4 | rfl
  · exact .inl q4
  rcases q3 with q3 | rfl
  · exact .inl q3
  rcases q2 with q2 | rfl
  · exact .inl q2
  refine .inr ⟨q1, ?_⟩
  cases r <;> first | rfl | exact absurd rfl q5 | exact absurd rfl (q6a _) | exact absurd rfl (q6b _ _) | exact absurd rfl (q7 _)

/-- What a pass leaves is left by any further pass with an annotation of no interest. -/
theorem step_settled {b r a a' : Hint} (h : step ctx sub id b a = .ok r) (ha : inert a' = true) :
    step ctx sub id r a' = .ok r := by
  rcases step_cases h with ⟨s, rfl⟩ | ⟨h1, h2⟩
  · exact step_ser_inert ha
  · exact step_quiet h1 h2 ha

theorem steps_settled {r : Hint} (h : ∀ a, inert a = true → step ctx sub id r a = .ok r) {as : List Hint}
    (ha : as.all inert = true) : steps (step ctx sub id) r as = .ok r := by
  induction as with
  | nil => rfl
  | cons a as ih =>
    simp only [List.all_cons, Bool.and_eq_true] at ha
    rw [steps, h a ha.1]
    exact ih ha.2

/-- The last pass over the annotations. -/
theorem steps_last {b r : Hint} {as : List Hint} (h0 : as ≠ []) (h : steps (step ctx sub id) b as = .ok r) :
    ∃ b' a, a ∈ as ∧ step ctx sub id b' a = .ok r := by
  induction as generalizing b with
  | nil => exact absurd rfl h0
  | cons a as ih =>
    rw [steps] at h
    obtain ⟨c, h1, h2⟩ := Except.bind_ok' h
    cases as with
    | nil => cases h2; exact ⟨b, a, by simp, h1⟩
    | cons a' as =>
      obtain ⟨b', x, hx, h3⟩ := ih (by simp) h2
      exact ⟨b', x, by simp [hx], h3⟩

theorem transform_settled {n : Nat} {h r a : Hint} (hp : proper h = true) (ht : transform ctx (n + 1) id h = .ok r)
    (ha : inert a = true) : step ctx (transform ctx n) id r a = .ok r := by
  rw [transform_eq hp] at ht
  obtain ⟨b', x, _, h3⟩ := steps_last (by simp) ht
  exact step_settled h3 ha

/-! ### More depth -/

/-- Equal, or the first ran out of depth. -/
def Deeper (x y : Except Err α) : Prop := x = .error .recursionError ∨ x = y

theorem Deeper.refl (x : Except Err α) : Deeper x x := .inr rfl

theorem Deeper.bind {x y : Except Err α} {f g : α → Except Err β} (h : Deeper x y) (hf : ∀ a, Deeper (f a) (g a)) :
    Deeper (x >>= f) (y >>= g) := by
  rcases h with rfl | rfl
  · exact .inl rfl
  · cases x with
    | error e => exact .inr rfl
    | ok a => exact hf a

theorem Deeper.ok {x y : Except Err α} {a : α} (h : Deeper x y) (hx : x = .ok a) : y = .ok a := by
  rcases h with rfl | rfl
  · cases hx
  · exact hx

theorem subList_deeper {sub sub' : SerId → Hint → Except Err Hint} (h : ∀ i x, Deeper (sub i x) (sub' i x)) (id : SerId) :
    ∀ (j : Nat) (hs : List Hint), Deeper (subList sub id j hs) (subList sub' id j hs)
  | _, [] => .refl _
  | j, x :: xs => by
    rw [subList, subList]
    exact (h _ x).bind fun _ => (subList_deeper h id (j + 1) xs).bind fun _ => .refl _

theorem step_deeper {sub sub' : SerId → Hint → Except Err Hint} (h : ∀ i x, Deeper (sub i x) (sub' i x)) (id : SerId)
    (b a : Hint) : Deeper (step ctx sub id b a) (step ctx sub' id b a) := by
  have t : Deeper (tupleStep ctx sub id b) (tupleStep ctx sub' id b) := by
    unfold tupleStep
    split
    · split
      · exact .refl _
      · split
        · exact .refl _
        · exact (subList_deeper h id 0 _).bind fun _ => .refl _
    · exact .refl _
  have u : ∀ b, Deeper (unionStep sub id b a) (unionStep sub' id b a) := by
    intro b
    unfold unionStep
    split
    · split
      · split
        · split
          · exact .refl _
          · exact (subList_deeper h id 0 _).bind fun _ => .refl _
        · exact .refl _
      · exact .refl _
    · exact .refl _
  unfold step
  exact t.bind fun _ => (Deeper.refl _).bind fun _ => (Deeper.refl _).bind fun _ => (u _).bind fun _ => .refl _

theorem steps_deeper {f g : Hint → Hint → Except Err Hint} (h : ∀ b a, Deeper (f b a) (g b a)) :
    ∀ (b : Hint) (as : List Hint), Deeper (steps f b as) (steps g b as)
  | _, [] => .refl _
  | b, a :: as => by
    rw [steps, steps]
    exact (h b a).bind fun c => steps_deeper h c as

theorem transform_deeper (n : Nat) (id : SerId) (h : Hint) : Deeper (transform ctx n id h) (transform ctx (n + 1) id h) := by
  induction n generalizing id h with
  | zero => exact .inl rfl
  | succ n ih =>
    rw [transform, transform]
    split
    · exact .refl _
    · exact steps_deeper (fun b a => step_deeper (fun i x => ih i x) id b a) _ _

/-- A result does not change with more depth. -/
theorem transform_mono {n m : Nat} {h r : Hint} (hle : n ≤ m) (ht : transform ctx n id h = .ok r) :
    transform ctx m id h = .ok r := by
  induction hle with
  | refl => exact ht
  | step _ ih => exact (transform_deeper _ id h).ok ih

end Verif
