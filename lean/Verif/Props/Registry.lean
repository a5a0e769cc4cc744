import Verif.Proofs.Registry
/-
C84: the order in which transformers of type hints are applied, and who sees them.
-/
namespace Verif
open Registry

/-- One transformer, with the base type kept when it returns None. -/
def Spec.once (t : Transformer α) (ann base : α) : Except Err α := (t base ann).map (·.getD base)

/-- **C84** (order).  For one annotation, the transformer registered last is applied first, then all older ones, and the one
registered as final is applied last, whatever was registered before. -/
theorem C84_order (st : State α) (t f : Transformer α) (i : Nat) (h : st.own i = none) (ann base : α) :
    applyAll (transforms (registerFinal (register st t) f) i).reverse ann base =
      Spec.once t ann base >>= fun b => applyAll (transforms st i).reverse ann b >>= Spec.once f ann := by
  have e1 : transforms (registerFinal (register st t) f) i = f :: (st.shared ++ [t]) := by
    simp [transforms, registerFinal, register, h]
  have e2 : transforms st i = st.shared := by simp [transforms, h]
  have one : ∀ (t : Transformer α) (ts : List (Transformer α)) (b : α),
      applyAll (t :: ts) ann b = Spec.once t ann b >>= applyAll ts ann := by
    intro t ts b
    simp only [applyAll, Spec.once, bind, Except.bind, Except.map]
    cases t b ann with
    | error e => rfl
    | ok r => cases r <;> rfl
  rw [e1, e2]
  simp only [List.reverse_cons, List.reverse_append, List.reverse_nil, List.nil_append, List.cons_append]
  rw [one]
  refine congrArg (bind (Spec.once t ann base)) (funext fun b => ?_)
  rw [applyAll_append]
  refine congrArg (bind (applyAll st.shared.reverse ann b)) (funext fun c => ?_)
  rw [one]
  cases Spec.once f ann c <;> rfl

/-- **C84** (copies).  An instance made with a transformer of its own has that one and those registered until then: what is
registered later or given to other instances changes nothing for it, and it changes nothing for the others. -/
theorem C84_own (st : State α) (i j : Nat) (check t u : Transformer α) (hij : i ≠ j) :
    transforms (withFinal st i check) i = st.shared ++ [check] ∧
    transforms (withFinal st i check) j = transforms st j ∧
    transforms (register (withFinal st i check) t) i = transforms (withFinal st i check) i ∧
    transforms (registerFinal (withFinal st i check) t) i = transforms (withFinal st i check) i ∧
    transforms (withFinal (withFinal st i check) j u) i = transforms (withFinal st i check) i := by
  refine ⟨?_, ?_, ?_, ?_, ?_⟩ <;> simp [transforms, withFinal, init, register, registerFinal, hij, Ne.symm hij]

/-- **C84** (shared).  An instance without transformers of its own has all that are registered, also later ones. -/
theorem C84_shared (st : State α) (i : Nat) (t : Transformer α) :
    transforms (register (init st i []) t) i = st.shared ++ [t] ∧
    transforms (registerFinal (init st i []) t) i = t :: st.shared := by
  constructor <;> simp [transforms, init, register, registerFinal]

/-- **C84** (the name `with_final`).  The check given to `with_final` is not applied last but first. -/
theorem C84_with_final_is_first (st : State α) (i : Nat) (check : Transformer α) (ann base : α) :
    applyAll (transforms (withFinal st i check) i).reverse ann base =
      Spec.once check ann base >>= applyAll st.shared.reverse ann := by
  have : transforms (withFinal st i check) i = st.shared ++ [check] := by simp [transforms, withFinal, init]
  rw [this]
  simp only [List.reverse_append, List.reverse_cons, List.reverse_nil, List.nil_append, List.cons_append, applyAll, Spec.once,
    bind, Except.bind, Except.map]
  cases check base ann with
  | error e => rfl
  | ok r => cases r <;> rfl

/-- So "final" is false: a check that turns 1 into 2 is applied before the registered transformer that turns 2 into 3. -/
theorem C84_final_is_false : ∃ (st : State Nat) (check : Transformer Nat),
    applyAll (transforms (withFinal st 0 check) 0).reverse 0 1 = .ok 3 ∧
    applyAll (transforms (registerFinal st check) 0).reverse 0 1 = .ok 2 :=
  ⟨⟨[fun b _ => .ok (if b = 2 then some 3 else none)], fun _ => none⟩, fun b _ => .ok (if b = 1 then some 2 else none), by rfl, by rfl⟩

/-- **C84** (passes).  A hint without annotations gets one pass with None; each further annotation adds one pass over all
transformers after those of the annotations before it. -/
theorem C84_passes (st : State α) (i : Nat) (none base : α) (anns : List α) (a : α) :
    Registry.transform st i none base [] = applyAll (transforms st i).reverse none base ∧
    Registry.transform st i none base (anns ++ [a]) =
      Registry.transform st i none base anns >>= applyAll (transforms st i).reverse a := by
  have one : ∀ (ts : List (Transformer α)) (a b : α), applyEach ts [a] b = applyAll ts.reverse a b := by
    intro ts a b
    simp only [applyEach, bind, Except.bind]
    cases applyAll ts.reverse a b <;> rfl
  have app : ∀ (as : List α) (b : α), applyEach (transforms st i) (as ++ [a]) b =
      applyEach (transforms st i) as b >>= applyAll (transforms st i).reverse a := by
    intro as
    induction as with
    | nil => intro b; exact one _ _ _
    | cons x as ih =>
      intro b
      simp only [List.cons_append, applyEach, bind, Except.bind] at ih ⊢
      cases applyAll (transforms st i).reverse x b with
      | error e => rfl
      | ok c => exact ih c
  exact ⟨one _ _ _, app (none :: anns) base⟩

/-- Three transformers on numbers: the one registered last doubles, the older one adds one, the final one adds ten. -/
example : applyAll (transforms (registerFinal (register ⟨[fun b _ => .ok (some (b + 1))], fun _ => none⟩ (fun b _ => .ok (some (2 * b))))
    (fun b _ => .ok (some (b + 10)))) 0).reverse 0 5 = .ok 21 := by rfl

/-- The registry after the modules of the library are imported (`base_types`, `serializers`, `hint_types`, `structured`). -/
def Registry.library (ctx : HintCtx) (sub : SerId → Hint → Except Err Hint) (id : SerId) : State Hint :=
  registerFinal
    (register (register (register (register (register (register (register ⟨[], fun _ => none⟩
      (lift indexingStep)) (lift fun b _ => structuredStep ctx id b)) (lift fun b _ => selfStep id b))
      (lift fun b a => unionStep sub id b a)) (lift condStep)) (lift fun b a => serAsStep ctx b a))
      (lift fun b _ => tupleStep ctx sub id b))
    (lift finalStep)

/-- **C84** (the library's own).  `transform` of `Hints.lean`, used by all theorems about class statements, is `transform` with the
transformers that the modules register when they are imported. -/
theorem C84_library (ctx : HintCtx) (n : Nat) (id : SerId) (h base : Hint) (anns : List Hint) (hf : h.flatten = base :: anns) (i : Nat) :
    Verif.transform ctx (n + 1) id h = Registry.transform (library ctx (Verif.transform ctx n) id) i .noneT base anns := by
  have hs : ∀ b a, applyAll (transforms (library ctx (Verif.transform ctx n) id) i).reverse a b
      = step ctx (Verif.transform ctx n) id b a := by
    intro b a
    have e : (transforms (library ctx (Verif.transform ctx n) id) i).reverse =
      [lift fun b _ => tupleStep ctx (Verif.transform ctx n) id b, lift fun b a => serAsStep ctx b a, lift condStep,
       lift fun b a => unionStep (Verif.transform ctx n) id b a, lift fun b _ => selfStep id b,
       lift fun b _ => structuredStep ctx id b, lift indexingStep, lift finalStep] := rfl
    rw [e, applyAll_lift, step]
    refine congrArg (bind _) (funext fun b => ?_)
    rw [applyAll_lift]
    refine congrArg (bind _) (funext fun b => ?_)
    rw [applyAll_lift]
    refine congrArg (bind _) (funext fun b => ?_)
    rw [applyAll_lift]
    refine congrArg (bind _) (funext fun b => ?_)
    rw [applyAll_lift]
    refine congrArg (bind _) (funext fun b => ?_)
    rw [applyAll_lift]
    refine congrArg (bind _) (funext fun b => ?_)
    rw [applyAll_lift]
    refine congrArg (bind _) (funext fun b => ?_)
    rw [applyAll_lift]
    cases finalStep b a <;> rfl
  have hl : ∀ (as : List Hint) (b : Hint), steps (step ctx (Verif.transform ctx n) id) b as =
      applyEach (transforms (library ctx (Verif.transform ctx n) id) i) as b := by
    intro as
    induction as with
    | nil => intro b; rfl
    | cons a as ih =>
      intro b
      simp only [steps, applyEach, hs]
      exact congrArg (bind _) (funext fun c => ih c)
  rw [Verif.transform, hf]
  exact hl _ _

end Verif
