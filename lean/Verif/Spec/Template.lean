import Verif.Spec.Format
import Verif.Spec.Generics
/-
Spec: the documentation of a specialized generic class.
-/
namespace Verif.Spec

/-- The field is what a declaration of the generic class `ob` says with the types `s` for its variables: the declaration has no
variables and is that of the field, or the declaration is an expression, possibly in an `Annotated`, and the field is declared by the
expression with the types in place of the variables. -/
def Filled (ctx : HintCtx) (N : Nat) (s : List (TVar × HExp)) (ob : ClassObj) (f : Field) : Prop :=
  f.hint ctx N = .ok (evalHint (lastDecl ob.decls f.name)) ∨
  f.name ∈ ob.anns.map (·.1) ∧ ∃ e : HExp, e.proper = true ∧ e.vars ≠ [] ∧
    (e.written ctx N = .ok (evalHint (lastDecl ob.decls f.name)) ∨ e.value ctx N = .ok (evalHint (lastDecl ob.decls f.name)) ∨
      ∃ t x, e.value ctx N = .ok x ∧ evalHint (lastDecl ob.decls f.name) = .annot (.plain t) [x]) ∧
    (e.subst s).proper = true ∧ (∀ t ∈ e.vars, t ∈ s.map (·.1)) ∧ (e.subst s).depth ≤ N ∧ f.hint ctx N = (e.subst s).value ctx N

end Verif.Spec
