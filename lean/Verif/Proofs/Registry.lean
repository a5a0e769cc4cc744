import Verif.Registry
/-
Lemmas for `Props/Registry.lean`.
-/
namespace Verif.Registry
open Verif

theorem applyAll_append (ts us : List (Transformer α)) (ann : α) : ∀ base,
    applyAll (ts ++ us) ann base = applyAll ts ann base >>= applyAll us ann := by
  induction ts with
  | nil => intro base; rfl
  | cons t ts ih =>
    intro base
    simp only [List.cons_append, applyAll, bind, Except.bind]
    cases t base ann with
    | error e => rfl
    | ok r => cases r <;> exact ih _

theorem applyAll_lift (f : α → α → Except Err α) (ts : List (Transformer α)) (ann base : α) :
    applyAll (lift f :: ts) ann base = f base ann >>= applyAll ts ann := by
  simp only [applyAll, lift, bind, Except.bind]
  cases f base ann <;> rfl

end Verif.Registry
