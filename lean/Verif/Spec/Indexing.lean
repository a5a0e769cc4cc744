import Verif.Spec.Generics
/-
Vocabulary for what `typing` does when a generic type is indexed.
-/
namespace Verif.Spec

/-- The variable stands somewhere in the type where `typing` looks. -/
inductive Occurs (t : TVar) : Hint → Prop
  | here : Occurs t (.tvar t)
  | annot {b : Hint} {ms : List Hint} : Occurs t b → Occurs t (.annot b ms)
  | gen {c : ClassId} {args : List Hint} {a : Hint} : a ∈ args → Occurs t a → Occurs t (.gen c args)
  | tup {args : List Hint} {v : Bool} {a : Hint} : a ∈ args → Occurs t a → Occurs t (.tup args v)
  | union {args : List Hint} {a : Hint} : a ∈ args → Occurs t a → Occurs t (.union args)

/-- Neither a variable nor a type with arguments that `typing` looks into. -/
def closedType : Hint → Bool
  | .tvar _ | .annot .. | .gen .. | .tup .. | .union .. => false
  | _ => true

mutual
/-- The second type is the first with types in place of variables. -/
inductive Replaced (m : TVar → Option Hint) : Hint → Hint → Prop
  | given {t : TVar} {h : Hint} : m t = some h → Replaced m (.tvar t) h
  | left {t : TVar} : m t = none → Replaced m (.tvar t) (.tvar t)
  | annot {b b' : Hint} {ms : List Hint} : Replaced m b b' → Replaced m (.annot b ms) (.annot b' ms)
  | gen {c : ClassId} {as as' : List Hint} : ReplacedAll m as as' → Replaced m (.gen c as) (.gen c as')
  | tup {as as' : List Hint} {v : Bool} : ReplacedAll m as as' → Replaced m (.tup as v) (.tup as' v)
  | union {as as' : List Hint} : ReplacedAll m as as' → Replaced m (.union as) (.union as')
  | closed {h : Hint} : closedType h = true → Replaced m h h
inductive ReplacedAll (m : TVar → Option Hint) : List Hint → List Hint → Prop
  | nil : ReplacedAll m [] []
  | cons {a a' : Hint} {as as' : List Hint} : Replaced m a a' → ReplacedAll m as as' → ReplacedAll m (a :: as) (a' :: as')
end

/-- The `i`-th argument for the `i`-th variable. -/
def given (ts : List TVar) (args : List Hint) (t : TVar) : Option Hint :=
  match ts, args with
  | s :: ts, a :: args => if s = t then some a else given ts args t
  | _, _ => none

/-- The variables in the order in which they are first met. -/
inductive InOrder : List TVar → List TVar → Prop
  | nil : InOrder [] []
  | new {l r : List TVar} {t : TVar} : InOrder l r → t ∉ l → InOrder (l ++ [t]) (r ++ [t])
  | old {l r : List TVar} {t : TVar} : InOrder l r → t ∈ l → InOrder (l ++ [t]) r

end Verif.Spec
