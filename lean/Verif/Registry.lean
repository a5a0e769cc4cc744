import Verif.Hints
/-
`type_checking.py:133-176` `_annotated`: the list of transformers of the class, instances with a list of their own, and the loops of
`transform`.  A transformer gets the base type and an annotation and returns the new base type or None.  In `Hints.lean` the
transformers that the library registers are written out one after the other.
-/
namespace Verif.Registry
open Verif

abbrev Transformer (α : Type) := α → α → Except Err (Option α)

/-- The class attribute `_transforms`, and the attribute of the same name of the instances; `none` if an instance has none. -/
structure State (α : Type) where
  shared : List (Transformer α)
  own : Nat → Option (List (Transformer α))

/-- `type_checking.py:141-145` `register_transform` -/
def register (st : State α) (t : Transformer α) : State α := { st with shared := st.shared ++ [t] }

/-- `type_checking.py:168-170` `register_final_transform` -/
def registerFinal (st : State α) (t : Transformer α) : State α := { st with shared := t :: st.shared }

/-- `type_checking.py:136-139` `__init__` of instance `i` -/
def init (st : State α) (i : Nat) (ts : List (Transformer α)) : State α :=
  if ts.isEmpty then { st with own := fun j => if j = i then none else st.own j }
  else { st with own := fun j => if j = i then some (st.shared ++ ts) else st.own j }

/-- `type_checking.py:172-173` `with_final`: instance `i` is the new one. -/
def withFinal (st : State α) (i : Nat) (check : Transformer α) : State α := init st i [check]

/-- `self._transforms` -/
def transforms (st : State α) (i : Nat) : List (Transformer α) := (st.own i).getD st.shared

/-- The inner loop of `transform`: `type_checking.py:162-165`. -/
def applyAll : List (Transformer α) → α → α → Except Err α
  | [], _, base => .ok base
  | t :: ts, ann, base => do
    match ← t base ann with
    | some b => applyAll ts ann b
    | none => applyAll ts ann base

/-- The outer loop of `transform`: `type_checking.py:161-166`. -/
def applyEach (ts : List (Transformer α)) : List α → α → Except Err α
  | [], base => .ok base
  | ann :: anns, base => do applyEach ts anns (← applyAll ts.reverse ann base)

/-- `type_checking.py:158-166` `transform` of a flattened hint; `none` is the annotation None. -/
def transform (st : State α) (i : Nat) (none : α) (base : α) (anns : List α) : Except Err α :=
  applyEach (transforms st i) (none :: anns) base

/-- A transformer of the library, in the form of `Hints.lean`. -/
def lift (f : α → α → Except Err α) : Transformer α := fun base ann => (f base ann).map some

end Verif.Registry
