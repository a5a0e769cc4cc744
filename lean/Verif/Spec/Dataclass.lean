import Verif.Dataclass
/-
Vocabulary for statements about decorated classes (C63).
-/
namespace Verif.Spec

/-- Every attribute has its value. -/
def Holds (attrs : List Name) (vals : List Val) (as : List (Name × Val)) : Prop :=
  vals.length = attrs.length ∧ ∀ (i : Nat) (h1 : i < attrs.length) (h2 : i < vals.length), getAttr? as attrs[i] = some vals[i]

/-- The positional parameters of the `__init__` begin with the attributes, and all other parameters have defaults. -/
structure Fitting (attrs : List Name) (fs : Dict Data.Opts) : Prop where
  once : (fs.map (·.1)).Nodup
  first : attrs <+: (Data.positional fs).map (·.1)
  rest : ∀ f ∈ fs, f.1 ∉ attrs → f.2.init = true → f.2.default ≠ Option.none

end Verif.Spec
