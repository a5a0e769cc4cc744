import Verif.GenInit
import Verif.Spec.PyText
/-
Annotations and names for which the text of the generated `__init__` is Python, and the function it should define (C59).
-/
namespace Verif.Spec
open Py

/-- The names of the types are identifiers (a name that is missing or empty is left out). -/
def PlainAnn (a : Gen.Ann) : Prop :=
  (∀ x ∈ a.union, ∃ s, x = some s ∧ ident s = true) ∧
  (a.union = [] → ∀ s, a.name = some s ∨ a.oldName = some s → s = [] ∨ ident s = true)

/-- `def __init__(self, n1, ..., nk): self.n1 = n1; ...; self.nk = nk; self.__post_init__()` -/
def initFn (names : List Name) : Fn :=
  ⟨"self" :: names, names.map (fun n => .assign "self" n n) ++ [.call "self" "__post_init__"]⟩

end Verif.Spec
