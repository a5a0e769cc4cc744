import Verif.Caches
/-
Vocabulary for the caches behind brackets.
-/
namespace Verif.Spec
open Verif.Caches

/-- It can be hashed, and is not a `float` that is equal to an `int`. -/
def Exact (a : Arg) : Prop := a.hashable = true ∧ ∀ f i, a = .val (.float f) → floatEqInt f i = false

/-- All arguments in the brackets are. -/
def ExactUse : Use → Prop
  | .char a => Exact a
  | .unicode a e => Exact a ∧ e.hashable = true
  | .array l z _ => Exact l ∧ Exact z

/-- What something with brackets means without caches, with `ident` saying which serializer objects are the same. -/
def meaning (w : Setup) (ident : AliasKind → List Hint → SerId) : Use → Except Err Hint
  | .char a => mkChar { w.ctx with ident := ident } a.hint
  | .unicode a e => mkUnicode { w.ctx with ident := ident } w.limit a.hint (w.encoding e)
  | .array l z i => do mkArray { w.ctx with ident := ident } w.limit (← mkHeader l.hint z.hint) (w.items i)

end Verif.Spec
