import Verif.Classes
/-
Vocabulary for statements about class statements: which attributes a class should have, in which order.
-/
namespace Verif.Spec

/-- In order of first occurrence. -/
def firsts (names : List Name) : List Name := names.foldl (fun seen a => if a ∈ seen then seen else seen ++ [a]) []

/-- The last declaration of a name. -/
def lastDecl (decls : List (Name × Hint)) (a : Name) : Hint :=
  decls.foldl (fun h d => if d.1 = a then d.2 else h) .noneT

/-- The hint is that of an attribute: it has a serializer and is not a pad. -/
def IsField (ctx : HintCtx) (h : Hint) : Prop := ∃ n id s, transformTypehint ctx n id h = .ok (some s) ∧ s.isPad = false

/-- After these declarations (from the first class of the inheritance chain to the last), the name is that of an
attribute. -/
def IsAttr (ctx : HintCtx) (decls : List (Name × Hint)) (a : Name) : Prop :=
  a ≠ "self" ∧ IsField ctx (evalHint (lastDecl decls a))

open Classical in
/-- The attributes after these declarations: names in order of first declaration, if the last declaration has a
serializer. -/
noncomputable def attrsOf (ctx : HintCtx) (decls : List (Name × Hint)) : List Name :=
  (firsts (decls.map (·.1))).filter fun a => decide (IsAttr ctx decls a)

/-- All declarations along the inheritance chain. -/
def _root_.Verif.ClassObj.decls (o : ClassObj) : List (Name × Hint) := o.mro.flatten

end Verif.Spec

namespace Verif.Spec

/-- The hint has a serializer. -/
def IsSerialized (ctx : HintCtx) (h : Hint) : Prop := ∃ n id s, transformTypehint ctx n id h = .ok (some s)

/-- All classes were made by class statements. -/
def _root_.Verif.World.Coherent (ctx : HintCtx) (w : World) : Prop :=
  ∀ c o, w c = some o → ∃ n id w' d, createClass ctx n id w' d = .ok o

end Verif.Spec
