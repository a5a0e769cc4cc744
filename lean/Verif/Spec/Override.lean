import Verif.Spec.Layout
import Verif.Spec.ByteOrder
/-
Vocabulary for byte orders of classes and their bases.
-/
namespace Verif.Spec

/-- The base of a class statement is the `Structured` class `c`, as `Foo` or as `Foo[args]`. -/
def IsBase (c : ClassId) (b : BaseRef) : Prop := b = .cls c ∨ ∃ args, b = .gen c args

/-- `c` is the only `Structured` class among the bases, besides `Structured` itself. -/
def OneBase (c : ClassId) (bases : List BaseRef) : Prop :=
  ∃ pre x post, bases = pre ++ x :: post ∧ IsBase c x ∧ ∀ y ∈ pre ++ post, ∀ c', ¬ IsBase c' y

/-- Two of the bases are `Structured` classes. -/
def TwoBases (bases : List BaseRef) : Prop :=
  ∃ pre x mid y post c c', bases = pre ++ x :: mid ++ y :: post ∧ IsBase c x ∧ IsBase c' y

/-- The annotations in the body of a class can be evaluated (the pads among them are recognized). -/
def BodyRuns (ctx : HintCtx) (n : Nat) (id : SerId) (d : ClassDecl) : Prop := ∃ body, metaDict ctx n id d.padStart [] d.anns = .ok body

/-- The serializer of the field `a` of a class, in byte order `bo`. -/
def FieldAt (ctx : HintCtx) (o : ClassObj) (bo : ByteOrder) (a : Name) (s : Ser) : Prop :=
  ∃ m i s0, transformTypehint ctx m i (evalHint (lastDecl o.decls a)) = .ok (some s0) ∧ s0.withByteOrder bo = .ok s

/-- All formats in the types of the declarations were accepted by `struct.Struct`. -/
def FormatsAccepted (ctx : HintCtx) (o : ClassObj) : Prop :=
  ∀ a m i s, a ∈ o.decls.map (·.1) → transformTypehint ctx m i (evalHint (lastDecl o.decls a)) = .ok (some s) → s.FormatsOk

/-- The world with other byte orders of its classes. -/
def _root_.Verif.World.reorder (w : World) (f : ClassId → ByteOrder) : World :=
  fun c => (w c).map fun o => { o with info := { o.info with byteOrder := f c } }

end Verif.Spec
