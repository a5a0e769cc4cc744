import Verif.Spec.Adding
import Verif.Spec.Classes
/-
How the fields of a class are laid out in its serializer.
-/
namespace Verif.Spec

/-- The fields `xs` in their order make up the serializers `ys`: each of `ys` is one field, or a struct serializer for
several neighbouring fields which has the items of these fields one after the other. -/
inductive Laid : List Ser → List Ser → Prop
  | nil : Laid [] []
  | one {s : Ser} {xs ys : List Ser} : Laid xs ys → Laid (s :: xs) (s :: ys)
  | group {ts : List StructSer} {z : StructSer} {xs ys : List Ser} : ToksAgree z.toks (ts.flatMap StructSer.toks) →
      (∀ t ∈ ts, t.byteOrder = z.byteOrder) → Laid xs ys → Laid (ts.map Ser.struct ++ xs) (.struct z :: ys)

def _root_.Verif.Ser.isNull : Ser → Bool
  | .null => true
  | _ => false

/-- `fields` are the fields of the class: for every name, in order of first declaration, whose last declaration has a
serializer, that serializer in the byte order of the class. -/
structure FieldsOf (ctx : HintCtx) (n : Nat) (o : ClassObj) (bo : ByteOrder) (fields : List (Name × Ser)) : Prop where
  names : ∃ p : Name → Bool, (∀ a, p a = true ↔ IsSerialized ctx (evalHint (lastDecl o.decls a))) ∧
    fields.map (·.1) = (firsts (o.decls.map (·.1))).filter p
  sers : ∀ f ∈ fields, ∃ i s, transformTypehint ctx n i (evalHint (lastDecl o.decls f.1)) = .ok (some s) ∧
    s.withByteOrder bo = .ok f.2

/-- All types of the declarations are what the library's basic types give: one item, or not a struct serializer. -/
def BasicFields (ctx : HintCtx) (o : ClassObj) : Prop :=
  ∀ a m i s, a ∈ o.decls.map (·.1) → transformTypehint ctx m i (evalHint (lastDecl o.decls a)) = .ok (some s) → FieldOf .default s

end Verif.Spec
