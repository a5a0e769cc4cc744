import Verif.Names
/-
Vocabulary for field names.
-/
namespace Verif.Spec

/-- None of the attributes has one of these names. -/
def Clear (names : List Name) (attrs : List (Name × Val)) : Prop := ∀ a ∈ attrs.map (·.1), a ∉ names

instance {names : List Name} {attrs : List (Name × Val)} : Decidable (Clear names attrs) := by unfold Clear; infer_instance

/-- What `Structured` looks up on its instances by name. -/
def taken : List Name :=
  ["pack", "pack_into", "pack_write", "unpack", "unpack_from", "unpack_read", "with_byte_order", "_serializer", "serializer",
   "attrs", "byte_order", "__post_init__"]

end Verif.Spec
