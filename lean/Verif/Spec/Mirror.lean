import Verif.Spec.FormatPut
/-
What another byte order does to packed bytes.
-/
namespace Verif.Spec

/-- The same bytes but that some numbers of 2, 4 or 8 bytes are turned around. -/
inductive Mirrored : Bytes → Bytes → Prop
  | nil : Mirrored [] []
  | same (x : Byte) {b b' : Bytes} : Mirrored b b' → Mirrored (x :: b) (x :: b')
  | turned {c b b' : Bytes} : c.length = 2 ∨ c.length = 4 ∨ c.length = 8 → Mirrored b b' → Mirrored (c ++ b) (c.reverse ++ b')

/-- Packing comes to the same exception, or to bytes of which one are the other with some numbers turned around. -/
def Mirror : Parsed Bytes → Parsed Bytes → Prop
  | .ok b, .ok b' => Mirrored b b'
  | .err e, .err e' => e = e'
  | .deep, .deep | .odd, .odd => True
  | _, _ => False

end Verif.Spec
