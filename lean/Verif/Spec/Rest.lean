import Verif.Ops
/-
Specifications for C48: read-to-end byte strings.
-/
namespace Verif.Spec

/-- The bytes left for a reader when `k` bytes were used: of a buffer, of a buffer behind an offset, of a stream (which moves by
itself). -/
def left (src : Src) (k : Nat) (st : St) : Bytes :=
  match src with
  | .buf b => b.drop k
  | .at b off => b.drop (off + k)
  | .io => st.io.data.drop st.io.pos

/-- Values without a `len()`. -/
def noLen : Val → Bool
  | .none | .int _ | .bool _ | .float _ | .obj .. | .gen => true
  | .custom _ v => noLen v
  | _ => false

/-- The field takes as many values whether its condition holds or not (checked when it is made, `conditional.py:51-57`). -/
def steady : Ser → Prop
  | .cond s _ ds => ds.length = s.numValues
  | _ => True

end Verif.Spec
