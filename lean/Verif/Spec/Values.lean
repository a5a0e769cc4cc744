import Verif.Ops
/-
Which serializers yield as many values as they declare.
-/
namespace Verif

/-- The source is a buffer, not a buffer with an offset or a stream. -/
def Src.isBuf : Src → Bool
  | .buf _ => true
  | _ => false

namespace Spec

mutual
/-- Serializers whose parts all declare the number of values they yield.  Left out: counted arrays of basic types
(declare 0, yield 1), length-prefixed strings unless read by `unpack` (an empty one yields nothing), action lists of the
wrong length, `Condition` with the wrong number of defaults and unions over types that do not declare one value (the
library rejects these three when it builds them). -/
def Counted (buf : Bool) : Ser → Prop
  | .struct s => ∀ as, s.actions = some as → as.length = s.numValues
  | .dynChar _ _ => buf = true
  | .dynArr .. => False
  | .cond s _ defaults => Counted buf s ∧ defaults.length = s.numValues
  | .lookback _ _ _ opts d => CountedOpts buf opts ∧ (d = .null ∨ (Counted buf d ∧ d.numValues = 1))
  | .lookahead _ _ _ _ opts d => CountedOpts buf opts ∧ (d = .null ∨ (Counted buf d ∧ d.numValues = 1))
  | .compound _ ss => CountedList buf ss
  | .specialized _ _ ss => CountedList buf ss
  | _ => True
def CountedList (buf : Bool) : List Ser → Prop
  | [] => True
  | s :: ss => Counted buf s ∧ CountedList buf ss
def CountedOpts (buf : Bool) : List Ser → Prop
  | [] => True
  | s :: ss => (Counted buf s ∧ s.numValues = 1) ∧ CountedOpts buf ss
end

end Spec
end Verif
