import Verif.ShortReads

/-!
Which classes can be read from streams that have no position.
-/
namespace Verif

mutual
/-- No terminated strings, .NET strings and unions that read ahead, unless `b`. -/
def Ser.forward (b : Bool) : Ser → Bool
  | .terminated .. => b
  | .net _ => b
  | .lookahead .. => b
  | .unicode inner _ _ => inner.forward b
  | .array _ _ item _ => item.forward b
  | .tuple _ inner => inner.forward b
  | .lookback _ _ _ opts dflt => Ser.forwardList b opts && dflt.forward b
  | .cond s _ _ => s.forward b
  | .compound _ ss => Ser.forwardList b ss
  | .specialized _ _ ss => Ser.forwardList b ss
  | _ => true
def Ser.forwardList (b : Bool) : List Ser → Bool
  | [] => true
  | s :: ss => s.forward b && Ser.forwardList b ss
end

/-- No class of the program has such strings or unions. -/
def Env.forward (env : Env) : Prop := ∀ c ci, env.classes c = some ci → ci.serializer.forward false = true

/-- The outcomes are the same, or the first one is what `tell` and `seek` raise. -/
def Short.SameOrUnsupported (e : Err) (x y : Res α × List (Option Nat)) : Prop := x = y ∨ ∃ st cuts, x = (.err e st, cuts)

end Verif
