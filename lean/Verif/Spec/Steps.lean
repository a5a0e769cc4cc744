import Verif.Spec.Read

/-!
Classes that leave a stream as far from where it was as their size says.
-/
namespace Verif

mutual
/-- Reading ahead only if `peek`, and then no .NET strings: when these are cut short, going back goes too far.  Lengths of strings are unsigned. -/
def Ser.steps (peek : Bool) : Ser → Bool
  | .dynChar _ st => st.isCount
  | .net _ => !peek
  | .unicode inner _ _ => inner.steps peek
  | .array _ _ item _ => item.steps peek
  | .tuple _ inner => inner.steps peek
  | .lookback _ _ _ opts dflt => Ser.stepsList peek opts && dflt.steps peek
  | .lookahead _ ra _ _ opts dflt => peek && ra.steps peek && Ser.stepsList peek opts && dflt.steps peek
  | .cond s _ _ => s.steps peek
  | .compound _ ss => Ser.stepsList peek ss
  | .specialized _ _ ss => Ser.stepsList peek ss
  | _ => true
def Ser.stepsList (peek : Bool) : List Ser → Bool
  | [] => true
  | s :: ss => s.steps peek && Ser.stepsList peek ss
end

/-- All classes of a program are like this. -/
def Env.steps (env : Env) (peek : Bool) : Prop := ∀ c ci, env.classes c = some ci → ci.serializer.steps peek = true

end Verif
