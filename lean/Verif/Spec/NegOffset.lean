import Verif.NegOffset
/-
Vocabulary for C42 (negative offsets).
-/
namespace Verif

mutual
/-- No read-to-end strings, and no terminated strings unless `t`. -/
def Ser.noTail (t : Bool) : Ser → Bool
  | .consuming _ => false
  | .terminated .. => t
  | .unicode inner _ _ => inner.noTail t
  | .array _ _ item _ => item.noTail t
  | .tuple _ inner => inner.noTail t
  | .lookback _ _ _ opts dflt => Ser.noTailList t opts && dflt.noTail t
  | .lookahead _ ra _ _ opts dflt => ra.noTail t && Ser.noTailList t opts && dflt.noTail t
  | .cond s _ _ => s.noTail t
  | .compound _ ss => Ser.noTailList t ss
  | .specialized _ _ ss => Ser.noTailList t ss
  | _ => true
def Ser.noTailList (t : Bool) : List Ser → Bool
  | [] => true
  | s :: ss => s.noTail t && Ser.noTailList t ss
end

/-- No class of the program has such strings. -/
def Env.noTail (env : Env) (t : Bool) : Prop :=
  ∀ c ci, env.classes c = some ci → ci.serializer.noTail t = true

/-- The result without the state. -/
def Neg.result : Neg.NRes α → Except Err α
  | .ok a _ => .ok a
  | .err e _ => .error e

/-- The state of `Ops.lean` as a state with integer sizes. -/
def Neg.emb (st : St) : Neg.NSt :=
  ⟨{ st with cells := fun i => { st.cells i with size := 0 } }, fun i => (st.cells i).size⟩

end Verif
