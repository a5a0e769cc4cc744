import Verif.Spec.History
import Verif.Spec.Threads
/-
Which serializer objects a call may look at or change.
-/
namespace Verif

mutual
/-- The serializer objects with attributes of their own (`size`, `_partial_object`) in a serializer. -/
def Ser.ids : Ser → List SerId
  | .null | .struct _ | .staticArr .. | .skip _ => []
  | .dynChar id _ | .consuming id | .terminated id _ | .net id | .dynArr id _ _ | .structured id _ | .selfT id => [id]
  | .unicode inner _ _ => inner.ids
  | .array id _ item _ => id :: item.ids
  | .tuple id inner => id :: inner.ids
  | .lookback id _ _ opts dflt => id :: (Ser.idsList opts ++ dflt.ids)
  | .lookahead id ra _ _ opts dflt => id :: (ra.ids ++ (Ser.idsList opts ++ dflt.ids))
  | .cond s _ _ => s.ids
  | .compound id ss => id :: Ser.idsList ss
  | .specialized id _ ss => id :: Ser.idsList ss
def Ser.idsList : List Ser → List SerId
  | [] => []
  | s :: ss => s.ids ++ Ser.idsList ss
end

mutual
/-- The other classes named in a serializer. -/
def Ser.names : Ser → List ClassId
  | .unicode inner _ _ => inner.names
  | .array _ _ item _ => item.names
  | .tuple _ inner => inner.names
  | .lookback _ _ _ opts dflt => Ser.namesList opts ++ dflt.names
  | .lookahead _ ra _ _ opts dflt => ra.names ++ (Ser.namesList opts ++ dflt.names)
  | .cond s _ _ => s.names
  | .structured _ c => [c]
  | .compound _ ss => Ser.namesList ss
  | .specialized _ p ss => p.cls :: Ser.namesList ss
  | _ => []
def Ser.namesList : List Ser → List ClassId
  | [] => []
  | s :: ss => s.names ++ Ser.namesList ss
end

mutual
/-- There is a `Self` in the serializer. -/
def Ser.hasSelf : Ser → Bool
  | .selfT _ => true
  | .unicode inner _ _ => inner.hasSelf
  | .array _ _ item _ => item.hasSelf
  | .tuple _ inner => inner.hasSelf
  | .lookback _ _ _ opts dflt => Ser.hasSelfList opts || dflt.hasSelf
  | .lookahead _ ra _ _ opts dflt => ra.hasSelf || (Ser.hasSelfList opts || dflt.hasSelf)
  | .cond s _ _ => s.hasSelf
  | .compound _ ss => Ser.hasSelfList ss
  | .specialized _ _ ss => Ser.hasSelfList ss
  | _ => false
def Ser.hasSelfList : List Ser → Bool
  | [] => false
  | s :: ss => s.hasSelf || Ser.hasSelfList ss
end

/-- Packing these objects uses the serializer object `i`: it is in the serializer of one of them. -/
def PackUses (env : Env) (nodes : List (ClassId × Option ByteOrder × List (Name × Val))) (i : SerId) : Prop :=
  ∃ c bo attrs ci ser, (c, bo, attrs) ∈ nodes ∧ objSer env c bo = .ok (ci, ser) ∧ i ∈ ser.ids

/-- Objects of class `c` are made of objects of class `d` among others. -/
inductive Reaches (env : Env) (c : ClassId) : ClassId → Prop
  | refl : Reaches env c c
  | step {d e : ClassId} {ci : ClassInfo} : Reaches env c d → env.classes d = some ci → e ∈ ci.serializer.names → Reaches env c e

/-- Making an object of class `c` uses the serializer object `i`. -/
def MakeUses (env : Env) (c : ClassId) (i : SerId) : Prop :=
  ∃ d ci, Reaches env c d ∧ env.classes d = some ci ∧ i ∈ ci.serializer.ids

/-- Reading into an object of class `c` with byte order `bo` uses the serializer object `i`. -/
def ReadUses (env : Env) (c : ClassId) (bo : Option ByteOrder) (i : SerId) : Prop :=
  MakeUses env c i ∨ ∃ ci ser, objSer env c bo = .ok (ci, ser) ∧ i ∈ ser.ids

/-- The same attributes on all objects in `I`. -/
def Agree (I : SerId → Prop) (c d : SerId → Cell) : Prop := ∀ i, I i → c i = d i

/-- A partial object left on an object in `I` is of a class in `C`. -/
def Parts (I : SerId → Prop) (C : ClassId → Prop) (c : SerId → Cell) : Prop := ∀ i, I i → ∀ p, (c i).part = some p → C p.cls

/-- The serializer objects a call uses. -/
def Threads.Task.Uses (env : Env) : Threads.Task → SerId → Prop
  | .pack v | .packInto _ v | .packWrite v => PackUses env v.nodes
  | .createUnpack cls _ => MakeUses env cls
  | .unpack (.obj cls bo _) _ => ReadUses env cls bo
  | .unpack .. => fun _ => False

/-- For reading with `Self`: partial objects left by earlier calls on the serializers used are of classes the object is
made of. -/
def Threads.Task.Settled (env : Env) (t : Threads.Task) (st : St) : Prop :=
  match t with
  | .createUnpack cls _ | .unpack (.obj cls _ _) _ =>
    (∃ d ci, Reaches env cls d ∧ env.classes d = some ci ∧ ci.serializer.hasSelf = true) →
      Parts (t.Uses env) (Reaches env cls) st.cells
  | _ => True

/-- The state after a call, returned or raised. -/
def Threads.Task.leaves (env : Env) (n : Nat) (t : Threads.Task) (st : St) : St :=
  match t.alone env n st with
  | .ok _ s => s
  | .err _ s => s

/-- Calls with none of the serializer objects in `I`, one after the other. -/
def Threads.Elsewhere (env : Env) (n : Nat) (I : SerId → Prop) : List Threads.Task → St → Prop
  | [], _ => True
  | u :: us, st => u.Settled env st ∧ (∀ i, u.Uses env i → ¬ I i) ∧ Elsewhere env n I us (u.leaves env n st)

/-- The state after these calls. -/
def Threads.leavesAll (env : Env) (n : Nat) (us : List Threads.Task) (st : St) : St := us.foldl (fun st u => u.leaves env n st) st

/-- The same reply or exception, the same buffer and stream, and the same attributes on all objects in `I`. -/
def SameOn (I : SerId → Prop) : Res α → Res α → Prop
  | .ok a s, .ok b t => b = a ∧ t.buf = s.buf ∧ t.io = s.io ∧ Agree I s.cells t.cells
  | .err e s, .err f t => f = e ∧ t.buf = s.buf ∧ t.io = s.io ∧ Agree I s.cells t.cells
  | _, _ => False

mutual
/-- Every part is one that `with_byte_order` makes anew, or has no attributes of its own. -/
def Ser.remade : Ser → Bool
  | .null | .struct _ | .staticArr .. | .skip _ | .dynChar .. | .dynArr .. => true
  | .array _ _ item _ => item.remade
  | .cond s _ _ => s.remade
  | .compound _ ss => Ser.remadeList ss
  | _ => false
def Ser.remadeList : List Ser → Bool
  | [] => true
  | s :: ss => s.remade && Ser.remadeList ss
end

end Verif
