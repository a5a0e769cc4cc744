import Verif.Spec.Sem
/-
Conditions on serializers under which nothing an operation does depends on earlier operations.  They are
computable: for a concrete class they are checked by evaluation.
-/
namespace Verif

mutual
/-- All objects in a serializer that remember a partial object, the serializer itself included. -/
def Ser.keepers : Ser → List SerId
  | .unicode inner _ _ => inner.keepers
  | .array id _ item _ => id :: item.keepers
  | .tuple id inner => id :: inner.keepers
  | .lookback id _ _ opts dflt => id :: (Ser.keepersList opts ++ dflt.keepers)
  | .lookahead id ra _ _ opts dflt => id :: (ra.keepers ++ (Ser.keepersList opts ++ dflt.keepers))
  | .cond s _ _ => s.keepers
  | .compound _ ss => Ser.keepersList ss
  | .specialized _ _ ss => Ser.keepersList ss
  | _ => []
def Ser.keepersList : List Ser → List SerId
  | [] => []
  | s :: ss => s.keepers ++ Ser.keepersList ss
end

/-- Those properly inside it. -/
def Ser.inside (s : Ser) : List SerId := if s.keeper.isSome then s.keepers.tail else s.keepers

mutual
/-- Objects that remember a partial object and are the item serializer of an array. -/
def Ser.itemKeepers : Ser → List SerId
  | .unicode inner _ _ => inner.itemKeepers
  | .array _ _ item _ => item.keeper.toList ++ item.itemKeepers
  | .tuple _ inner => inner.itemKeepers
  | .lookback _ _ _ opts dflt => Ser.itemKeepersList opts ++ dflt.itemKeepers
  | .lookahead _ ra _ _ opts dflt => ra.itemKeepers ++ (Ser.itemKeepersList opts ++ dflt.itemKeepers)
  | .cond s _ _ => s.itemKeepers
  | .compound _ ss => Ser.itemKeepersList ss
  | .specialized _ _ ss => Ser.itemKeepersList ss
  | _ => []
def Ser.itemKeepersList : List Ser → List SerId
  | [] => []
  | s :: ss => s.itemKeepers ++ Ser.itemKeepersList ss
end

mutual
/-- Usable without a partial object. -/
def Ser.free : Ser → Bool
  | .unicode inner _ _ => inner.free
  | .array .. | .tuple .. | .lookback .. | .lookahead .. | .specialized .. => false
  | .compound _ ss => Ser.freeList ss
  | _ => true
def Ser.freeList : List Ser → Bool
  | [] => true
  | s :: ss => s.free && Ser.freeList ss
end

/-- A serializer that contains no others (a text encoding around one is allowed). -/
def Ser.leaf : Ser → Bool
  | .unicode inner _ _ => inner.leaf
  | .null | .struct _ | .dynChar .. | .consuming _ | .terminated .. | .net _ | .staticArr .. | .dynArr .. => true
  | _ => false

mutual
/-- Wherever a partial object is needed one is provided: no array, tuple or union sits under a
`Condition` or under a text encoding, and no array is its own item.  For unpacking (`unp`) moreover: tuples
and union members are a single serializer, and read-ahead serializers are leaves. -/
def Ser.tame (unp : Bool) : Ser → Bool
  | .unicode inner _ _ => inner.free && inner.tame unp
  | .array _ _ item _ => item.tame unp && item.keeper.all (fun k => !item.inside.contains k)
  | .tuple _ inner => inner.tame unp && !(unp && inner.canBeLazy)
  | .lookback _ _ _ opts dflt => Ser.tameList unp opts && dflt.tame unp && !(unp && (opts.any Ser.canBeLazy || dflt.canBeLazy))
  | .lookahead _ ra _ _ opts dflt => Ser.tameList unp opts && dflt.tame unp &&
      !(unp && (opts.any Ser.canBeLazy || dflt.canBeLazy || !ra.leaf))
  | .cond s _ _ => s.free && s.tame unp
  | .compound _ ss => Ser.tameList unp ss
  | .specialized _ _ ss => Ser.tameList unp ss
  | _ => true
def Ser.tameList (unp : Bool) : List Ser → Bool
  | [] => true
  | s :: ss => s.tame unp && Ser.tameList unp ss
/-- The serializer, or what a `Condition` stands for, is a compound. -/
def Ser.canBeLazy : Ser → Bool
  | .cond s _ _ => s.canBeLazy
  | .compound .. | .specialized .. => true
  | _ => false
end

mutual
/-- The objects in a value: class, instance byte order and attributes, outer before inner. -/
def Val.nodes : Val → List (ClassId × Option ByteOrder × List (Name × Val))
  | .list vs => Val.nodesList vs
  | .tup vs => Val.nodesList vs
  | .obj c bo attrs => (c, bo, attrs) :: Val.nodesAttrs attrs
  | .custom _ v => v.nodes
  | _ => []
def Val.nodesList : List Val → List (ClassId × Option ByteOrder × List (Name × Val))
  | [] => []
  | v :: vs => v.nodes ++ Val.nodesList vs
def Val.nodesAttrs : List (Name × Val) → List (ClassId × Option ByteOrder × List (Name × Val))
  | [] => []
  | (_, v) :: vs => v.nodes ++ Val.nodesAttrs vs
end

/-- Packing these objects hands a partial object to the serializer object `i`. -/
def Handles (env : Env) (nodes : List (ClassId × Option ByteOrder × List (Name × Val))) (i : SerId) : Prop :=
  ∃ c bo attrs ci ser, (c, bo, attrs) ∈ nodes ∧ objSer env c bo = .ok (ci, ser) ∧ i ∈ ser.keepers

/-- Every object in these uses a tame serializer, and no object contains another one that uses the same
array of arrays, tuples or unions. -/
def Calm (env : Env) (nodes : List (ClassId × Option ByteOrder × List (Name × Val))) : Prop :=
  ∀ c bo attrs ci ser, (c, bo, attrs) ∈ nodes → objSer env c bo = .ok (ci, ser) →
    ser.tame false = true ∧ ∀ k ∈ ser.itemKeepers, ¬ Handles env (Val.nodesAttrs attrs) k

/-! ### Unpacking -/

mutual
/-- The classes whose objects a serializer reads; `self` is the class `Self` stands for. -/
def Ser.reads (self : ClassId) : Ser → List ClassId
  | .unicode inner _ _ => inner.reads self
  | .array _ _ item _ => item.reads self
  | .tuple _ inner => inner.reads self
  | .lookback _ _ _ opts dflt => Ser.readsList self opts ++ dflt.reads self
  | .lookahead _ ra _ _ opts dflt => ra.reads self ++ (Ser.readsList self opts ++ dflt.reads self)
  | .cond s _ _ => s.reads self
  | .structured _ c => [c]
  | .selfT _ => [self]
  | .compound _ ss => Ser.readsList self ss
  | .specialized _ _ ss => Ser.readsList self ss
  | _ => []
def Ser.readsList (self : ClassId) : List Ser → List ClassId
  | [] => []
  | s :: ss => s.reads self ++ Ser.readsList self ss
end

mutual
/-- No array's item serializer is handed a partial object by the objects among the items. `own c` lists what
objects of class `c` (and the objects in them) may hand one to. -/
def Ser.apart (own : ClassId → List SerId) (self : ClassId) : Ser → Bool
  | .unicode inner _ _ => inner.apart own self
  | .array _ _ item _ => item.apart own self &&
      item.keeper.all (fun k => (item.reads self).all fun d => !(own d).contains k)
  | .tuple _ inner => inner.apart own self
  | .lookback _ _ _ opts dflt => Ser.apartList own self opts && dflt.apart own self
  | .lookahead _ _ _ _ opts dflt => Ser.apartList own self opts && dflt.apart own self
  | .cond s _ _ => s.apart own self
  | .compound _ ss => Ser.apartList own self ss
  | .specialized _ p ss => p.cls == self && Ser.apartList own self ss
  | _ => true
def Ser.apartList (own : ClassId → List SerId) (self : ClassId) : List Ser → Bool
  | [] => true
  | s :: ss => s.apart own self && Ser.apartList own self ss
end

/-- `own` is closed under the classes read, and all classes are tame and apart. -/
def Env.settled (env : Env) (own : ClassId → List SerId) : Prop :=
  ∀ c ci, env.classes c = some ci →
    ci.serializer.tame true = true ∧ ci.serializer.apart own c = true ∧
    (∀ i ∈ ci.serializer.keepers, i ∈ own c) ∧ ∀ d ∈ ci.serializer.reads c, ∀ i ∈ own d, i ∈ own c

end Verif
