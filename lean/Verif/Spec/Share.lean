import Verif.Share
/-
What objects share, for C69.
-/
namespace Verif.Share

mutual
/-- The identities of the objects made while unpacking. -/
def TVal.locs : TVal → List Nat
  | .plain _ => []
  | .shared _ => []
  | .list l vs => l :: locsL vs
  | .tup vs => locsL vs
  | .obj l _ _ vs => l :: locsL vs
def locsL : List TVal → List Nat
  | [] => []
  | t :: ts => t.locs ++ locsL ts
end

mutual
/-- The mutable objects that were there before. -/
def TVal.olds : TVal → List Val
  | .plain _ => []
  | .shared v => [v]
  | .list _ vs => oldsL vs
  | .tup vs => oldsL vs
  | .obj _ _ _ vs => oldsL vs
def oldsL : List TVal → List Val
  | [] => []
  | t :: ts => t.olds ++ oldsL ts
end

/-- The identities of an instance and of all objects in it. -/
def Inst.locs (x : Inst) : List Nat := x.loc :: locsL x.vals

mutual
/-- Changing the object with identity `l` in place: its items or attribute values become `ws`. -/
def TVal.put (l : Nat) (ws : List TVal) : TVal → TVal
  | .plain v => .plain v
  | .shared v => .shared v
  | .list m vs => .list m (if m = l then ws else putL l ws vs)
  | .tup vs => .tup (putL l ws vs)
  | .obj m cls names vs => .obj m cls names (if m = l then ws else putL l ws vs)
def putL (l : Nat) (ws : List TVal) : List TVal → List TVal
  | [] => []
  | t :: ts => t.put l ws :: putL l ws ts
end

mutual
/-- The default values of all `Condition`s in a serializer. -/
def defaults : Ser → List Val
  | .unicode inner _ _ => defaults inner
  | .array _ _ item _ => defaults item
  | .tuple _ inner => defaults inner
  | .lookback _ _ _ opts dflt => defaultsL opts ++ defaults dflt
  | .lookahead _ readAhead _ _ opts dflt => defaults readAhead ++ defaultsL opts ++ defaults dflt
  | .cond ser _ vals => vals ++ defaults ser
  | .skip vals => vals
  | .compound _ ss => defaultsL ss
  | .specialized _ _ ss => defaultsL ss
  | _ => []
def defaultsL : List Ser → List Val
  | [] => []
  | s :: ss => defaults s ++ defaultsL ss
end

/-- Values that can be changed in place, or contain one that can: lists, instances, objects of other types, generators, and tuples with
such items. -/
inductive Mutable : Val → Prop
  | list (vs : List Val) : Mutable (.list vs)
  | obj (c : ClassId) (bo : Option ByteOrder) (attrs : List (Name × Val)) : Mutable (.obj c bo attrs)
  | custom (t : Nat) (v : Val) : Mutable (.custom t v)
  | gen : Mutable .gen
  | tup {vs : List Val} {v : Val} : v ∈ vs → Mutable v → Mutable (.tup vs)

/-- A mutable default value of a `Condition` in one of the classes. -/
def Default (env : Env) (v : Val) : Prop :=
  frozen v = false ∧ ∃ c ci, env.classes c = some ci ∧ v ∈ defaults ci.serializer

/-- Every default value in the classes is immutable. -/
def FrozenDefaults (env : Env) : Prop :=
  ∀ c ci, env.classes c = some ci → ∀ v ∈ defaults ci.serializer, frozen v = true

/-- Two values have no mutable object in common, and none that a class could hand out again. -/
def Apart (t u : TVal) : Prop := (∀ l ∈ t.locs, l ∉ u.locs) ∧ t.olds = [] ∧ u.olds = []

end Verif.Share
