import Verif.Spec.Sem
import Verif.Instances
/-
Notions used in the statements about instances.
-/
namespace Verif

mutual
/-- A value that equals itself: no NaN, no generator object, no instance of a user type, and every instance inside has all
the attributes of its class. -/
def Val.sane (env : Env) : Val → Bool
  | .float f => floatEq f f
  | .list vs => Val.saneList env vs
  | .tup vs => Val.saneList env vs
  | .obj c _ attrs => (match env.classes c with
      | Option.none => false
      | some ci => ci.attrs.all fun a => (getAttr? attrs a).isSome) && Val.saneAttrs env attrs
  | .custom .. => false
  | .gen => false
  | _ => true
def Val.saneList (env : Env) : List Val → Bool
  | [] => true
  | v :: vs => v.sane env && Val.saneList env vs
def Val.saneAttrs (env : Env) : List (Name × Val) → Bool
  | [] => true
  | (_, v) :: vs => v.sane env && Val.saneAttrs env vs
end

mutual
/-- How deeply containers and instances are nested. -/
def Val.eqDepth : Val → Nat
  | .list vs => Val.eqDepthList vs + 1
  | .tup vs => Val.eqDepthList vs + 1
  | .obj _ _ attrs => Val.eqDepthAttrs attrs + 1
  | _ => 1
def Val.eqDepthList : List Val → Nat
  | [] => 0
  | v :: vs => max v.eqDepth (Val.eqDepthList vs)
def Val.eqDepthAttrs : List (Name × Val) → Nat
  | [] => 0
  | (_, v) :: vs => max v.eqDepth (Val.eqDepthAttrs vs)
end

/-- Two partial objects of one class that have the same values in these attributes. -/
def Agrees (names : List Name) (p q : PObj) : Prop :=
  p.cls = q.cls ∧ p.isProxy = q.isProxy ∧ ∀ a ∈ names, getAttr? p.attrs a = getAttr? q.attrs a

mutual
/-- The deciders and conditions used when packing look at these attributes only. -/
def Ser.looksAt (names : List Name) : Ser → Prop
  | .unicode inner _ _ => inner.looksAt names
  | .array _ _ item _ => item.looksAt names
  | .tuple _ inner => inner.looksAt names
  | .lookback _ d _ opts dflt => (∀ p q, Agrees names p q → d p = d q) ∧ Ser.looksAtList names opts ∧ dflt.looksAt names
  | .lookahead _ _ d _ opts dflt => (∀ p q, Agrees names p q → d p = d q) ∧ Ser.looksAtList names opts ∧ dflt.looksAt names
  | .cond s c _ => (∀ p q, Agrees names p q → c p = c q) ∧ s.looksAt names
  | .compound _ ss => Ser.looksAtList names ss
  | .specialized _ _ ss => Ser.looksAtList names ss
  | _ => True
def Ser.looksAtList (names : List Name) : List Ser → Prop
  | [] => True
  | s :: ss => s.looksAt names ∧ Ser.looksAtList names ss
end

end Verif
