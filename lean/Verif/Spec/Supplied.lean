import Verif.Spec.Footprint
/-
Every attribute a call reads from a serializer object has been set before by the same call.
-/
namespace Verif

mutual
/-- Works when handed the partial object: so do the serializers it hands it to, and those it does not hand it to (under a
text encoding or a `Condition`, or read ahead) need none.  For unpacking (`unp`), tuples and union members are not several
serializers in a row: these are unpacked after their size has been read. -/
def Ser.supplied (unp : Bool) : Ser → Bool
  | .unicode inner _ _ => inner.unaided unp
  | .array _ _ item _ => item.supplied unp
  | .tuple _ inner => inner.supplied unp && !(unp && inner.canBeLazy)
  | .lookback _ _ _ opts dflt => Ser.suppliedList unp opts && dflt.supplied unp && !(unp && (opts.any Ser.canBeLazy || dflt.canBeLazy))
  | .lookahead _ ra _ _ opts dflt => Ser.suppliedList unp opts && dflt.supplied unp &&
      !(unp && (opts.any Ser.canBeLazy || dflt.canBeLazy || !ra.unaided unp))
  | .cond s _ _ => s.unaided unp
  | .compound _ ss => Ser.suppliedList unp ss
  | .specialized _ _ ss => Ser.suppliedList unp ss
  | _ => true
def Ser.suppliedList (unp : Bool) : List Ser → Bool
  | [] => true
  | s :: ss => s.supplied unp && Ser.suppliedList unp ss
/-- Works without being handed a partial object. -/
def Ser.unaided (unp : Bool) : Ser → Bool
  | .unicode inner _ _ => inner.unaided unp
  | .array .. | .tuple .. | .lookback .. | .lookahead .. | .specialized .. => false
  | .compound _ ss => Ser.unaidedList unp ss
  | _ => true
def Ser.unaidedList (unp : Bool) : List Ser → Bool
  | [] => true
  | s :: ss => s.unaided unp && Ser.unaidedList unp ss
end

/-- The serializers a call uses are supplied: for packing, those of the objects packed; for unpacking, those of the classes
that may be read. -/
def Threads.Task.Supplied (env : Env) : Threads.Task → Prop
  | .pack v | .packInto _ v | .packWrite v =>
    ∀ c bo attrs ci ser, (c, bo, attrs) ∈ v.nodes → objSer env c bo = .ok (ci, ser) → ser.supplied false = true
  | .createUnpack cls _ => ∀ c ci, Reaches env cls c → env.classes c = some ci → ci.serializer.supplied true = true
  | .unpack (.obj cls bo _) _ => (∀ c ci, Reaches env cls c → env.classes c = some ci → ci.serializer.supplied true = true) ∧
      ∀ ci ser, objSer env cls bo = .ok (ci, ser) → ser.supplied true = true
  | .unpack .. => True

/-- All classes of a program have supplied serializers, for packing and for unpacking. -/
def Env.supplied (env : Env) : Prop :=
  ∀ c ci, env.classes c = some ci → ci.serializer.supplied false = true ∧ ci.serializer.supplied true = true

end Verif
