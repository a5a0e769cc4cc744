import Verif.Ops
import Verif.Spec.Struct
/-
How long the lists and byte strings of an unpacked object can be.
-/
namespace Verif

mutual
/-- No list in the value has more than `m` items, no byte string more than `m` bytes. -/
def Val.Within (m : Nat) : Val → Prop
  | .bytes b => b.length ≤ m
  | .list vs => vs.length ≤ m ∧ Val.WithinList m vs
  | .tup vs => Val.WithinList m vs
  | .obj _ _ attrs => Val.WithinAttrs m attrs
  | .custom _ v => v.Within m
  | _ => True
def Val.WithinList (m : Nat) : List Val → Prop
  | [] => True
  | v :: vs => v.Within m ∧ Val.WithinList m vs
def Val.WithinAttrs (m : Nat) : List (Name × Val) → Prop
  | [] => True
  | (_, v) :: vs => v.Within m ∧ Val.WithinAttrs m vs
end

/-- The number of bytes in front of the reader. -/
def Src.left (src : Src) (st : St) : Nat :=
  match src with
  | .buf b => b.length
  | .at b off => b.length - off
  | .io => st.io.data.length - st.io.pos

mutual
/-- Takes at least one byte, if the objects of the classes in `S` do. -/
def Ser.Solid (S : ClassId → Prop) : Ser → Prop
  | .struct s => 1 ≤ s.size
  | .dynChar _ h => 1 ≤ h.size ∧ h.actions = none ∧ ∃ w, h.toks = [⟨1, .int false w⟩]
  | .terminated .. => True
  | .net _ => True
  | .unicode inner _ _ => inner.Solid S
  | .array _ hdr item sl => (∃ h, hdr = some h ∧ 1 ≤ h.size) ∨ (1 ≤ sl ∧ item.Solid S)
  | .staticArr _ _ ser => ∃ s, ser = some s ∧ 1 ≤ s.size
  | .dynArr _ cnt _ => 1 ≤ cnt.size
  | .tuple _ inner => inner.isLazy = false ∧ inner.Solid S
  | .lookback _ _ _ opts dflt => Ser.SolidAll S opts ∧ (dflt = .null ∨ dflt.isLazy = false ∧ dflt.Solid S)
  | .lookahead _ _ _ _ opts dflt => Ser.SolidAll S opts ∧ (dflt = .null ∨ dflt.isLazy = false ∧ dflt.Solid S)
  | .structured _ c => S c
  | .selfT _ => ∀ c, S c
  | .compound _ ss => Ser.SolidSome S ss
  | .specialized _ _ ss => Ser.SolidSome S ss
  | _ => False
def Ser.SolidAll (S : ClassId → Prop) : List Ser → Prop
  | [] => True
  | s :: ss => (s.isLazy = false ∧ s.Solid S) ∧ Ser.SolidAll S ss
def Ser.SolidSome (S : ClassId → Prop) : List Ser → Prop
  | [] => False
  | s :: ss => s.Solid S ∨ Ser.SolidSome S ss
end

mutual
/-- Gives at most one value. -/
def Ser.Single : Ser → Prop
  | .struct s => numVals s.toks ≤ 1
  | .lookback _ _ _ opts dflt => Ser.SingleAll opts ∧ dflt.Single
  | .lookahead _ _ _ _ opts dflt => Ser.SingleAll opts ∧ dflt.Single
  | .cond .. => False
  | .skip _ => False
  | .compound .. => False
  | .specialized .. => False
  | _ => True
def Ser.SingleAll : List Ser → Prop
  | [] => True
  | s :: ss => s.Single ∧ Ser.SingleAll ss
end

/-- The callbacks make nothing longer than `D`. -/
def StructSer.Slim (D : Nat) (s : StructSer) : Prop :=
  ∀ as, s.actions = some as → ∀ a ∈ as, ∀ m v w, D ≤ m → v.Within m → a v = .ok w → w.Within m

/-- Every value of the format has a byte of its own. -/
def StructSer.Spends (s : StructSer) : Prop := ∀ t ∈ s.toks, t.numVals ≤ t.n

mutual
/-- Arrays have items of at least one byte or a fixed length of at most `D`; conditional defaults and callbacks make
nothing longer than `D`; read-ahead types are formats. -/
def Ser.Slim (S : ClassId → Prop) (D : Nat) : Ser → Prop
  | .struct s => s.Slim D
  | .unicode inner _ _ => inner.Slim S D
  | .array _ _ item sl => item.Slim S D ∧ item.Single ∧ (item.Solid S ∨ 0 ≤ sl ∧ sl ≤ D)
  | .staticArr _ _ ser => ∀ s, ser = some s → s.Slim D ∧ (numVals s.toks ≤ D ∨ s.Spends)
  | .dynArr _ _ item => item.Slim D ∧ item.Spends ∧ item.toks ≠ [] ∧ SingleItem item.baseFormat
  | .tuple _ inner => inner.Slim S D
  | .lookback _ _ _ opts dflt => Ser.SlimList S D opts ∧ dflt.Slim S D
  | .lookahead _ ra _ _ opts dflt => (∃ s, ra = .struct s) ∧ Ser.SlimList S D opts ∧ dflt.Slim S D
  | .cond s _ defs => s.Slim S D ∧ Val.WithinList D defs
  | .skip vals => Val.WithinList D vals
  | .compound _ ss => Ser.SlimList S D ss
  | .specialized _ _ ss => Ser.SlimList S D ss
  | _ => True
def Ser.SlimList (S : ClassId → Prop) (D : Nat) : List Ser → Prop
  | [] => True
  | s :: ss => s.Slim S D ∧ Ser.SlimList S D ss
end

/-- So are all classes of the program; those in `S` take at least one byte. -/
def Env.Slim (env : Env) (S : ClassId → Prop) (D : Nat) : Prop :=
  ∀ c ci, env.classes c = some ci → ci.serializer.Slim S D ∧ (S c → ci.serializer.Solid S) ∧
    ∀ m attrs attrs', D ≤ m → Val.WithinAttrs m attrs → ci.postInit attrs = .ok attrs' → Val.WithinAttrs m attrs'

end Verif
