import Verif.Spec.Values
import Verif.Spec.Struct
import Verif.Proofs.AddLemmas
/-
Sums of serializers, in any grouping, and what they should be.
-/
namespace Verif.Spec

/-- An expression made of serializers and `+`; every `+` makes a compound with its own identity. -/
inductive Sum
  | leaf (s : Ser)
  | plus (id : SerId) (l r : Sum)

/-- The serializers from left to right. -/
def Sum.leaves : Sum → List Ser
  | .leaf s => [s]
  | .plus _ l r => l.leaves ++ r.leaves

/-- The value of the expression. -/
def Sum.eval (clsFinal : ClassId → Bool) : Sum → Except Err Ser
  | .leaf s => .ok s
  | .plus id l r => do
    let a ← l.eval clsFinal
    let b ← r.eval clsFinal
    a.add clsFinal id b

/-- The serializers a serializer consists of. -/
def parts : Ser → List Ser
  | .null => []
  | .compound _ ss => ss
  | s => [s]

/-- The second list arises from the first by leaving out `NullSerializer`s and replacing neighbouring struct serializers
`x`, `y` by `z` where `J x y z`. -/
inductive Merge (J : StructSer → StructSer → StructSer → Prop) : List Ser → List Ser → Prop
  | refl (xs : List Ser) : Merge J xs xs
  | null {pre post ys : List Ser} : Merge J (pre ++ post) ys → Merge J (pre ++ .null :: post) ys
  | join {pre post ys : List Ser} {x y z : StructSer} : J x y z → Merge J (pre ++ .struct z :: post) ys →
      Merge J (pre ++ .struct x :: .struct y :: post) ys

/-- `z` is the sum of `x` and `y`. -/
def IsSum (x y z : StructSer) : Prop := x.add y = .ok z

/-- `z` is the sum of `x` and `y`, which have the same byte order; the sum does not run into the error in
`fold_overlaps`, and no alignment padding falls between the two. -/
structure CleanSum (x y z : StructSer) : Prop where
  sum : x.add y = .ok z
  xok : x.Valid
  yok : y.Valid
  byteOrder : x.byteOrder = y.byteOrder
  seam : Seam y.baseFormat x.toks y.toks
  fits : ∀ t ∈ y.toks, x.size % t.c.align x.byteOrder.isNative = 0

/-- Neither a compound nor a specialized one: what type hints give. -/
def Simple (s : Ser) : Prop := s.isCompound = false

/-- A field of a class in byte order `bo`: not a compound; basic types consist of one item (`'B'`, `'12s'`). -/
def FieldOf (bo : ByteOrder) (s : Ser) : Prop :=
  Simple s ∧ ∀ x, s = .struct x → x.Valid ∧ x.byteOrder = bo ∧ SingleItem x.baseFormat

end Verif.Spec
namespace Verif.Spec

/-- The two computations succeed in the same cases, with the same result and the same effects. -/
def SameOk (a b : M α) : Prop := ∀ st r st', a st = .ok r st' ↔ b st = .ok r st'

/-- Storing values one serializer at a time is storing them all. -/
structure UpdSeq (upd : Upd) : Prop where
  nil : ∀ p k, upd p k [] = .ok p
  append : ∀ p k vs ws q, upd p k (vs ++ ws) = .ok q ↔ ∃ p1, upd p k vs = .ok p1 ∧ upd p1 (k + vs.length) ws = .ok q

end Verif.Spec
