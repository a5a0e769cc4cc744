import Verif.Spec.Layout
import Verif.Spec.Sem
/-
Vocabulary for pads.
-/
namespace Verif.Spec

/-- `h` is `pad[k]`. -/
def PadHint (k : Nat) (h : Hint) : Prop := 0 < k ∧ mkPad k = .ok h

/-- The annotations of a class body after the pads among them have got names of their own, numbered from `k`. -/
inductive PadsNamed : Nat → List (Name × Hint) → List (Name × Hint) → Prop
  | nil (k : Nat) : PadsNamed k [] []
  | pad {k j : Nat} {h : Hint} {as bs : List (Name × Hint)} : PadHint j h → PadsNamed (k + 1) as bs →
      PadsNamed k (("_", h) :: as) ((padName k, h) :: bs)
  | other {k : Nat} {a : Name} {h : Hint} {as bs : List (Name × Hint)} : a ≠ "_" → PadsNamed k as bs →
      PadsNamed k ((a, h) :: as) ((a, h) :: bs)

/-- A name as Python's grammar allows: it does not start with a digit. -/
def IsIdentifier (a : Name) : Prop := ∀ c cs, a.toList = c :: cs → c.isDigit = false

/-- A pad of `k` bytes as a part of the serializers `ss`: those in `pre` come before the struct serializer it is
part of, and in that the items `t1` come before it. -/
structure PadAt (k : Nat) (ss pre : List Ser) (z : StructSer) (t1 t2 : List Tok) (post : List Ser) : Prop where
  parts : ss = pre ++ .struct z :: post
  items : ToksAgree z.toks (t1 ++ ⟨k, .pad⟩ :: t2)

/-- The bytes of `z` in front of the items behind `t1`. -/
def offsetAfter (z : StructSer) (t1 : List Tok) : Nat := endOff z.byteOrder.isNative t1 0

/-- How the parts `ss` of a class's serializer are prepared for packing (`api.py:255-265`). -/
def partPrep (ss : List Ser) (p : PObj) : Ser → M Ser := if needsPreprocess ss then fun s => s.prepack p else pure

/-- Reading the parts `pre` of the serializer of a class, one after the other, from the start of `src`. -/
def readFront (env : Env) (n : Nat) (cls : ClassId) (ci : ClassInfo) (pre : List Ser) (src : Sem.PSrc) : Out Sem.Dec :=
  if needsPreprocess (parts ci.serializer) then
    Sem.decLoopSpec (Sem.dec env n noUpd) (assignVals ci.attrs) src ⟨cls, true, []⟩ 0 0 src.pos pre
  else Sem.decLoop (Sem.dec env n noUpd) src 0 src.pos pre

/-- No class declares a name that the counter of `MetaDict` will give. -/
def _root_.Verif.World.PadsFresh (w : World) (k : Nat) : Prop :=
  ∀ c o, w c = some o → ∀ j, k ≤ j → padName j ∉ o.decls.map (·.1) ∧ padName j ∉ List.map (·.1) o.anns

end Verif.Spec
