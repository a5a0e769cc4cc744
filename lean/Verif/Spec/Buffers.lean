import Verif.Buffers
/-
Vocabulary for C46 (the kind of the buffer).
-/
namespace Verif
open Buf

mutual
/-- No slice of a buffer that is not `bytes`, anywhere in the value. -/
def Val.NoSlice : Val → Prop
  | .list vs => Val.NoSliceList vs
  | .tup vs => Val.NoSliceList vs
  | .obj _ _ attrs => Val.NoSliceAttrs attrs
  | .custom tag v => ¬ (1 ≤ tag ∧ tag ≤ 3) ∧ v.NoSlice
  | _ => True
def Val.NoSliceList : List Val → Prop
  | [] => True
  | v :: vs => v.NoSlice ∧ Val.NoSliceList vs
def Val.NoSliceAttrs : List (Name × Val) → Prop
  | [] => True
  | (_, v) :: vs => v.NoSlice ∧ Val.NoSliceAttrs vs
end

/-- The actions make no slices. -/
def StructSer.Plain (s : StructSer) : Prop :=
  ∀ as, s.actions = some as → ∀ a ∈ as, ∀ v w, v.NoSlice → a v = .ok w → w.NoSlice

mutual
/-- No read-to-end strings unless `raw`, no `char[NET]` unless `net`, and callbacks that make no slices of buffers. -/
def Ser.Plain (raw net : Bool) : Ser → Prop
  | .struct s => s.Plain
  | .consuming _ => raw = true
  | .net _ => net = true
  | .unicode inner _ _ => inner.Plain raw net
  | .array _ _ item _ => item.Plain raw net
  | .staticArr _ _ ser => ∀ s, ser = some s → s.Plain
  | .dynArr _ _ item => item.Plain
  | .tuple _ inner => inner.Plain raw net
  | .lookback _ dec _ opts dflt =>
    (∀ p r, Val.NoSliceAttrs p.attrs → dec p = .ok r → r.NoSlice) ∧ Ser.PlainList raw net opts ∧ dflt.Plain raw net
  | .lookahead _ ra _ _ opts dflt => ra.Plain raw net ∧ Ser.PlainList raw net opts ∧ dflt.Plain raw net
  | .cond s _ defs => s.Plain raw net ∧ Val.NoSliceList defs
  | .skip vals => Val.NoSliceList vals
  | .compound _ ss => Ser.PlainList raw net ss
  | .specialized _ p ss => Val.NoSliceAttrs p.attrs ∧ Ser.PlainList raw net ss
  | _ => True
def Ser.PlainList (raw net : Bool) : List Ser → Prop
  | [] => True
  | s :: ss => s.Plain raw net ∧ Ser.PlainList raw net ss
end

/-- So are all classes of the program. -/
def Env.Plain (env : Env) (raw net : Bool) : Prop :=
  ∀ c ci, env.classes c = some ci → ci.serializer.Plain raw net ∧
    ∀ attrs attrs', Val.NoSliceAttrs attrs → ci.postInit attrs = .ok attrs' → Val.NoSliceAttrs attrs'

/-- No serializer holds a partial object with a slice of a buffer. -/
def St.Plain (st : St) : Prop := ∀ i p, (st.cells i).part = some p → Val.NoSliceAttrs p.attrs

/-- What may be in a program read from this source: everything from a stream, `char[NET]` with an offset. -/
def Src.raw : Src → Bool
  | .io => true
  | _ => false
def Src.net : Src → Bool
  | .buf _ => false
  | _ => true

/-- The state in which a call ends, by returning or by raising. -/
def Res.final : Res α → St
  | .ok _ st => st
  | .err _ st => st

/-- Against the call on a `bytearray`: the same, where that keeps the length of the buffer; where it makes the buffer
longer, `ValueError`. -/
def SameUnlessGrown (st : St) (view array : Res α) : Prop :=
  view.final.buf.length = st.buf.length ∧
  (array.final.buf.length = st.buf.length ∧ view = array ∨
    st.buf.length < array.final.buf.length ∧ ∃ st', view = .err .valueError st')

end Verif
