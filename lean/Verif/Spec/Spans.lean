import Verif.Spec.FormatStore
import Verif.Spec.FormatParse
/-
How many bytes the objects of a class take, from its type hints alone.
-/
namespace Verif.Spec

/-- At least `lo` bytes, and at most `hi` if there is a limit. -/
structure Span where
  lo : Nat
  hi : Option Nat

namespace Span

/-- A number of bytes within the limits. -/
def Has (s : Span) (n : Nat) : Prop := s.lo ≤ n ∧ ∀ h, s.hi = some h → n ≤ h

/-- The limits `t` say no more than `s`. -/
def Within (s t : Span) : Prop := t.lo ≤ s.lo ∧ ∀ h, t.hi = some h → ∃ h', s.hi = some h' ∧ h' ≤ h

/-- Exactly so many. -/
def exact (n : Nat) : Span := ⟨n, some n⟩

/-- Nothing is known. -/
def any : Span := ⟨0, none⟩

/-- One behind the other. -/
def plus (s t : Span) : Span :=
  ⟨s.lo + t.lo, match s.hi, t.hi with
    | some a, some b => some (a + b)
    | _, _ => none⟩

/-- `n` of them. -/
def times (n : Nat) (s : Span) : Span := ⟨n * s.lo, if n = 0 then some 0 else s.hi.map (n * ·)⟩

/-- One or the other. -/
def or (s t : Span) : Span :=
  ⟨min s.lo t.lo, match s.hi, t.hi with
    | some a, some b => some (max a b)
    | _, _ => none⟩

/-- One or the other, where there may be none. -/
def either : Option Span → Option Span → Option Span
  | some s, some t => some (s.or t)
  | some s, none => some s
  | none, t => t

/-- At most as many. -/
def upTo (s : Span) : Span := ⟨0, s.hi⟩

end Span

/-- One more than the largest number of a type without sign. -/
def Size.limit (w : Size) : Nat := 256 ^ w.bytes

mutual
/-- The limits of a format in byte order `bo`; `B` gives those of the objects of a class, `me` is the class that is being defined.
Text, tuples and unions have the default byte order. -/
def Fmt.span (B : ClassId → Span) (me : ClassId) (bo : ByteOrder) : Fmt → Span
  | .int _ w => .exact w.bytes
  | .bool => .exact 1
  | .half => .exact 2
  | .single => .exact 4
  | .double => .exact 8
  | .chars n | .pascal n => .exact n
  | .via _ f _ _ _ => f.span B me bo
  | .counted w => ⟨w.bytes, some (w.bytes + (w.limit - 1))⟩
  | .until _ => ⟨1, none⟩
  | .rest => .any
  | .net => ⟨1, some (2 + 32767)⟩
  | .text f _ _ => f.span B me .default
  | .fixed n item => (item.span B me bo).times n
  | .list w item => (Span.exact w.bytes).plus ((item.span B me bo).times (w.limit - 1)).upTo
  | .sized w w2 _ => (Span.exact (w.bytes + gap bo w.bytes (some (w2.bytes, w2.bytes)) + w2.bytes)).plus ⟨0, some (w2.limit - 1)⟩
  | .tup items => Fmt.spans B me .default 0 items
  | .obj c => B c
  | .me => B me
  | .choice _ _ _ _ _ opts other => (Span.either (Fmt.among B me opts) (Fmt.among B me other)).getD .any
/-- One format after the other, `k` bytes behind the start of a run of basic types. -/
def Fmt.spans (B : ClassId → Span) (me : ClassId) (bo : ByteOrder) : Nat → List Fmt → Span
  | _, [] => .exact 0
  | k, f :: fs => (Span.exact (gap bo k f.basic)).plus ((f.span B me bo).plus (Fmt.spans B me bo (after bo k f.basic) fs))
/-- One of the formats, in the default byte order. -/
def Fmt.among (B : ClassId → Span) (me : ClassId) : List Fmt → Option Span
  | [] => none
  | f :: fs => Span.either (some (f.span B me .default)) (Fmt.among B me fs)
end

/-- One field after the other, `k` bytes behind the start of a run of basic fields. -/
def fieldsSpan (B : ClassId → Span) (me : ClassId) (bo : ByteOrder) : Nat → List Field → Span
  | _, [] => .exact 0
  | k, .value _ f :: fs => (Span.exact (gap bo k f.basic)).plus ((f.span B me bo).plus (fieldsSpan B me bo (after bo k f.basic) fs))
  | k, .pad _ n :: fs => (Span.exact n).plus (fieldsSpan B me bo (k + n) fs)
  | _, .when _ _ f _ :: fs => (f.span B me bo).upTo.plus (fieldsSpan B me bo 0 fs)

/-- `B` gives limits for all classes that follow from their fields. -/
def Limits (docs : ClassId → Option ClassDoc) (B : ClassId → Span) : Prop :=
  ∀ c d, docs c = some d → (fieldsSpan B c d.byteOrder 0 d.fields).Within (B c)

end Verif.Spec
