import Verif.Spec.FormatPut
/-
The same fields under other names.
-/
namespace Verif.Spec

/-- Two objects have the same values under the names of the one and those of the other: both are there or both are being read, and each of
the attributes has the same value in both or is missing in both. -/
def Matches (names : List (Name × Name)) (o o' : PObj) : Prop :=
  o.isProxy = o'.isProxy ∧ ∀ p ∈ names, o.attrs.lookup p.1 = o'.attrs.lookup p.2

/-- The second function does with the new names what the first one does with the old names. -/
def SameLook (names : List (Name × Name)) (f f' : PObj → Except Err Val) : Prop := ∀ o o', Matches names o o' → f o = f' o'

mutual
/-- The same format, but the deciders in it use the new names.  There is no `Self`. -/
def Fmt.Renamed (names : List (Name × Name)) : Fmt → Fmt → Prop
  | .via _ f name own make, g => ∃ id' f', g = .via id' f' name own make ∧ f.Renamed names f'
  | .text f en de, g => ∃ f', g = .text f' en de ∧ f.Renamed names f'
  | .fixed n f, g => ∃ f', g = .fixed n f' ∧ f.Renamed names f'
  | .list w f, g => ∃ f', g = .list w f' ∧ f.Renamed names f'
  | .sized w w2 f, g => ∃ f', g = .sized w w2 f' ∧ f.Renamed names f'
  | .tup fs, g => ∃ fs', g = .tup fs' ∧ Fmt.AllRenamed names fs fs'
  | .choice _ _ ahead decider keys opts other, g => ∃ id' args' decider' opts' other', g = .choice id' args' ahead decider' keys opts' other' ∧
      SameLook names decider decider' ∧ Fmt.AllRenamed names opts opts' ∧ Fmt.AllRenamed names other other'
  | .me, _ => False
  | f, g => g = f
/-- So one after the other. -/
def Fmt.AllRenamed (names : List (Name × Name)) : List Fmt → List Fmt → Prop
  | [], gs => gs = []
  | f :: fs, gs => ∃ g gs', gs = g :: gs' ∧ f.Renamed names g ∧ Fmt.AllRenamed names fs gs'
end

/-- The same field under its new name.  The names of pad fields do not matter. -/
def Field.Renamed (names : List (Name × Name)) : Field → Field → Prop
  | .value a f, g => ∃ a' f', g = .value a' f' ∧ (a, a') ∈ names ∧ f.Renamed names f'
  | .when a c f d, g => ∃ a' c' f', g = .when a' c' f' d ∧ (a, a') ∈ names ∧ SameLook names c c' ∧ f.Renamed names f'
  | .pad _ n, g => ∃ a', g = .pad a' n

/-- So one after the other. -/
def Field.AllRenamed (names : List (Name × Name)) : List Field → List Field → Prop
  | [], gs => gs = []
  | f :: fs, gs => ∃ g gs', gs = g :: gs' ∧ f.Renamed names g ∧ Field.AllRenamed names fs gs'

/-- The second class has the fields of the first one under other names, which are different from each other. -/
structure ClassDoc.Renamed (d d' : ClassDoc) : Prop where
  order : d'.byteOrder = d.byteOrder
  fields : Field.AllRenamed (d.attrs.zip d'.attrs) d.fields d'.fields
  apart : ∀ p ∈ d.attrs.zip d'.attrs, ∀ q ∈ d.attrs.zip d'.attrs, p.1 = q.1 ↔ p.2 = q.2

end Verif.Spec
