import Verif.Spec.FormatPut
/-
Later versions of a program, whose unions have more members.
-/
namespace Verif.Spec

mutual
/-- A later version of a format: unions may have further members, and a default if there was none. -/
def Fmt.Grows : Fmt → Fmt → Prop
  | .fixed n f, g => ∃ f', g = .fixed n f' ∧ f.Grows f'
  | .list w f, g => ∃ f', g = .list w f' ∧ f.Grows f'
  | .sized w w2 f, g => ∃ f', g = .sized w w2 f' ∧ f.Grows f'
  | .tup fs, g => ∃ fs', g = .tup fs' ∧ fs'.length = fs.length ∧ Fmt.AllGrow fs fs'
  | .choice _ _ ahead decider keys opts other, g => ∃ id' args' more opts' other', g = .choice id' args' ahead decider (keys ++ more) opts' other' ∧
      Fmt.AllGrow opts opts' ∧ (other = [] ∨ (more = [] ∧ Fmt.AllGrow other other'))
  | f, g => g = f
/-- So one after the other; there may be more at the end. -/
def Fmt.AllGrow : List Fmt → List Fmt → Prop
  | [], _ => True
  | f :: fs, gs => ∃ g gs', gs = g :: gs' ∧ f.Grows g ∧ Fmt.AllGrow fs gs'
end

/-- A later version of a field. -/
def Field.Grows : Field → Field → Prop
  | .value a f, g => ∃ f', g = .value a f' ∧ f.Grows f'
  | .when a c f d, g => ∃ f', g = .when a c f' d ∧ f.Grows f'
  | .pad a n, g => g = .pad a n

/-- So one after the other. -/
def Field.AllGrow : List Field → List Field → Prop
  | [], gs => gs = []
  | f :: fs, gs => ∃ g gs', gs = g :: gs' ∧ f.Grows g ∧ Field.AllGrow fs gs'

/-- A later version of a class.  A class with a field `cls` has no `Self` in it (see C64). -/
structure ClassDoc.Grows (d d' : ClassDoc) : Prop where
  order : d'.byteOrder = d.byteOrder
  fields : Field.AllGrow d.fields d'.fields
  cls : "cls" ∈ d.attrs → d'.fields.any Field.usesSelf = false

/-- A later version of a program, which may have further classes. -/
def DocsGrow (docs docs' : ClassId → Option ClassDoc) : Prop := ∀ c d, docs c = some d → ∃ d', docs' c = some d' ∧ d.Grows d'

/-- Whatever the first one gives the second one gives as well. -/
def Remains {α : Type} (r r' : Parsed α) : Prop := ∀ a, r = .ok a → r' = .ok a

end Verif.Spec
