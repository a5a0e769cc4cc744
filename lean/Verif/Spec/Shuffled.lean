import Verif.Spec.FormatPut
/-
Programs whose unions list their members in another order.
-/
namespace Verif.Spec

/-- No value is equal to two of the keys (as in every dictionary). -/
def Unlike (keys : List Val) : Prop := keys.Pairwise fun a b => ∀ r, a.keyEq r = true → b.keyEq r = false

mutual
/-- The same format but that unions may list their members (keys and types together) in another order. -/
def Fmt.Shuffled : Fmt → Fmt → Prop
  | .fixed n f, g => ∃ f', g = .fixed n f' ∧ f.Shuffled f'
  | .list w f, g => ∃ f', g = .list w f' ∧ f.Shuffled f'
  | .sized w w2 f, g => ∃ f', g = .sized w w2 f' ∧ f.Shuffled f'
  | .tup fs, g => ∃ fs', g = .tup fs' ∧ Fmt.AllShuffled fs fs'
  | .choice _ _ ahead decider keys opts other, g => ∃ id' args' keys' opts1 opts' other', g = .choice id' args' ahead decider keys' opts' other' ∧
      Fmt.AllShuffled opts opts1 ∧ keys.length = opts1.length ∧ keys'.length = opts'.length ∧ (keys.zip opts1).Perm (keys'.zip opts') ∧ Unlike keys ∧
      Fmt.AllShuffled other other'
  | f, g => g = f
/-- So one after the other. -/
def Fmt.AllShuffled : List Fmt → List Fmt → Prop
  | [], gs => gs = []
  | f :: fs, gs => ∃ g gs', gs = g :: gs' ∧ f.Shuffled g ∧ Fmt.AllShuffled fs gs'
end

/-- So for a field. -/
def Field.Shuffled : Field → Field → Prop
  | .value a f, g => ∃ f', g = .value a f' ∧ f.Shuffled f'
  | .when a c f d, g => ∃ f', g = .when a c f' d ∧ f.Shuffled f'
  | .pad a n, g => g = .pad a n

/-- So one after the other. -/
def Field.AllShuffled : List Field → List Field → Prop
  | [], gs => gs = []
  | f :: fs, gs => ∃ g gs', gs = g :: gs' ∧ f.Shuffled g ∧ Field.AllShuffled fs gs'

/-- So for a class.  A class with a field `cls` has no `Self` in it (see C64). -/
structure ClassDoc.Shuffled (d d' : ClassDoc) : Prop where
  order : d'.byteOrder = d.byteOrder
  fields : Field.AllShuffled d.fields d'.fields
  cls : "cls" ∈ d.attrs → d.fields.any Field.usesSelf = false ∧ d'.fields.any Field.usesSelf = false

/-- So for all classes of a program. -/
def DocsShuffled (docs docs' : ClassId → Option ClassDoc) : Prop :=
  ∀ c, (docs c = none ∧ docs' c = none) ∨ ∃ d d', docs c = some d ∧ docs' c = some d' ∧ d.Shuffled d'

end Verif.Spec
