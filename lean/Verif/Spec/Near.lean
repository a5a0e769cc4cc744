import Verif.Spec.FormatParse
/-
Formats that are read from their own bytes only.
-/
namespace Verif.Spec

mutual
/-- The format is read from its own bytes and no others: no read-to-end strings, no unions that read ahead, and only classes of `S`;
`self` is the class `Self` stands for. -/
def Fmt.near (S : ClassId → Prop) (self : ClassId) : Fmt → Prop
  | .rest => False
  | .obj c => S c
  | .me => S self
  | .via _ f _ _ _ | .text f _ _ | .fixed _ f | .list _ f | .sized _ _ f => f.near S self
  | .tup fs => Fmt.allNear S self fs
  | .choice _ _ ahead _ _ opts other => ahead = none ∧ Fmt.allNear S self opts ∧ Fmt.allNear S self other
  | _ => True
def Fmt.allNear (S : ClassId → Prop) (self : ClassId) : List Fmt → Prop
  | [] => True
  | f :: fs => f.near S self ∧ Fmt.allNear S self fs
end

/-- So for a field. -/
def Field.near (S : ClassId → Prop) (self : ClassId) : Field → Prop
  | .value _ f | .when _ _ f _ => f.near S self
  | .pad .. => True

/-- So for the classes of a set, which mention no others. -/
def NearDocs (docs : ClassId → Option ClassDoc) (S : ClassId → Prop) : Prop := ∀ c d, S c → docs c = some d → ∀ f ∈ d.fields, f.near S c

end Verif.Spec
