import Verif.Spec.FormatParse
/-
Programs in which objects cannot be nested without end: bytes are read before an object of the same kind is.
-/
namespace Verif.Spec

mutual
/-- Only objects of these classes are read before the first byte is; `self` is the class that `Self` stands for.  The items of an array
with a count come behind the count. -/
def Fmt.leads (A : ClassId → Prop) (self : ClassId) : Fmt → Prop
  | .obj c => A c
  | .me => A self
  | .via _ f _ _ _ | .text f _ _ | .fixed _ f => f.leads A self
  | .tup fs => Fmt.allLead A self fs
  | .choice _ _ _ _ _ opts other => Fmt.allLead A self opts ∧ Fmt.allLead A self other
  | _ => True
def Fmt.allLead (A : ClassId → Prop) (self : ClassId) : List Fmt → Prop
  | [] => True
  | f :: fs => f.leads A self ∧ Fmt.allLead A self fs
end

def Field.leads (A : ClassId → Prop) (self : ClassId) : Field → Prop
  | .value _ f => f.leads A self
  | .pad .. => True
  | .when _ _ f _ => f.leads A self

/-- At least one byte is read, whatever the data. -/
def Fmt.bites : Fmt → Prop
  | .int .. | .bool | .half | .single | .double | .counted _ | .until _ | .net | .list .. | .sized .. => True
  | .chars n | .pascal n => 0 < n
  | .via _ f _ _ _ | .text f _ _ => f.bites
  | .fixed n f => 0 < n ∧ f.bites
  | _ => False

def Field.bites : Field → Prop
  | .value _ f => f.bites
  | .pad _ n => 0 < n
  | .when .. => False

/-- Up to a field that always takes a byte, the fields do not lead to objects of other than these classes. -/
def Grounded (A : ClassId → Prop) (self : ClassId) : List Field → Prop
  | [] => True
  | f :: fs => f.leads A self ∧ (f.bites ∨ Grounded A self fs)

/-- The classes are in layers: objects that are read before the first byte is are of lower classes. -/
structure Layered (docs : ClassId → Option ClassDoc) (rank : ClassId → Nat) (R : Nat) : Prop where
  top : ∀ c, rank c ≤ R
  fields : ∀ c d, docs c = some d → Grounded (fun c' => rank c' < rank c) c d.fields

end Verif.Spec
