import Verif.Spec.FormatPut
/-
What it means that the format of a class begins with that of another one.
-/
namespace Verif.Spec

/-- Two objects, not necessarily of the same class, are alike as far as these attributes go: both are there or both are being read, and
each of the attributes has the same value in both or is missing in both. -/
def Alike (names : List Name) (o o' : PObj) : Prop :=
  o.isProxy = o'.isProxy ∧ ∀ a ∈ names, o.attrs.lookup a = o'.attrs.lookup a

/-- A function that is called with the object does not look at anything but these attributes. -/
def LooksAt (names : List Name) (f : PObj → Except Err Val) : Prop := ∀ o o', Alike names o o' → f o = f o'

mutual
/-- The format does not depend on the object that the value belongs to but for these attributes: no `Self`, and all deciders look only
at them. -/
def Fmt.within (names : List Name) : Fmt → Prop
  | .me => False
  | .via _ f _ _ _ | .text f _ _ | .fixed _ f | .list _ f | .sized _ _ f => f.within names
  | .tup fs => Fmt.allWithin names fs
  | .choice _ _ _ decider _ opts other => LooksAt names decider ∧ Fmt.allWithin names opts ∧ Fmt.allWithin names other
  | _ => True
def Fmt.allWithin (names : List Name) : List Fmt → Prop
  | [] => True
  | f :: fs => f.within names ∧ Fmt.allWithin names fs
end

/-- So for a field and its condition. -/
def Field.within (names : List Name) : Field → Prop
  | .value _ f => f.within names
  | .pad .. => True
  | .when _ c f _ => LooksAt names c ∧ f.within names

/-- The format of the second class begins with the fields of the first one, in the same byte order; these do not depend on anything but
each other. -/
structure ClassDoc.Extends (d d' : ClassDoc) : Prop where
  order : d'.byteOrder = d.byteOrder
  fields : ∃ more, d'.fields = d.fields ++ more
  within : ∀ f ∈ d.fields, f.within d.attrs

end Verif.Spec
