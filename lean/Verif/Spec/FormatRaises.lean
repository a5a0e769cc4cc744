import Verif.Spec.FormatParse
/-
Which exceptions reading a format may raise, by what the type hints say.
-/
namespace Verif.Spec

mutual
/-- The exceptions that reading a format may raise; `C` are those of the classes, `self` is the class that is being read. -/
def Fmt.Raises (C : ClassId → Err → Prop) (self : ClassId) : Fmt → Err → Prop
  | .int .., e | .bool, e | .half, e | .single, e | .double, e | .chars _, e | .pascal _, e | .counted _, e | .net, e => e = .structError
  | .via _ f _ _ _, e => f.Raises C self e
  | .until _, e => e = .valueError
  | .rest, _ => False
  | .text f _ de, e => f.Raises C self e ∨ ∃ b, de b = .error e
  | .fixed _ item, e => item.Raises C self e
  | .list _ item, e => e = .structError ∨ item.Raises C self e
  | .sized _ _ item, e => e = .structError ∨ e = .valueError ∨ item.Raises C self e
  | .tup items, e => Fmt.RaisesAny C self items e
  | .obj c, e => C c e
  | .me, e => C self e
  | .choice _ _ ahead decider _ opts other, e =>
    (match ahead with
      | none => ∃ o, decider o = .error e ∨ ∃ r, decider o = .ok r ∧ ¬ r.hashable ∧ e = .typeError
      | some _ => e = .structError) ∨
    (other = [] ∧ e = .valueError) ∨ Fmt.RaisesAny C self opts e ∨ Fmt.RaisesAny C self other e
def Fmt.RaisesAny (C : ClassId → Err → Prop) (self : ClassId) : List Fmt → Err → Prop
  | [], _ => False
  | f :: fs, e => f.Raises C self e ∨ Fmt.RaisesAny C self fs e
end

def Field.Raises (C : ClassId → Err → Prop) (self : ClassId) : Field → Err → Prop
  | .value _ f, e => f.Raises C self e
  | .pad _ _, e => e = .structError
  | .when _ c f _, e => f.Raises C self e ∨ ∃ o, c o = .error e ∨ ∃ r, c o = .ok r ∧
      ((¬ r.hashable ∧ e = .typeError) ∨ (keyAt [.bool true, .bool false] r = none ∧ e = .keyError))

/-- The exceptions of a class: those of its fields, and of the classes in them. -/
def ClassRaises (docs : ClassId → Option ClassDoc) : Nat → ClassId → Err → Prop
  | 0, _, _ => False
  | k + 1, c, e => match docs c with
    | none => e = .attributeError
    | some d => ∃ f ∈ d.fields, f.Raises (ClassRaises docs k) c e

mutual
/-- What the decoders and deciders in a format may raise. -/
def Fmt.CallRaises : Fmt → Err → Prop
  | .text f _ de, e => f.CallRaises e ∨ ∃ b, de b = .error e
  | .fixed _ item, e | .list _ item, e | .sized _ _ item, e | .via _ item _ _ _, e => item.CallRaises e
  | .tup items, e => Fmt.CallRaisesAny items e
  | .choice _ _ _ decider _ opts other, e => (∃ o, decider o = .error e) ∨ Fmt.CallRaisesAny opts e ∨ Fmt.CallRaisesAny other e
  | _, _ => False
def Fmt.CallRaisesAny : List Fmt → Err → Prop
  | [], _ => False
  | f :: fs, e => f.CallRaises e ∨ Fmt.CallRaisesAny fs e
end

/-- What the decoders, deciders and the condition of a field may raise. -/
def Field.CallRaises : Field → Err → Prop
  | .value _ f, e => f.CallRaises e
  | .pad _ _, _ => False
  | .when _ c f _, e => f.CallRaises e ∨ ∃ o, c o = .error e

mutual
/-- The format is none of those that are known not to be read as documented. -/
def Fmt.regular (P : Platform) : Fmt → Bool
  | .net => P.le
  | .text f _ _ | .via _ f _ _ _ => f.regular P
  | .fixed _ item | .list _ item | .sized _ _ item => item.regular P
  | .tup items => (items.all (·.basic.isSome) || items.length == 1) && Fmt.regulars P items
  | .choice _ _ _ _ _ opts other => Fmt.regulars P opts && Fmt.regulars P other
  | _ => true
def Fmt.regulars (P : Platform) : List Fmt → Bool
  | [] => true
  | f :: fs => f.regular P && Fmt.regulars P fs
end

def Field.regular (P : Platform) : Field → Bool
  | .value _ f => f.regular P
  | .pad _ _ => true
  | .when _ _ f _ => f.regular P

def ClassDoc.regular (P : Platform) (d : ClassDoc) : Bool :=
  d.fields.all (Field.regular P) && !(d.fields.any Field.usesSelf && d.attrs.contains "cls")

end Verif.Spec
