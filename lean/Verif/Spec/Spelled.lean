import Verif.Spec.FormatPut
/-
Classes that differ only in how their padding is written down.
-/
namespace Verif.Spec

/-- The fields of a class that are no pads, each with the number of pad bytes in front of it, be they pads of the class or there for the alignment; at the
end the number of pad bytes behind the last one.  `k` bytes behind the start of a run of basic fields, with `p` pad bytes so far. -/
def spelled (bo : ByteOrder) : Nat → Nat → List Field → List (Nat × Field) × Nat
  | _, p, [] => ([], p)
  | k, p, .value a f :: fs =>
    let (l, q) := spelled bo (after bo k f.basic) 0 fs
    ((p + gap bo k f.basic, .value a f) :: l, q)
  | k, p, .pad _ n :: fs => spelled bo (k + n) (p + n) fs
  | _, p, .when a c f d :: fs =>
    let (l, q) := spelled bo 0 0 fs
    ((p, .when a c f d) :: l, q)

/-- Two programs of the same classes, but for how padding is written down. -/
def SamePadding (docs docs' : ClassId → Option ClassDoc) : Prop :=
  ∀ c, (docs c = none ∧ docs' c = none) ∨ ∃ d d', docs c = some d ∧ docs' c = some d' ∧ d'.byteOrder = d.byteOrder ∧
    spelled d.byteOrder 0 0 d'.fields = spelled d.byteOrder 0 0 d.fields

/-- The same in all byte orders, as with pads that are divided otherwise. -/
def SamePads (docs docs' : ClassId → Option ClassDoc) : Prop :=
  ∀ c, (docs c = none ∧ docs' c = none) ∨ ∃ d d', docs c = some d ∧ docs' c = some d' ∧ d'.byteOrder = d.byteOrder ∧
    ∀ bo, spelled bo 0 0 d'.fields = spelled bo 0 0 d.fields

mutual
/-- No object in it has a byte order of its own. -/
def ownless : Val → Prop
  | .list vs | .tup vs => allOwnless vs
  | .custom _ v => ownless v
  | .obj _ own attrs => own = none ∧ attrsOwnless attrs
  | _ => True
def allOwnless : List Val → Prop
  | [] => True
  | v :: vs => ownless v ∧ allOwnless vs
def attrsOwnless : List (Name × Val) → Prop
  | [] => True
  | (_, v) :: as => ownless v ∧ attrsOwnless as
end

end Verif.Spec
