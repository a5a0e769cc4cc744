import Verif.Spec.FormatPut
/-
Values that are packed in the same way.
-/
namespace Verif.Spec

/-- An integer and a boolean that are the same number, as 1 and `True`. -/
def SameNumber : Val → Val → Prop
  | .int i, .bool b | .bool b, .int i => i = if b then 1 else 0
  | _, _ => False

mutual
/-- The values are the same but that some numbers are booleans in the one and integers in the other, and that attributes of objects which are no
fields of their class do not count. -/
inductive Twin (docs : ClassId → Option ClassDoc) : Val → Val → Prop
  | same (v : Val) : Twin docs v v
  | number {v w : Val} (h : SameNumber v w) : Twin docs v w
  | list {vs ws : List Val} (h : Twins docs vs ws) : Twin docs (.list vs) (.list ws)
  | tup {vs ws : List Val} (h : Twins docs vs ws) : Twin docs (.tup vs) (.tup ws)
  | obj {c : ClassId} {own : Option ByteOrder} {d : ClassDoc} {as bs : List (Name × Val)} {vs ws : List Val} (hd : docs c = some d)
      (ha : pick as d.attrs = some vs) (hb : pick bs d.attrs = some ws) (h : Twins docs vs ws) : Twin docs (.obj c own as) (.obj c own bs)
inductive Twins (docs : ClassId → Option ClassDoc) : List Val → List Val → Prop
  | nil : Twins docs [] []
  | cons {v w : Val} {vs ws : List Val} (h : Twin docs v w) (hs : Twins docs vs ws) : Twins docs (v :: vs) (w :: ws)
end

/-- A decider says the same of two objects whose attributes are so, or as much the same as they are. -/
def Impartial (docs : ClassId → Option ClassDoc) (names : List Name) (f : PObj → Except Err Val) : Prop :=
  ∀ o o' : PObj, o.cls = o'.cls → o.isProxy = o'.isProxy → (∀ a ∈ names, ∃ v w, o.attrs.lookup a = some v ∧ o'.attrs.lookup a = some w ∧ Twin docs v w) →
    f o = f o' ∨ ∃ r r', f o = .ok r ∧ f o' = .ok r' ∧ Twin docs r r'

mutual
/-- So for all deciders in a format, and for the encoders. -/
def Fmt.impartial (docs : ClassId → Option ClassDoc) (names : List Name) : Fmt → Prop
  | .text f en _ => f.impartial docs names ∧ ∀ v w, Twin docs v w → en v = en w
  | .via _ f _ _ _ | .fixed _ f | .list _ f | .sized _ _ f => f.impartial docs names
  | .tup fs => Fmt.allImpartial docs names fs
  | .choice _ _ _ decider _ opts other => Impartial docs names decider ∧ Fmt.allImpartial docs names opts ∧ Fmt.allImpartial docs names other
  | _ => True
def Fmt.allImpartial (docs : ClassId → Option ClassDoc) (names : List Name) : List Fmt → Prop
  | [] => True
  | f :: fs => f.impartial docs names ∧ Fmt.allImpartial docs names fs
end

/-- So for a field and its condition. -/
def Field.impartial (docs : ClassId → Option ClassDoc) (names : List Name) : Field → Prop
  | .value _ f => f.impartial docs names
  | .pad .. => True
  | .when _ c f _ => Impartial docs names c ∧ f.impartial docs names

mutual
/-- No float in it is a whole number (1.0 is equal to 1, and 0.0 to -0.0), there are no instances of other classes than `Structured` ones (their `==`
can be anything) and no objects with a byte order of their own. -/
def definite : Val → Prop
  | .float f => ∀ i, floatEqInt f i = false
  | .custom .. => False
  | .list vs | .tup vs => allDefinite vs
  | .obj _ own attrs => own = none ∧ attrsDefinite attrs
  | _ => True
def allDefinite : List Val → Prop
  | [] => True
  | v :: vs => definite v ∧ allDefinite vs
def attrsDefinite : List (Name × Val) → Prop
  | [] => True
  | (_, v) :: as => definite v ∧ attrsDefinite as
end

end Verif.Spec
