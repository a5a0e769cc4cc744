import Verif.Deprecate
/-
Vocabulary for the deprecation helpers.
-/
namespace Verif.Depr

/-- What an object is called in texts: module and qualified name if it has both. -/
inductive Named (a : Attrs) : String → Prop
  | full {m q : String} : a.module = some m → a.qualname = some q → Named a (String.join [m, ".", q])
  | noModule : a.module = none → Named a a.text
  | noName : a.qualname = none → Named a a.text

/-- The part of a message about the replacement. -/
inductive Replacement (w : World) : Option ObjId → String → Prop
  | none : Replacement w none " with no replacement"
  | use {u : ObjId} {name : String} : Named (w.attrs u) name → Replacement w (some u) (String.join ["; use ", name, " instead"])

/-- The part of a message about the issue; `url` is the link to an issue. -/
inductive Issue (url : Int → String) : Option Int → String → Prop
  | none : Issue url none ""
  | link {i : Int} : Issue url (some i) (String.join [" (", url i, ")"])

/-- The message about the object `o` for a decorator's arguments. -/
def Says (url : Int → String) (w : World) (o : ObjId) (a : Args) (msg : String) : Prop :=
  ∃ name use link, Named (w.attrs o) name ∧ Replacement w a.useInstead use ∧ Issue url a.issue link ∧
    msg = String.join [name, " is deprecated since structured-classes ", a.version, " and will be removed in structured-classes ", a.removal, use, link]

/-- The page of an issue of this project (the address of the repository in `pyproject.toml`). -/
def projectUrl (i : Int) : String := String.join ["https://github.com/lojack5/structured/issues/", toString i]

/-- The operation makes the decorator `d`. -/
def Op.makes (d : Nat) : Op → Bool
  | .make e _ => e == d
  | _ => false

/-- The lines of the notice in a documentation about the replacement and the issue. -/
inductive Lines (url : Int → String) (w : World) (a : Args) : List (List String) → Prop
  | neither : a.useInstead = none → a.issue = none → Lines url w a []
  | use {u : ObjId} {name : String} : a.useInstead = some u → Named (w.attrs u) name → a.issue = none →
      Lines url w a [["   Use ", name, " instead.\n"]]
  | issue {i : Int} : a.useInstead = none → a.issue = some i →
      Lines url w a [["   For details, see `issue #", toString i, " <", url i, ">`__.\n"]]
  | both {u : ObjId} {name : String} {i : Int} : a.useInstead = some u → Named (w.attrs u) name → a.issue = some i →
      Lines url w a [["   Use ", name, " instead.\n"], ["   For details, see `issue #", toString i, " <", url i, ">`__.\n"]]

/-- White space characters of Unicode. -/
def spaces : List Nat :=
  [9, 10, 11, 12, 13, 28, 29, 30, 31, 32, 0x85, 0xa0, 0x1680, 0x2000, 0x2001, 0x2002, 0x2003, 0x2004, 0x2005, 0x2006, 0x2007, 0x2008, 0x2009,
    0x200a, 0x2028, 0x2029, 0x202f, 0x205f, 0x3000]

end Verif.Depr
