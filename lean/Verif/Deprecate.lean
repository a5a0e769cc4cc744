import Verif.Basic
/-
The deprecation helpers of `utils.py`.

Objects are numbered.  What the helpers look at are the attributes `__module__`, `__qualname__`, `__doc__` and the text of an object, which
may change at any time.
-/
namespace Verif.Depr

abbrev ObjId := Nat

/-- What the helpers see of an object; `none` for a missing attribute (`doc`: for `None`). -/
structure Attrs where
  module : Option String := none
  qualname : Option String := none
  doc : Option (List Char) := none
  /-- `str(x)` -/
  text : String := ""

/-- The arguments of `deprecated(...)` (`utils.py:175-182`). -/
structure Args where
  version : String
  removal : String
  x : Option ObjId := none
  issue : Option Int
  useInstead : Option ObjId

/-- A `StructuredDeprecationWarning` that was passed to `warnings.warn`, with the number of frames it is attributed to. -/
structure Warning where
  msg : String
  stacklevel : Nat
  deriving DecidableEq

/-- The objects, the decorators made by `deprecated(...)` and the warnings so far. -/
structure World where
  attrs : ObjId → Attrs
  /-- objects from here on do not exist yet -/
  next : ObjId
  /-- the arguments of the decorators -/
  args : Nat → Args
  /-- the variable `x` of each decorator, which its calls share (`utils.py:199` `nonlocal x`) -/
  x : Nat → Option ObjId
  /-- for the functions made by `inner`: the decorator and the function inside -/
  wraps : ObjId → Option (Nat × ObjId)
  warnings : List Warning

/-- `utils.py:116-126` `_stringify` -/
def stringify (a : Attrs) : String :=
  match a.module, a.qualname with
  | some m, some q => m ++ "." ++ q
  | _, _ => a.text

/-- `f'{issue}'` -/
def decimal (i : Int) : String := toString i

/-- `utils.py:129-137` `_issue_url` -/
def issueUrl (issue : Int) : String :=
  "https://github.com/lojack5/structured/issuespython-trio/trio/issues/" ++ decimal issue

/-- The message of `warn_deprecated` (`utils.py:158-167`). -/
def message (x : Attrs) (version removal : String) (issue : Option Int) (useInstead : Option Attrs) : String :=
  let msg := stringify x ++ " is deprecated since structured-classes " ++ version ++ " and will be removed in structured-classes " ++ removal
  let msg := match useInstead with
    | none => msg ++ " with no replacement"
    | some u => msg ++ "; use " ++ stringify u ++ " instead"
  match issue with
  | none => msg
  | some i => msg ++ " (" ++ issueUrl i ++ ")"

/-- `utils.py:140-168` `warn_deprecated`: the message passed to `warnings.warn`; `stacklevel` is 2 unless given. -/
def warnDeprecated (x : Attrs) (version removal : String) (issue : Option Int) (useInstead : Option Attrs) (stacklevel : Nat) : Warning :=
  ⟨message x version removal issue useInstead, stacklevel + 1⟩

/-- White space as `str.rstrip` sees it (`str.isspace`). -/
def isSpace (c : Char) : Bool :=
  let n := c.toNat
  (9 ≤ n && n ≤ 13) || (28 ≤ n && n ≤ 32) || n == 0x85 || n == 0xa0 || n == 0x1680 || (0x2000 ≤ n && n ≤ 0x200a) || n == 0x2028 || n == 0x2029 ||
    n == 0x202f || n == 0x205f || n == 0x3000

/-- `doc.rstrip()` -/
def rstrip (doc : List Char) : List Char := (doc.reverse.dropWhile isSpace).reverse

/-- The documentation of the wrapper (`utils.py:212-221`). -/
def newDoc (doc : List Char) (version : String) (issue : Option Int) (useInstead : Option Attrs) : List Char :=
  let d := rstrip doc ++ ("\n\n .. deprecated:: " ++ version ++ "\n").toList
  let d := match useInstead with
    | none => d
    | some u => d ++ ("   Use " ++ stringify u ++ " instead.\n").toList
  let d := match issue with
    | none => d
    | some i => d ++ ("   For details, see `issue #" ++ decimal i ++ " ").toList ++ ("<" ++ issueUrl i ++ ">`__.\n").toList
  d ++ ['\n']

/-- `functools.wraps(fn)`: attributes that `fn` lacks stay those of `wrapper` itself. -/
def wrapped (fn : Attrs) : Attrs :=
  { module := some (fn.module.getD "structured.utils")
    qualname := some (fn.qualname.getD "deprecated.<locals>.inner.<locals>.wrapper")
    doc := fn.doc
    text := "<function>" }

def World.setAttrs (w : World) (o : ObjId) (a : Attrs) : World :=
  { w with attrs := fun p => if p = o then a else w.attrs p }

/-- `deprecated(...)` (`utils.py:175-225`): a new decorator, number `d`. -/
def makeDecorator (w : World) (d : Nat) (a : Args) : World :=
  { w with args := fun e => if e = d then a else w.args e, x := fun e => if e = d then a.x else w.x e }

/-- `inner(fn)` for the decorator `d` (`utils.py:198-223`); the result is the object `w.next`. -/
def decorate (w : World) (d : Nat) (fn : ObjId) : World :=
  let o := w.next
  let a := wrapped (w.attrs fn)
  let x := match w.x d with
    | none => some o
    | some p => some p
  let args := w.args d
  -- `use_instead` may be the wrapper only if it existed before, so its attributes are those of `w`
  let doc := a.doc.map fun t => newDoc t args.version args.issue (args.useInstead.map w.attrs)
  { w with
    attrs := fun p => if p = o then { a with doc } else w.attrs p
    next := o + 1
    x := fun e => if e = d then x else w.x e
    wraps := fun p => if p = o then some (d, fn) else w.wraps p }

/-- The result of calling an object. -/
inductive Outcome (α : Type)
  | done (a : α)
  /-- a warning turned into an exception by the filters -/
  | warned (w : Warning)
  | recursion

/-- Calling an object.  `run` is what functions not made here do; `strict` are the warnings that the filters turn into exceptions.  For a
wrapper: `utils.py:201-204`; `x` is never `None` then. -/
def call (run : ObjId → α → World → Outcome β × World) (strict : Warning → Bool) : Nat → ObjId → α → World → Outcome β × World
  | 0, _, _, w => (.recursion, w)
  | n + 1, o, v, w => match w.wraps o with
    | none => run o v w
    | some (d, fn) =>
      let a := w.args d
      let x : Attrs := ((w.x d).map w.attrs).getD { text := "None" }
      let msg := warnDeprecated x a.version a.removal a.issue (a.useInstead.map w.attrs) 2
      if strict msg then (.warned msg, w)
      else call run strict n fn v { w with warnings := w.warnings ++ [msg] }

/-- What a program does with the helpers and the objects between calls. -/
inductive Op
  | make (d : Nat) (a : Args)
  | decorate (d : Nat) (fn : ObjId)
  | set (o : ObjId) (a : Attrs)
  | warn (w : Warning)

def World.step (w : World) : Op → World
  | .make d a => makeDecorator w d a
  | .decorate d fn => Depr.decorate w d fn
  | .set o a => w.setAttrs o a
  | .warn m => { w with warnings := w.warnings ++ [m] }

def World.steps (w : World) (ops : List Op) : World := ops.foldl World.step w

end Verif.Depr
