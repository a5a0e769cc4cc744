import Verif.Instances
/-
Reading and running a small part of Python: function definitions inside a function, attribute assignments and method calls without
arguments.  Annotations are parsed, not evaluated (`from __future__ import annotations`, which `exec` inherits).
-/
namespace Verif.Spec.Py

inductive Token
  | word (s : List Char)
  | sym (c : Char)
  deriving DecidableEq

/-- Characters of identifiers; all that are not ASCII count as letters. -/
def idStart (c : Char) : Bool := c.isAlpha || c == '_' || 128 ≤ c.toNat

def idChar (c : Char) : Bool := idStart c || c.isDigit

def flush (cur : List Char) (ts : List Token) : List Token := if cur = [] then ts else .word cur :: ts

/-- The tokens of a line; `cur` is the word so far. -/
def lex (cur : List Char) : List Char → List Token
  | [] => flush cur []
  | c :: cs => if idChar c then lex (cur ++ [c]) cs else flush cur (if c = ' ' then lex [] cs else .sym c :: lex [] cs)

def keywords : List (List Char) :=
  ["False", "None", "True", "and", "as", "assert", "async", "await", "break", "class", "continue", "def", "del", "elif", "else", "except",
   "finally", "for", "from", "global", "if", "import", "in", "is", "lambda", "nonlocal", "not", "or", "pass", "raise", "return", "try",
   "while", "with", "yield"].map String.toList

/-- An identifier. -/
def ident (s : List Char) : Bool :=
  (match s with | [] => false | c :: _ => idStart c) && s.all idChar && !keywords.contains s

mutual
/-- A name or `name[expr, ..., expr]`; what follows it. -/
def expr : Nat → List Token → Option (List Token)
  | 0, _ => none
  | k + 1, ts => match ts with
    | .word s :: .sym '[' :: ts => if ident s then exprs k ts else none
    | .word s :: ts => if ident s then some ts else none
    | _ => none
def exprs : Nat → List Token → Option (List Token)
  | 0, _ => none
  | k + 1, ts => match expr k ts with
    | some (.sym ',' :: ts) => exprs k ts
    | some (.sym ']' :: ts) => some ts
    | _ => none
end

/-- What follows an optional annotation. -/
def annotation (k : Nat) (ts : List Token) : Option (List Token) :=
  match ts with
  | .sym ':' :: ts => expr k ts
  | ts => some ts

/-- The parameters up to the closing parenthesis, and what follows it. -/
def params : Nat → List Token → Option (List (List Char) × List Token)
  | 0, _ => none
  | k + 1, ts => match ts with
    | .sym ')' :: ts => some ([], ts)
    | .word s :: ts =>
      if ident s then
        match annotation k ts with
        | some (.sym ',' :: ts) => (params k ts).map fun r => (s :: r.1, r.2)
        | some (.sym ')' :: ts) => some ([s], ts)
        | _ => none
      else none
    | _ => none

/-- `def name(params) -> expr:` -/
def header (ts : List Token) : Option (List Char × List (List Char)) :=
  match ts with
  | .word d :: .word f :: .sym '(' :: rest =>
    if d = "def".toList ∧ ident f then
      match params ts.length rest with
      | some (ps, [.sym ':']) => some (f, ps)
      | some (ps, .sym '-' :: .sym '>' :: .word r :: [.sym ':']) => if ident r ∨ r = "None".toList then some (f, ps) else none
      | _ => none
    else none
  | _ => none

inductive Stmt
  /-- `obj.attr = var` -/
  | assign (obj attr var : Name)
  /-- `obj.method()` -/
  | call (obj method : Name)
  deriving DecidableEq

def stmt (ts : List Token) : Option Stmt :=
  match ts with
  | [.word o, .sym '.', .word a, .sym '=', .word v] =>
    if ident o ∧ ident a ∧ ident v then some (.assign (String.ofList o) (String.ofList a) (String.ofList v)) else none
  | [.word o, .sym '.', .word m, .sym '(', .sym ')'] => if ident o ∧ ident m then some (.call (String.ofList o) (String.ofList m)) else none
  | _ => none

/-- The lines of a text; `cur` is the line so far. -/
def lines (cur : List Char) : List Char → List (List Char)
  | [] => [cur]
  | c :: cs => if c = '\n' then cur :: lines [] cs else lines (cur ++ [c]) cs

def indent (l : List Char) : Nat := (l.takeWhile (· = ' ')).length

/-- A function: its parameters and its statements. -/
structure Fn where
  params : List Name
  body : List Stmt
  deriving DecidableEq

/-- The statements of a block; all lines have the same indentation. -/
def block (i : Nat) : List (List Char) → Option (List Stmt)
  | [] => some []
  | l :: ls => if indent l = i then
      match stmt (lex [] l), block i ls with
      | some s, some ss => some (s :: ss)
      | _, _ => none
    else none

/-- The function that is returned by the function that the text defines, and the name of the latter: a `def` without parameters whose
suite is another `def` and a `return` of it.  `none` if the text is not of this form, or no Python. -/
def read (text : List Char) : Option (Name × Fn) :=
  match lines [] text with
  | l0 :: l1 :: rest => match header (lex [] l0), header (lex [] l1), rest.reverse with
    | some (f0, []), some (f1, ps), last :: first :: more =>
      if indent l0 = 0 ∧ 0 < indent l1 ∧ indent l1 < indent first ∧ ps.Nodup ∧
          indent last = indent l1 ∧ lex [] last = [.word "return".toList, .word f1] then
        (block (indent first) (first :: more).reverse).map fun b => (String.ofList f0, ⟨ps.map String.ofList, b⟩)
      else none
    | _, _, _ => none
  | _ => none

/-! ### Calls -/

/-- The value of a local variable: the new object or an argument. -/
inductive Var
  | self
  | val (v : Val)

/-- The parameters behind the positional arguments get theirs by keyword. -/
def bindKw (kw : List (Name × Var)) : List Name → Except Err (List (Name × Var))
  | [] => .ok []
  | p :: ps => match kw.find? (·.1 == p) with
    | none => .error .typeError
    | some a => do .ok ((p, a.2) :: (← bindKw kw ps))

/-- `f(*pos, **kw)`: the local variables when the body begins.  It is a `TypeError` if there are too many arguments, if a keyword is
unknown or its parameter was given already, and if an argument is missing. -/
def Fn.bind (f : Fn) (pos : List Var) (kw : List (Name × Var)) : Except Err (List (Name × Var)) :=
  if f.params.length < pos.length then .error .typeError
  else if kw.any (fun k => !(f.params.drop pos.length).contains k.1) then .error .typeError
  else do .ok ((f.params.zip pos) ++ (← bindKw kw (f.params.drop pos.length)))

def local? (ls : List (Name × Var)) (x : Name) : Option Var := (ls.find? (·.1 == x)).map (·.2)

/-- A statement changes the attributes of the new object.  `post` is `__post_init__` of the class, which an attribute of that name
hides; the values of attributes cannot be called. -/
def Stmt.run (post : List (Name × Val) → Except Err (List (Name × Val))) (ls : List (Name × Var)) (attrs : List (Name × Val)) :
    Stmt → Except Err (List (Name × Val))
  | .assign o a x => match local? ls o, local? ls x with
    | some .self, some (.val v) => .ok (setAttr attrs a v)
    | _, _ => .error .attributeError
  | .call o m => match local? ls o with
    | some .self => match getAttr? attrs m with
      | some _ => .error .typeError
      | none => if m = "__post_init__" then post attrs else .error .attributeError
    | _ => .error .attributeError

def runAll (post : List (Name × Val) → Except Err (List (Name × Val))) (ls : List (Name × Var)) (attrs : List (Name × Val)) :
    List Stmt → Except Err (List (Name × Val))
  | [] => .ok attrs
  | s :: ss => do runAll post ls (← s.run post ls attrs) ss

/-- `cls(*pos, **kw)` with `f` as `cls.__init__`. -/
def Fn.create (f : Fn) (cls : ClassId) (post : List (Name × Val) → Except Err (List (Name × Val))) (pos : List Val) (kw : List (Name × Val)) :
    Except Err Val := do
  let ls ← f.bind (.self :: pos.map .val) (kw.map fun k => (k.1, .val k.2))
  .ok (.obj cls none (← runAll post ls [] f.body))

end Verif.Spec.Py
