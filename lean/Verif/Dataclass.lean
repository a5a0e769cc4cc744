import Verif.Classes
import Verif.Instances
/-
`@dataclass` on a class made with `init=False` (`structured.py:348,358-359`, `README.md:431-436`): what Python's `dataclasses` does to the
`__init__` and the `__eq__` of the class.

Simplified: a default factory is the value it makes; `InitVar`, `KW_ONLY` and mutable defaults are left out.
-/
namespace Verif.Data

/-- What `field(...)`, or the value assigned in the class body, says of a field. -/
structure Opts where
  default : Option Val := .none
  init : Bool := true
  kwOnly : Bool := false

/-- The fields that the annotations of one class make: all but class variables. -/
def ownFields (opts : Name → Opts) (anns : Dict Hint) : Dict Opts :=
  (anns.filter fun kv => match evalHint kv.2 with
    | .classVar _ => false
    | _ => true).map fun kv => (kv.1, opts kv.1)

/-- `__dataclass_fields__`: the fields of the base classes, then those of the class itself. -/
def allFields (inherited : Dict Opts) (opts : Name → Opts) (anns : Dict Hint) : Dict Opts :=
  inherited.update (ownFields opts anns)

/-- The parameters of `__init__` that are not keyword-only. -/
def positional (fs : Dict Opts) : Dict Opts := fs.filter fun f => f.2.init && !f.2.kwOnly

/-- The keyword-only parameters of `__init__`. -/
def keywordOnly (fs : Dict Opts) : Dict Opts := fs.filter fun f => f.2.init && f.2.kwOnly

/-- No parameter without a default follows one with a default. -/
def defaultsLast : Bool → Dict Opts → Bool
  | _, [] => true
  | seen, f :: fs => match f.2.default with
    | some _ => defaultsLast true fs
    | none => !seen && defaultsLast seen fs

/-- The name begins with a digit: the text of an `__init__` with such a parameter is not Python. -/
def digitFirst (a : Name) : Bool := match a.toList with
  | c :: _ => c.isDigit
  | [] => false

/-- What a decorator may raise. -/
inductive Failure
  | syntaxError
  | raised (e : Err)
  deriving DecidableEq

/-- Making the `__init__`. -/
def checkFields (fs : Dict Opts) : Except Failure Unit :=
  if !defaultsLast false (positional fs) then .error (.raised .typeError)
  else if fs.any fun f => f.2.init && digitFirst f.1 then .error .syntaxError
  else .ok ()

/-- The values of parameters in a call with positional arguments only. -/
def bindArgs : Dict Opts → List Val → Except Err (List (Name × Val))
  | [], [] => .ok []
  | [], _ :: _ => .error .typeError
  | f :: fs, v :: vs => do .ok ((f.1, v) :: (← bindArgs fs vs))
  | f :: fs, [] => match f.2.default with
    | some v => do .ok ((f.1, v) :: (← bindArgs fs []))
    | none => .error .typeError

/-- The body of `__init__`: all fields are assigned in order, from the parameters or else their defaults.  (A default that is not
assigned is found as an attribute of the class.) -/
def runBody (args : List (Name × Val)) : Dict Opts → List (Name × Val)
  | [] => []
  | f :: fs => match if f.2.init then getAttr? args f.1 else f.2.default with
    | some v => (f.1, v) :: runBody args fs
    | none => runBody args fs

/-- The attributes after `__init__(*vals)`, before `__post_init__`. -/
def initAttrs (fs : Dict Opts) (vals : List Val) : Except Err (List (Name × Val)) := do
  let pos ← bindArgs (positional fs) vals
  let kws ← bindArgs (keywordOnly fs) []
  .ok (runBody (pos ++ kws) fs)

/-- `cls(*vals)` of the decorated class. -/
def call (cls : ClassId) (post : List (Name × Val) → Except Err (List (Name × Val))) (fs : Dict Opts) (vals : List Val) : Except Err Val := do
  .ok (.obj cls none (← post (← initAttrs fs vals)))

/-- The class for `create_unpack` and its variants, which call it with one value per attribute (`structured.py:302,315,327`). -/
def decorated (fs : Dict Opts) (ci : ClassInfo) : ClassInfo :=
  { ci with postInit := fun as => do ci.postInit (← initAttrs fs (as.map (·.2))) }

/-- `@dataclass class ...(Structured, init=False)`.  The decorator adds the `__init__` because the class has none of its own. -/
def decorate (inherited : Dict Opts) (opts : Name → Opts) (o : ClassObj) : Except Failure ClassObj := do
  let fs := allFields inherited opts o.anns
  checkFields fs
  .ok { o with info := decorated fs o.info }

/-- `@dataclass(slots=True)` makes the class once more, from the name, the bases and the dictionary of the first: `__init_subclass__` is
called without arguments (`structured.py:344-350`), so the byte order is the default one and the `__init__` is generated. -/
def decorateSlots (ctx : HintCtx) (n : Nat) (id : SerId) (w : World) (inherited : Dict Opts) (opts : Name → Opts) (d : ClassDecl) (o : ClassObj) :
    Except Failure ClassObj := do
  checkFields (allFields inherited opts o.anns)
  match createClass ctx n id w { bases := d.bases, anns := o.anns, padStart := d.padStart, postInit := d.postInit } with
  | .ok o' => .ok o'
  | .error e => .error (.raised e)

/-- The `__eq__` of the decorated class for two of its instances: the tuples of all fields are compared. -/
def eqFields (env : Env) (userEq : Val → Val → Except Err Bool) (n : Nat) (fs : Dict Opts) (as bs : List (Name × Val)) : Except Err Bool := do
  let xs ← getAttrs as (fs.map (·.1))
  let ys ← getAttrs bs (fs.map (·.1))
  eqItems (pyEq env userEq n) xs ys

end Verif.Data
