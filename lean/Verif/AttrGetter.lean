import Verif.Ops
/-
`utils.py:53-64` `attrgetter`, on top of `operator.attrgetter` of the standard library.  `getAttrs` (`Ops.lean`) is what the other
parts of the model use for `type(self)._attrgetter(self)`.
-/
namespace Verif.AttrGetter
open Verif

/-- What a getter returns: a value as it is, or a tuple. -/
inductive Got where
  | one (v : Val)
  | tuple (vs : List Val)

/-- `getattr(obj, name)`; attributes of values that are no objects of structured classes are not modelled. -/
def attr (name : Name) : Val → Except Err Val
  | .obj _ _ attrs =>
    match getAttr? attrs name with
    | some v => .ok v
    | none => .error .attributeError
  | _ => .error .attributeError

/-- `name.split('.')`; `acc` is the part read so far, backwards. -/
def splitDots : List Char → List Char → List (List Char)
  | [], acc => [acc.reverse]
  | c :: cs, acc => if c = '.' then acc.reverse :: splitDots cs [] else splitDots cs (c :: acc)

/-- One name of `operator.attrgetter`: dots are followed. -/
def follow (name : Name) (obj : Val) : Except Err Val :=
  (splitDots name.toList []).foldlM (fun v part => attr (String.ofList part) v) obj

def followAll (obj : Val) : List Name → Except Err (List Val)
  | [] => .ok []
  | a :: as => do
    let v ← follow a obj
    let vs ← followAll obj as
    .ok (v :: vs)

/-- `operator.attrgetter(*names)` -/
def opAttrgetter : List Name → Except Err (Val → Except Err Got)
  | [] => .error .typeError
  | [a] => .ok fun obj => do .ok (.one (← follow a obj))
  | as => .ok fun obj => do .ok (.tuple (← followAll obj as))

/-- `lambda x: (_get(x),)`; a tuple in a tuple does not occur here. -/
def wrap (get : Val → Except Err Got) (obj : Val) : Except Err Got := do
  match ← get obj with
  | .one v => .ok (.tuple [v])
  | .tuple vs => .ok (.tuple [.tup vs])

/-- `utils.py:53-64` -/
def attrgetter (names : List Name) : Except Err (Val → Except Err Got) :=
  if names.isEmpty then .ok fun _ => .ok (.tuple [])
  else do
    let get ← opAttrgetter names
    if names.length = 1 then .ok (wrap get) else .ok get

end Verif.AttrGetter
