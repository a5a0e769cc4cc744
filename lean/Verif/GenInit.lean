import Verif.Instances
/-
The source text of the generated `__init__` (`structured/structured.py:120-167,389-416`).

Simplified: `localsns` is never given (`structured.py:412`), so `__create_fn__` has no parameters.
-/
namespace Verif.Gen

/-- What `gen_init` asks of a type annotation. -/
structure Ann where
  /-- `get_union_args(annotation)`, by their `__name__`s (`none`: there is none) -/
  union : List (Option (List Char)) := []
  /-- its `__name__` -/
  name : Option (List Char) := none
  /-- its `_name` -/
  oldName : Option (List Char) := none

/-- `sep.join(...)` -/
def join (sep : List Char) : List (List Char) → List Char
  | [] => []
  | [x] => x
  | x :: xs => x ++ (sep ++ join sep xs)

/-- `arg.__name__ for arg in union_args` (`structured.py:141`) -/
def unionNames : List (Option (List Char)) → Except Err (List (List Char))
  | [] => .ok []
  | none :: _ => .error .attributeError
  | some s :: rest => do .ok (s :: (← unionNames rest))

/-- `x or y` of two texts that may be missing -/
def orElse (x y : Option (List Char)) : Option (List Char) :=
  match x with
  | some (c :: s) => some (c :: s)
  | _ => match y with
    | some (c :: s) => some (c :: s)
    | _ => none

/-- One parameter with its annotation (`structured.py:140-154`). -/
def argItem (name : Name) (a : Ann) : Except Err (List Char) :=
  if a.union.isEmpty then
    match orElse a.name a.oldName with
    | some s => .ok (name.toList ++ (": ".toList ++ s))
    | none => .ok name.toList
  else do
    let names ← unionNames a.union
    .ok (name.toList ++ (": Union[".toList ++ (join ", ".toList names ++ "]".toList)))

/-- `args_items` (`structured.py:138-154`) -/
def argItems : List (Name × Ann) → Except Err (List (List Char))
  | [] => .ok []
  | (name, a) :: rest => do .ok ((← argItem name a) :: (← argItems rest))

/-- `body_lines` (`structured.py:158-159`) -/
def bodyLines (names : List Name) : List (List Char) :=
  (names.filter (· != "self")).map (fun n => "  self.".toList ++ (n.toList ++ (" = ".toList ++ n.toList))) ++ ["  self.__post_init__()".toList]

/-- The text that `gen_init` passes to `exec` (`structured.py:134-165`). -/
def initText (args : List (Name × Ann)) : Except Err (List Char) := do
  let items ← argItems args
  let defText := " def __init__(".toList ++ (join ", ".toList items ++ ") -> None:".toList)
  let inner := defText ++ ('\n' :: join ['\n'] (bodyLines (args.map (·.1))))
  .ok ("def __create_fn__():\n".toList ++ (inner ++ ('\n' :: " return __init__".toList)))

/-- `init_vars` (`structured.py:392-398`): `{'self': Self} | {...}`. -/
def initArgs (fields : List (Name × Ann)) : List (Name × Ann) :=
  ("self", ((fields.find? (·.1 == "self")).map (·.2)).getD { name := some "Self".toList }) :: fields.filter (·.1 != "self")

end Verif.Gen
