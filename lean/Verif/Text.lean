import Verif.Ops
/-
Texts of objects: `Structured.__str__` and `__repr__` (`structured/structured.py:329-335`), with Python's
`format(v, '')`, `str` and `repr` of the values they show.

Simplified: the depth of nesting is not limited, classes do not override `__str__` and `__repr__`, and no field is
called `attrs` (it would hide the list of names).
-/
namespace Verif

/-- What Python and the program decide about texts. -/
structure Text where
  /-- `type(self).__name__` -/
  className : ClassId → PyStr
  /-- `str.isprintable` of one character that is not ASCII -/
  printable : Nat → Bool
  /-- `repr` of a `float` -/
  floatRepr : UInt64 → PyStr
  /-- `format(v, '')` and `repr(v)` of instances of user types and generators -/
  userStr : Val → Except Err PyStr
  userRepr : Val → Except Err PyStr
  /-- the limit of `sys.set_int_max_str_digits`, if there is one -/
  maxDigits : Option Nat

/-- A literal of the source. -/
def text (s : String) : PyStr := s.toList.map Char.toNat

/-- Decimal digits; at most `fuel` of them. -/
def decDigits : Nat → Nat → PyStr
  | 0, _ => []
  | fuel + 1, n => if n < 10 then [48 + n] else decDigits fuel (n / 10) ++ [48 + n % 10]

/-- `str` of an `int` -/
def intStr (T : Text) (i : Int) : Except Err PyStr :=
  let ds := decDigits (i.natAbs + 1) i.natAbs
  if T.maxDigits.any (· < ds.length) then .error .valueError
  else .ok (if i < 0 then 45 :: ds else ds)

/-- A lower case hexadecimal digit. -/
def hexDigit (n : Nat) : Nat := if n < 10 then 48 + n else 87 + n

/-- `k` hexadecimal digits. -/
def hexDigits : Nat → Nat → PyStr
  | 0, _ => []
  | k + 1, n => hexDigits k (n / 16) ++ [hexDigit (n % 16)]

/-- One character in a literal with quotes `q`; `shown` decides about characters that are not ASCII. -/
def escape (shown : Nat → Bool) (q c : Nat) : PyStr :=
  if c = 92 ∨ c = q then [92, c]
  else if c = 9 then [92, 116]
  else if c = 10 then [92, 110]
  else if c = 13 then [92, 114]
  else if 32 ≤ c ∧ c < 127 then [c]
  else if 128 ≤ c ∧ shown c then [c]
  else if c < 0x100 then [92, 120] ++ hexDigits 2 c
  else if c < 0x10000 then [92, 117] ++ hexDigits 4 c
  else [92, 85] ++ hexDigits 8 c

/-- Double quotes if there are single quotes and no double quotes inside. -/
def quoteFor (s : PyStr) : Nat := if s.contains 39 ∧ ¬ s.contains 34 then 34 else 39

/-- A string literal. -/
def quoted (shown : Nat → Bool) (s : PyStr) : PyStr :=
  let q := quoteFor s
  q :: s.flatMap (escape shown q) ++ [q]

/-- `repr` of `bytes` -/
def bytesRepr (b : Bytes) : PyStr := 98 :: quoted (fun _ => false) (b.map UInt8.toNat)

/-- `', '.join` -/
def joinComma : List PyStr → PyStr
  | [] => []
  | [s] => s
  | s :: ss => s ++ text ", " ++ joinComma ss

/-- The generator in `__str__` (`structured.py:331`): `attr=value` for every field, in order. -/
def showFields (shown : List (Name × Except Err PyStr)) : List Name → Except Err (List PyStr)
  | [] => .ok []
  | a :: as => match (shown.find? (fun p => p.1 == a)).map (·.2) with
    | none => .error .attributeError
    | some x => do
      let s ← x
      let r ← showFields shown as
      .ok ((text a ++ text "=" ++ s) :: r)

mutual
/-- `format(v, '')`, as f-strings use it.  For objects `Structured.__str__` (`structured.py:329-332`). -/
def Val.fmt (T : Text) (env : Env) : Val → Except Err PyStr
  | .str s => .ok s
  | .obj cls _ attrs => match env.classes cls with
    | Option.none => .error .attributeError
    | some ci => do
      let vals ← showFields (Val.fmtAttrs T env attrs) ci.attrs
      .ok (T.className cls ++ text "(" ++ joinComma vals ++ text ")")
  | .none => .ok (text "None")
  | .int i => intStr T i
  | .bool b => .ok (text (if b then "True" else "False"))
  | .float f => .ok (T.floatRepr f)
  | .bytes b => .ok (bytesRepr b)
  | .list vs => do .ok (text "[" ++ joinComma (← Val.reprList T env vs) ++ text "]")
  | .tup vs => do
    let ss ← Val.reprList T env vs
    .ok (text "(" ++ joinComma ss ++ text (if ss.length = 1 then ",)" else ")"))
  | v => T.userStr v
/-- `repr(v)`; for objects `Structured.__repr__` (`structured.py:334-335`). -/
def Val.repr (T : Text) (env : Env) : Val → Except Err PyStr
  | .str s => .ok (quoted T.printable s)
  | .obj cls _ attrs => match env.classes cls with
    | Option.none => .error .attributeError
    | some ci => do
      let vals ← showFields (Val.fmtAttrs T env attrs) ci.attrs
      .ok (text "<" ++ (T.className cls ++ text "(" ++ joinComma vals ++ text ")") ++ text ">")
  | .none => .ok (text "None")
  | .int i => intStr T i
  | .bool b => .ok (text (if b then "True" else "False"))
  | .float f => .ok (T.floatRepr f)
  | .bytes b => .ok (bytesRepr b)
  | .list vs => do .ok (text "[" ++ joinComma (← Val.reprList T env vs) ++ text "]")
  | .tup vs => do
    let ss ← Val.reprList T env vs
    .ok (text "(" ++ joinComma ss ++ text (if ss.length = 1 then ",)" else ")"))
  | v => T.userRepr v
/-- `repr` of the items. -/
def Val.reprList (T : Text) (env : Env) : List Val → Except Err (List PyStr)
  | [] => .ok []
  | v :: vs => do
    let s ← v.repr T env
    let r ← Val.reprList T env vs
    .ok (s :: r)
/-- The text of every attribute. -/
def Val.fmtAttrs (T : Text) (env : Env) : List (Name × Val) → List (Name × Except Err PyStr)
  | [] => []
  | (a, v) :: as => (a, v.fmt T env) :: Val.fmtAttrs T env as
end

end Verif
