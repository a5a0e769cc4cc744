import Verif.Text
/-
Specifications for C51: values whose texts can be told apart.
-/
namespace Verif

/-- A letter, a digit or an underscore. -/
def identChar (c : Nat) : Bool := c = 95 ∨ (48 ≤ c ∧ c < 58) ∨ (65 ≤ c ∧ c < 91) ∨ (97 ≤ c ∧ c < 123) ∨ 128 ≤ c

/-- A Python identifier, as far as it matters here. -/
def ident (s : PyStr) : Prop := s ≠ [] ∧ s.all identChar = true ∧ ∀ c ∈ s.head?, ¬ (48 ≤ c ∧ c < 58)

/-- Class names are identifiers, and no two classes of the program have the same name. -/
def Text.named (T : Text) : Prop := (∀ c, ident (T.className c)) ∧ ∀ c d, T.className c = T.className d → c = d

mutual
/-- No floats and user types; code points below `2^32`; objects have their fields, in order, and no other byte order; no fields
that are texts. -/
def Val.legible (env : Env) : Val → Bool
  | .none | .int _ | .bool _ | .bytes _ => true
  | .str s => s.all (· < 2 ^ 32)
  | .list vs => Val.legibleList env vs
  | .tup vs => Val.legibleList env vs
  | .obj cls bo attrs => bo.isNone && (match env.classes cls with
    | Option.none => false
    | some ci => ci.attrs == attrs.map Prod.fst) && Val.legibleAttrs env attrs
  | _ => false
def Val.legibleList (env : Env) : List Val → Bool
  | [] => true
  | v :: vs => v.legible env && Val.legibleList env vs
def Val.legibleAttrs (env : Env) : List (Name × Val) → Bool
  | [] => true
  | (_, v) :: as => v.legible env && (match v with
    | .str _ => false
    | _ => true) && Val.legibleAttrs env as
end

/-! Reading texts. -/

def isDigit (c : Nat) : Bool := 48 ≤ c ∧ c < 58

/-- The number a decimal numeral stands for. -/
def undec (ds : PyStr) : Nat := ds.foldl (fun a d => 10 * a + (d - 48)) 0

def unhexDigit (c : Nat) : Nat := if c < 58 then c - 48 else c - 87

/-- The number a hexadecimal numeral stands for. -/
def unhex (ds : PyStr) : Nat := ds.foldl (fun a d => 16 * a + unhexDigit d) 0

/-- Reads one character of a literal. -/
def unescape : PyStr → Option (Nat × PyStr)
  | 92 :: 116 :: r => some (9, r)
  | 92 :: 110 :: r => some (10, r)
  | 92 :: 114 :: r => some (13, r)
  | 92 :: 120 :: r => some (unhex (r.take 2), r.drop 2)
  | 92 :: 117 :: r => some (unhex (r.take 4), r.drop 4)
  | 92 :: 85 :: r => some (unhex (r.take 8), r.drop 8)
  | 92 :: c :: r => some (c, r)
  | c :: r => some (c, r)
  | [] => none

/-- Reads a literal to its end quote; returns what follows. -/
def readBody (q : Nat) : Nat → PyStr → Option (PyStr × PyStr)
  | 0, _ => none
  | fuel + 1, s => if s.head? = some q then some ([], s.tail) else do
    let (c, r) ← unescape s
    let (cs, r) ← readBody q fuel r
    some (c :: cs, r)

/-- Reads a string literal, as Python's parser does for those that `repr` makes. -/
def readLiteral : PyStr → Option (PyStr × PyStr)
  | q :: s => if q = 39 ∨ q = 34 then readBody q (s.length + 1) s else none
  | [] => none

end Verif
