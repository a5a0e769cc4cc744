import Verif.Classes
import Verif.Spec.Classes
import Verif.Spec.Format
/-
Where the fields of a class of basic types lie: the rule of a C compiler in the default and native byte orders, one behind the other in
the rest.
-/
namespace Verif.Spec

/-- The basic types. -/
inductive Basic
  /-- `int8`, `uint8` and so on -/
  | int (signed : Bool) (w : Size)
  /-- `bool8` -/
  | bool
  /-- `float16`, `float32`, `float64` -/
  | half | single | double
  /-- `char[n]` -/
  | chars (n : Nat)
  /-- `pascal[n]` -/
  | pascal (n : Nat)
  /-- `pad[n]` -/
  | pad (n : Nat)
  deriving DecidableEq

/-- What one writes in a class statement, as evaluated by Python. -/
def Basic.hint (ctx : HintCtx) : Basic → Except Err Hint
  | .int s w => .ok (basicHint "int" (w.code s))
  | .bool => .ok (basicHint "bool" '?')
  | .half => .ok (basicHint "float" 'e')
  | .single => .ok (basicHint "float" 'f')
  | .double => .ok (basicHint "float" 'd')
  | .chars n => mkChar ctx (.int n)
  | .pascal n => mkPascal n
  | .pad n => mkPad n

/-- The number of bytes. -/
def Basic.width : Basic → Nat
  | .int _ w => w.bytes
  | .bool => 1
  | .half => 2
  | .single => 4
  | .double => 8
  | .chars n | .pascal n | .pad n => n

/-- Numbers are aligned to multiples of their size. -/
def Basic.unit : Basic → Nat
  | .int _ w => w.bytes
  | .half => 2
  | .single => 4
  | .double => 8
  | .bool | .chars _ | .pascal _ | .pad _ => 1

def Basic.isPad : Basic → Bool
  | .pad _ => true
  | _ => false

/-- The format of the `struct` module for one value of the type. -/
def Basic.format : Basic → List Char
  | .int s w => [w.code s]
  | .bool => ['?']
  | .half => ['e']
  | .single => ['f']
  | .double => ['d']
  | .chars n => Nat.toDigits 10 n ++ ['s']
  | .pascal n => Nat.toDigits 10 n ++ ['p']
  | .pad n => Nat.toDigits 10 n ++ ['x']

/-- The serializer of the type alone. -/
def Basic.alone (bo : ByteOrder) (t : Basic) : StructSer := ⟨bo.value ++ t.format, none⟩

/-- Where a field starts if the one before it ends at `o`: at the next multiple, or right there. -/
def Basic.start (bo : ByteOrder) (t : Basic) (o : Nat) : Nat := if aligned bo then (o + t.unit - 1) / t.unit * t.unit else o

/-- Where each field starts. -/
def starts (bo : ByteOrder) : Nat → List Basic → List Nat
  | _, [] => []
  | o, t :: ts => t.start bo o :: starts bo (t.start bo o + t.width) ts

/-- Where the last one ends. -/
def extent (bo : ByteOrder) : Nat → List Basic → Nat
  | o, [] => o
  | o, t :: ts => extent bo (t.start bo o + t.width) ts

/-- The bytes of each field, that the type alone gives for the value; pads have no value and are zeros. -/
def pieces (P : Platform) (bo : ByteOrder) : List Basic → List Val → Except Err (List Bytes)
  | [], _ => .ok []
  | .pad n :: ts, vs => do .ok (List.replicate n 0 :: (← pieces P bo ts vs))
  | _ :: _, [] => .error .structError
  | t :: ts, v :: vs => do
    let b ← (t.alone bo).pack P [v]
    let bs ← pieces P bo ts vs
    .ok (b :: bs)

/-- The bytes of the fields at their places, zeros between them. -/
def layOut (bo : ByteOrder) : Nat → List Basic → List Bytes → Bytes
  | o, t :: ts, b :: bs => List.replicate (t.start bo o - o) 0 ++ b ++ layOut bo (t.start bo o + t.width) ts bs
  | _, _, _ => []

/-- The values of the fields, each of them read alone from its bytes. -/
def readBack (P : Platform) (bo : ByteOrder) (b : Bytes) : Nat → List Basic → Except Err (List Val)
  | _, [] => .ok []
  | o, t :: ts => do
    let vs ← (t.alone bo).unpack P ((b.drop (t.start bo o)).take t.width)
    let ws ← readBack P bo b (t.start bo o + t.width) ts
    .ok (vs ++ ws)

/-- Count and character of the type in a format string. -/
def Basic.item : Basic → Nat × Char
  | .int s w => (1, w.code s)
  | .bool => (1, '?')
  | .half => (1, 'e')
  | .single => (1, 'f')
  | .double => (1, 'd')
  | .chars n => (n, 's')
  | .pascal n => (n, 'p')
  | .pad n => (n, 'x')

/-- As it is written. -/
def writtenItem (g : Nat × Char) : List Char := (if g.1 = 1 then [] else Nat.toDigits 10 g.1) ++ [g.2]

/-- One more item behind the others (the last of them first): equal ones are counted together, except strings. -/
def joinItem : List (Nat × Char) → Nat × Char → List (Nat × Char)
  | (a, c) :: gs, (b, d) => if c = d ∧ c ≠ 's' ∧ c ≠ 'p' then (a + b, c) :: gs else (b, d) :: (a, c) :: gs
  | [], g => [g]

/-- The format of all fields, as in the documentation: `2bI4x10s2xI`. -/
def joinedFormat (ts : List Basic) : List Char := ((ts.map Basic.item).foldl joinItem []).reverse.flatMap writtenItem

/-- The attributes: pads have none. -/
def valueNames (fs : List (Name × Basic)) : List Name := (fs.filter (!·.2.isPad)).map (·.1)

/-- A class was made by a class statement, possibly with base classes, whose declarations in order are those of `fs` (and `ClassVar`s),
all of them basic types of at least one byte. -/
structure BasicClass (ctx : HintCtx) (bo : ByteOrder) (fs : List (Name × Basic)) (o : ClassObj) : Prop where
  names : (firsts (o.decls.map (·.1))).filter (fun a => !unserialized (evalHint (lastDecl o.decls a))) = fs.map (·.1)
  hints : ∀ f ∈ fs, f.2.hint ctx = .ok (evalHint (lastDecl o.decls f.1))
  self : ∀ f ∈ fs, f.1 ≠ "self"
  any : fs ≠ []
  some : ∀ f ∈ fs, 0 < f.2.width
  made : ∃ m id w dec, createClass ctx m id w dec = .ok o ∧ dec.byteOrder = bo

end Verif.Spec
