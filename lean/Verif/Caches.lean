import Verif.Hints
/-
The caches behind the brackets of `char`, `unicode`, `Header` and `array`: `functools.cache` keeps what was made for the
arguments of an earlier use and gives it again for arguments that are equal to them (`hint_types/strings.py:54-84,128-177`,
`hint_types/arrays.py:39-80,86-137`).

Simplified: what is made for one argument of `array` is a function of the class of equal types it is in (`items`), one
thread at a time, and arguments of other number types (`Fraction`, `Decimal`, …) do not occur.
-/
namespace Verif.Caches

/-- What may stand in the brackets of `char`, `unicode` and `Header`. -/
inductive Arg
  /-- a value: a number, a byte string, a text, `None`, a list, … -/
  | val (v : Val)
  /-- `uint8`, `uint16`, `uint32`, `uint64`, by their format -/
  | size (code : Char)
  /-- the class `NET` -/
  | net
  | tvar (t : TVar)
  /-- any other object; it is equal to itself only -/
  | other (k : Nat)

/-- `a == b` -/
def Arg.eq : Arg → Arg → Bool
  | .val v, .val w => v.keyEq w
  | .size c, .size d => c == d
  | .net, .net => true
  | .tvar t, .tvar u => t == u
  | .other j, .other k => j == k
  | _, _ => false

/-- `hash(a)` does not raise. -/
def Arg.hashable : Arg → Bool
  | .val v => v.hashable
  | _ => true

/-- Positive infinity. -/
def infBits : UInt64 := 0x7FF0000000000000

/-- What the checks in the bodies see of an argument (`hint_types/strings.py:66-79`, `hint_types/arrays.py:61-77`): `True` is an `int`. -/
def Arg.hint : Arg → Hint
  | .val (.int i) => .int i
  | .val (.bool b) => .int (if b then 1 else 0)
  | .val (.bytes b) => .bytes b
  | .val (.float f) => if f = infBits then .inf else .plain "float"
  | .val .none => .noneT
  | .size c => basicHint "int" c
  | .net => .net
  | .tvar t => .tvar t
  | _ => .plain "object"

/-- What the caches hold, and the number of objects made so far. -/
structure Caches where
  /-- `char._create`; the number is the identity of the serializer -/
  chars : List (Arg × (Nat × Hint)) := []
  /-- `unicode._create` -/
  unicodes : List ((Arg × Arg) × Hint) := []
  /-- `Header._create`; the number is the identity of the object -/
  headers : List ((Arg × Arg) × (Nat × Hint)) := []
  /-- `array.__class_getitem__`, by the identity of the header and the class of equal item types -/
  arrays : List ((Nat × Nat) × Hint) := []
  next : Nat := 0

/-- What the library is given. -/
structure Setup where
  ctx : HintCtx
  /-- the recursion limit -/
  limit : Nat
  /-- the functions that the name of a codec stands for -/
  named : PyStr → (Val → Except Err Bytes) × (Bytes → Except Err PyStr)
  /-- the methods of an `EncoderDecoder` -/
  custom : Nat → Option ((Val → Except Err Bytes) × (Bytes → Except Err PyStr))
  /-- the types that arrays are made of, by a number for each class of equal ones -/
  items : Nat → Hint

/-- The functions that an encoding stands for (`hint_types/strings.py:160-172`) -/
def Setup.codec (w : Setup) : Arg → Option ((Val → Except Err Bytes) × (Bytes → Except Err PyStr))
  | .val (.str s) => some (w.named s)
  | .other k => w.custom k
  | _ => none

def Setup.encoding (w : Setup) (a : Arg) : Hint :=
  match w.codec a with
  | some (enc, dec) => .codec enc dec
  | none => .plain "object"

/-- The object that is made has this identity. -/
def Setup.naming (w : Setup) (id : SerId) : HintCtx := { w.ctx with ident := fun _ _ => id }

/-- Looking up a key in a cache. -/
def find (eq : κ → κ → Bool) (k : κ) (cache : List (κ × α)) : Option α := (cache.find? (fun e => eq e.1 k)).map (·.2)

def eq2 (a b : Arg × Arg) : Bool := a.1.eq b.1 && a.2.eq b.2

/-- `char[count]` (`hint_types/strings.py:54-84`) -/
def char (w : Setup) (a : Arg) (s : Caches) : Except Err Hint × Caches :=
  if !a.hashable then (.error .typeError, s)
  else match find Arg.eq a s.chars with
    | some (_, h) => (.ok h, s)
    | none => match mkChar (w.naming [s.next]) a.hint with
      | .error e => (.error e, s)
      | .ok h => (.ok h, { s with chars := s.chars ++ [(a, (s.next, h))], next := s.next + 1 })

/-- The serializer in `char[count]` wrapped for text (`hint_types/strings.py:173-177`) -/
def wrapText (w : Setup) (enc : Val → Except Err Bytes) (dec : Bytes → Except Err PyStr) (h : Hint) : Except Err Hint := do
  match ← transform w.ctx w.limit [] h with
  | .ser s => .ok (.annot (.plain "str") [.ser (.unicode s enc dec)])
  | _ => .error .typeError

/-- The body of `unicode._create` (`hint_types/strings.py:157-177`); `char` has a cache of its own. -/
def unicodeBody (w : Setup) (a e : Arg) (s : Caches) : Except Err Hint × Caches :=
  if a.hint.isTvar then (.ok (.alias .unicode [a.hint, w.encoding e]), s)
  else match w.codec e with
    | none => (.error .typeError, s)
    | some (enc, dec) => match char w a s with
      | (.error x, s') => (.error x, s')
      | (.ok h, s') => (wrapText w enc dec h, s')

/-- `unicode[count, encoding]` (`hint_types/strings.py:128-177`) -/
def unicode (w : Setup) (a e : Arg) (s : Caches) : Except Err Hint × Caches :=
  if !(a.hashable && e.hashable) then (.error .typeError, s)
  else match find eq2 (a, e) s.unicodes with
    | some h => (.ok h, s)
    | none => match unicodeBody w a e s with
      | (.error x, s') => (.error x, s')
      | (.ok h, s') => (.ok h, { s' with unicodes := s'.unicodes ++ [((a, e), h)] })

/-- `Header[length, size]` (`hint_types/arrays.py:39-80`): the object and its identity -/
def header (a b : Arg) (s : Caches) : Except Err (Nat × Hint) × Caches :=
  if !(a.hashable && b.hashable) then (.error .typeError, s)
  else match find eq2 (a, b) s.headers with
    | some h => (.ok h, s)
    | none => match mkHeader a.hint b.hint with
      | .error e => (.error e, s)
      | .ok h => (.ok (s.next, h), { s with headers := s.headers ++ [((a, b), (s.next, h))], next := s.next + 1 })

/-- `array[header, item]` for the header object with identity `k` (`hint_types/arrays.py:86-137`).  The serializer is the only
one for that header and type, so these give it its name. -/
def array (w : Setup) (k : Nat) (h : Hint) (item : Nat) (s : Caches) : Except Err Hint × Caches :=
  match find (fun a b => a == b) (k, item) s.arrays with
  | some h => (.ok h, s)
  | none => match mkArray (w.naming [k, item]) w.limit h (w.items item) with
    | .error e => (.error e, s)
    | .ok t => (.ok t, { s with arrays := s.arrays ++ [((k, item), t)] })

/-- Something with brackets in the text of a program. -/
inductive Use
  | char (count : Arg)
  | unicode (count encoding : Arg)
  /-- `array[Header[length, size], item]` -/
  | array (length size : Arg) (item : Nat)

def Use.run (w : Setup) (u : Use) (s : Caches) : Except Err Hint × Caches :=
  match u with
  | .char a => Caches.char w a s
  | .unicode a e => Caches.unicode w a e s
  | .array l z item => match header l z s with
    | (.error e, s') => (.error e, s')
    | (.ok (k, h), s') => Caches.array w k h item s'

/-- The uses in the text of a program, one after the other. -/
def runAll (w : Setup) : List Use → Caches → List (Except Err Hint) × Caches
  | [], s => ([], s)
  | u :: us, s =>
    let (r, s') := u.run w s
    let (rs, s'') := runAll w us s'
    (r :: rs, s'')

end Verif.Caches
