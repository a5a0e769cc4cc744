import Verif.Classes
import Verif.Instances
import Verif.Samples
/-
The tests of the library (`/repo/tests`), run in the model.  They pass on the library, so they check the reading of the code: each
`example` in this directory is one test, or the part of it that is about behaviour.  Nothing else depends on these files.
-/
namespace Verif.RepoTests
open Samples (st0 plat)

/-- A little-endian machine with the two floats that the tests use, 0.0 and 1.125. -/
def host : Platform := { plat with
  packF32 := fun _ x => if x = 0x3FF2000000000000 then some 0x3F900000 else if x = 0 then some 0 else none
  unpackF32 := fun u => if u = 0x3F900000 then 0x3FF2000000000000 else 0 }

/-- A number for the hints that are used in brackets, to tell the cached results apart. -/
def hintNo : Hint → Nat
  | .annot (.plain _) [.ser (.struct ⟨[c], _⟩)] => c.toNat
  | .annot (.plain _) [.ser (.structured _ c)] => 300 + c
  | .int i => 1000 + i.toNat
  | .bytes [b] => 400 + b.toNat
  | .cls c => 300 + c
  | .selfT => 700
  | .net => 701
  | .inf => 702
  | .header (.static n) Option.none => 2000 + n.toNat
  | .header (.static n) (some _) => 3000 + n.toNat
  | .header (.dyn _) Option.none => 4000
  | .header (.dyn _) (some _) => 4001
  | _ => 800

def kindNo : AliasKind → Nat
  | .char => 900
  | .unicode => 901
  | .header => 902
  | .array => 903
  | .tuple => 904

/-- Types of one's own take any value and are told apart by a number. -/
def ctx : HintCtx where
  clsFinal := fun _ => false
  spec := fun c _ => .ok (c + 50)
  ident := fun k args => kindNo k :: args.map hintNo
  call := fun name v => .ok (.custom name.length v)

/-- The classes made by statements, one after the other; the first of each number counts. -/
def worldOf : List (ClassId × ClassDecl) → World → World
  | [], w => w
  | (c, d) :: rest, w => worldOf rest fun c' => if c' = c then (createClass ctx 6 [c] w d).toOption else w c'

def made (ds : List (ClassId × ClassDecl)) : World := worldOf ds fun _ => Option.none

def envOf (ds : List (ClassId × ClassDecl)) : Env := ⟨host, fun c => (made ds c).map (·.info)⟩

/-- The serializer of a class that is made. -/
def serOf (ds : List (ClassId × ClassDecl)) (c : ClassId) : Option Ser := (made ds c).map (·.info.serializer)
def attrsOf (ds : List (ClassId × ClassDecl)) (c : ClassId) : Option (List Name) := (made ds c).map (·.info.attrs)

/-- A statement without options. -/
def struct (anns : List (Name × Hint)) : ClassDecl := { bases := [.structured], anns }

/-- What is written in brackets. -/
def get (h : Except Err Hint) : Hint := match h with
  | .ok h => h
  | .error _ => .noneT

def int8 := basicHint "int" 'b'
def uint8 := basicHint "int" 'B'
def int16 := basicHint "int" 'h'
def uint16 := basicHint "int" 'H'
def int32 := basicHint "int" 'i'
def uint32 := basicHint "int" 'I'
def int64 := basicHint "int" 'q'
def uint64 := basicHint "int" 'Q'
def float16 := basicHint "float" 'e'
def float32 := basicHint "float" 'f'
def float64 := basicHint "float" 'd'
def bool8 := basicHint "bool" '?'
def char (h : Hint) := get (mkChar ctx h)
def pad (n : Int) := get (mkPad n)
def pascal (n : Int) := get (mkPascal n)
def header (l : Hint) (s : Hint := .noneT) := get (mkHeader l s)
def array (h i : Hint) := get (mkArray ctx 6 h i)

/-- `Class(*values)` -/
def new (ds : List (ClassId × ClassDecl)) (c : ClassId) (vs : List Val) : Val := match made ds c with
  | some o => match callClass c o.info vs with
    | .ok v => v
    | .error _ => .none
  | Option.none => .none

/-- Instances of types of one's own are equal if what they wrap is. -/
def userEq : Val → Val → Except Err Bool
  | .custom a v, .custom b w => .ok (a == b && v.keyEq w)
  | .custom _ v, w => .ok (v.keyEq w)
  | v, .custom _ w => .ok (v.keyEq w)
  | _, _ => .ok false

/-- `assert` -/
def check (b : Bool) : M Unit := if b then pure () else M.throw (.user 0)

def sameAs (env : Env) (a b : Val) : Bool := match pyEq env userEq 9 a b with
  | .ok r => r
  | .error _ => false

/-- `tests/__init__.py:15-35` `standard_tests` -/
def standardTests (env : Env) (v : Val) (data : Bytes) : M Unit := match v with
  | .obj c bo _ => do
    let (_, ser) ← M.lift (objSer env c bo)
    let size : M Unit := do check ((← ser.readSize) == data.length)
    check ((← Obj.pack env 20 v) == data)
    check (sameAs env (← createUnpack env 20 c (.buf data)) v)
    size
    M.modify fun st => { st with buf := List.replicate data.length 0 }
    Obj.packInto env 20 0 v
    check ((← M.get).buf == data)
    size
    check (sameAs env (← createUnpack env 20 c (.at (← M.get).buf 0)) v)
    size
    M.modify fun st => { st with io := ⟨[], 0⟩ }
    Obj.packWrite env 20 v
    size
    check ((← M.get).io.data == data)
    M.modify fun st => { st with io := ⟨st.io.data, 0⟩ }
    check (sameAs env (← createUnpack env 20 c .io) v)
    size
  | _ => M.throw (.user 1)

/-- All assertions hold. -/
def passes (t : M Unit) : Bool := match t st0 with
  | .ok _ _ => true
  | .err _ _ => false

/-- The exception of a call. -/
def raised (t : M α) : Option Err := match t st0 with
  | .ok _ _ => Option.none
  | .err e _ => some e

/-- The exception of an expression. -/
def failed (t : Except Err α) : Option Err := match t with
  | .ok _ => Option.none
  | .error e => some e

/-- The format of a struct serializer. -/
def formatOf (s : Option Ser) : Option String := match s with
  | some (.struct st) => some (String.ofList st.format)
  | _ => Option.none

/-- `target_obj.serializer.size`, the class of a serializer, and so on are looked at by pattern matching. -/
def isNull (s : Option Ser) : Bool := match s with
  | some .null => true
  | _ => false
def isCompound (s : Option Ser) : Bool := match s with
  | some (.compound ..) => true
  | _ => false
/-- `[s.num_values for s in serializer.serializers]` -/
def counts (s : Option Ser) : List Nat := match s with
  | some (.compound _ ss) => ss.map Ser.numValues
  | _ => []

end Verif.RepoTests
