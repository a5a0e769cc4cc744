import Verif.Ops
/-
A small program used as the concrete case beside theorems.  Nothing here models library code.

    class Point(Structured, byte_order=LITTLE_ENDIAN):   # 0
        x: uint16
        y: int8
    class Msg(Structured):                               # 1
        tag: uint8
        name: char[uint8]
        points: array[Header[uint8], Point]
    class Tree(Structured):                              # 2
        val: uint8
        kids: array[Header[uint8], Self]
    class Blob(Structured):                              # 3
        data: char[math.inf]
    class Opt(Structured):                               # 4
        x: Annotated[uint8, Condition(lambda o: False, 7)]
    class Names(Structured):                             # 5
        a: char[b'\0']
        b: uint8
    class Alt(Structured):                               # 6
        kind: uint8
        body: Annotated[uint8 | char[uint8], LookbackDecider(lambda o: o.kind, {0: uint8, 1: char[uint8]})]
        tail: uint8
-/
namespace Verif.Samples

def plat : Platform where
  le := true
  packF32 _ _ := none
  unpackF32 _ := 0
  packF16 _ := none
  unpackF16 _ := 0
  intToF64 _ := none

def u8 : StructSer := ⟨['B'], none⟩

/-- `lambda o: o.kind` -/
def kindOf : Decider := fun p => match getAttr? p.attrs "kind" with
  | some v => .ok v
  | none => .error .attributeError

def classes : ClassId → Option ClassInfo
  | 0 => some { attrs := ["x", "y"], serializer := .struct ⟨"<Hb".toList, none⟩, byteOrder := .le }
  | 1 => some
    { attrs := ["tag", "name", "points"], byteOrder := .default
      serializer := .compound [1] [.struct u8, .dynChar [10] u8,
        .array [11] (some u8) (.structured [12] 0) (-1)] }
  | 2 => some
    { attrs := ["val", "kids"], byteOrder := .default
      serializer := .compound [2] [.struct u8, .array [20] (some u8) (.selfT [21]) (-1)] }
  | 3 => some { attrs := ["data"], serializer := .consuming [30], byteOrder := .default }
  | 4 => some
    { attrs := ["x"], byteOrder := .default
      serializer := .cond (.struct u8) (fun _ => .ok (.bool false)) [.int 7] }
  | 5 => some
    { attrs := ["a", "b"], byteOrder := .default
      serializer := .compound [5] [.terminated [50] 0, .struct u8] }
  | 6 => some
    { attrs := ["kind", "body", "tail"], byteOrder := .default
      serializer := .compound [6] [.struct u8,
        .lookback [60] kindOf [.int 0, .int 1] [.struct u8, .dynChar [61] u8] .null, .struct u8] }
  | _ => none

def env : Env := ⟨plat, classes⟩

def point (x y : Int) : Val := .obj 0 none [("x", .int x), ("y", .int y)]
def msg (tag : Int) (name : Bytes) (ps : List Val) : Val :=
  .obj 1 none [("tag", .int tag), ("name", .bytes name), ("points", .list ps)]
def tree (v : Int) (kids : List Val) : Val := .obj 2 none [("val", .int v), ("kids", .list kids)]
def blob (b : Bytes) : Val := .obj 3 none [("data", .bytes b)]
def opt (v : Val) : Val := .obj 4 none [("x", v)]
def alt (k : Int) (b : Val) (t : Int) : Val := .obj 6 none [("kind", .int k), ("body", b), ("tail", .int t)]

/-- A fresh interpreter. -/
def st0 : St := ⟨fun _ => {}, [], ⟨[], 0⟩⟩

/-- The result without the state. -/
def result : Res α → Except Err α
  | .ok a _ => .ok a
  | .err e _ => .error e

/-- The state without the result. -/
def after : Res α → St
  | .ok _ st => st
  | .err _ st => st

end Verif.Samples
