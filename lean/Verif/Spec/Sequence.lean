import Verif.Spec.RoundTrip
import Verif.Spec.History
/-
Specifications for C49: several objects one after another.
-/
namespace Verif

/-- `for v in vs: v.pack_write(stream)` -/
def writeAll (env : Env) (n : Nat) : List Val → M Unit
  | [] => pure ()
  | v :: vs => do
    Obj.packWrite env n v
    writeAll env n vs

/-- `[cls.create_unpack_read(stream) for cls in classes]` -/
def readAll (env : Env) (n : Nat) : List ClassId → M (List Val)
  | [] => pure []
  | c :: cs => do
    let v ← createUnpack env n c .io
    let vs ← readAll env n cs
    pure (v :: vs)

/-- `b''.join(v.pack() for v in vs)` -/
def packAll (env : Env) (n : Nat) : List Val → M Bytes
  | [] => pure []
  | v :: vs => do
    let b ← Obj.pack env n v
    let bs ← packAll env n vs
    pure (b ++ bs)

/-- `cls.serializer.size` -/
def classSize (env : Env) (c : ClassId) : M Nat :=
  match env.classes c with
  | some ci => ci.serializer.readSize
  | none => M.throw .keyError

/-- `for cls in classes: out.append(cls.create_unpack_from(b, offset)); offset += cls.serializer.size` -/
def readFrom (env : Env) (n : Nat) (b : Bytes) : Nat → List ClassId → M (List Val)
  | _, [] => pure []
  | off, c :: cs => do
    let v ← createUnpack env n c (.at b off)
    let sz ← classSize env c
    let vs ← readFrom env n b (off + sz) cs
    pure (v :: vs)

/-- Objects of the classes `cs`, coming back one by one as `vs'`. -/
inductive KeptAll (env : Env) (t : Bool) : List ClassId → List Val → List Val → Prop
  | nil : KeptAll env t [] [] []
  | cons (c v v' cs vs vs') (h1 : KeptObj env t false c v v') (h2 : Calm env v.nodes) (h3 : KeptAll env t cs vs vs') :
    KeptAll env t (c :: cs) (v :: vs) (v' :: vs')

/-- Every class has a serializer with a `size`. -/
def allSized (env : Env) (cs : List ClassId) : Prop := ∀ c ∈ cs, ∀ ci, env.classes c = some ci → ci.serializer.sized = true

end Verif
