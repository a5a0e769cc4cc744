import Verif.Threads
/-
What threads may do at the same time (C40).
-/
namespace Verif.Threads

/-! ### Classes whose operations do not disturb each other -/

/-- Serializers of nested classes that all objects are read with the same size, and that size. -/
abbrev Sizes := SerId → Option Nat

/-- No such serializers. -/
def noSizes : Sizes := fun _ => Option.none

/-- The number of bytes does not depend on the value. -/
def fixedSize (F : Sizes) : Ser → Bool
  | .null | .struct _ | .staticArr .. | .skip _ => true
  | .unicode inner _ _ => fixedSize F inner
  | .tuple _ inner => fixedSize F inner
  | .cond ser _ _ => fixedSize F ser
  | .structured id _ => (F id).isSome
  | _ => false

/-- An array header without the size of the data. -/
def unsized (hdr : Option StructSer) (staticLen : Int) : Bool :=
  if 0 ≤ staticLen then hdrNum hdr != 1 else hdrNum hdr != 2

mutual
/-- The serializer works whatever object it was shown last.  `b`: for methods that compute positions in a
buffer (`unpack`, `unpack_from`, `pack_into`); there, only the last part may have a size of its own.
`u`: for unpacking, where `Self` looks at the object. -/
def sharable (F : Sizes) (b u : Bool) : Ser → Bool
  | .unicode inner _ _ => !inner.overridesPre && sharable F b u inner
  | .array _ hdr item sl => unsized hdr sl && sharable F b u item && (!b || fixedSize F item)
  | .tuple _ inner => sharable F b u inner
  | .lookback .. | .lookahead .. | .cond .. | .specialized .. => false
  | .selfT _ => !u
  | .compound _ ss => sharableList F b u ss
  | _ => true
def sharableList (F : Sizes) (b u : Bool) : List Ser → Bool
  | [] => true
  | s :: ss => sharable F b u s && (!b || fixedSize F s || ss.isEmpty) && sharableList F b u ss
end

/-- A field: it is shown the object itself, so conditions and `Self` are possible. -/
def ownField (F : Sizes) (b u : Bool) : Ser → Bool
  | .cond ser _ _ => !ser.overridesPre && sharable F b u ser
  | .selfT _ => true
  | s => sharable F b u s

def ownFields (F : Sizes) (b u : Bool) : List Ser → Bool
  | [] => true
  | s :: ss => ownField F b u s && (!b || fixedSize F s || ss.isEmpty) && ownFields F b u ss

/-- The serializer of a class. -/
def ownSerializer (F : Sizes) (b u : Bool) : Ser → Bool
  | .compound _ ss => ownFields F b u ss
  | s => ownField F b u s

/-- No class has unions or arrays with a size in the header, or (for `b`) a field of varying size before the last. -/
def Parallel (F : Sizes) (b u : Bool) (env : Env) : Prop :=
  ∀ c bo ci ser, objSer env c bo = .ok (ci, ser) → ownSerializer F b u ser = true

/-! ### Nested classes of fixed size -/

/-- `F` gives the sizes of the serializers of nested classes with this serializer only. -/
def sized (F : Sizes) (env : Env) (id : SerId) (c : ClassId) : Bool :=
  match F id with
  | Option.none => true
  | some m => match env.classes c with
    | some ci => match ci.serializer with
      | .struct s => s.size == m
      | _ => false
    | Option.none => false

mutual
/-- `F` gives sizes to nested classes only, and to these the size of their `struct` format. -/
def fits (F : Sizes) (env : Env) : Ser → Bool
  | .dynChar id _ | .consuming id | .terminated id _ | .net id | .dynArr id .. | .selfT id => (F id).isNone
  | .unicode inner _ _ => fits F env inner
  | .array id _ item _ => (F id).isNone && fits F env item
  | .tuple _ inner => fits F env inner
  | .lookback id _ _ opts dflt => (F id).isNone && fitsList F env opts && fits F env dflt
  | .lookahead id ra _ _ opts dflt => (F id).isNone && fits F env ra && fitsList F env opts && fits F env dflt
  | .cond ser _ _ => fits F env ser
  | .structured id c => sized F env id c
  | .compound id ss => (F id).isNone && fitsList F env ss
  | .specialized id _ ss => (F id).isNone && fitsList F env ss
  | .null | .struct _ | .staticArr .. | .skip _ => true
def fitsList (F : Sizes) (env : Env) : List Ser → Bool
  | [] => true
  | s :: ss => fits F env s && fitsList F env ss
end

/-- The sizes `F` fit the program. -/
def Fitting (F : Sizes) (env : Env) : Prop := ∀ c bo ci ser, objSer env c bo = .ok (ci, ser) → fits F env ser = true

/-! ### Tasks of threads -/

/-- What a thread is asked to do. -/
inductive Task
  | pack (v : Val)
  | packInto (off : Nat) (v : Val)
  | packWrite (v : Val)
  | createUnpack (cls : ClassId) (src : Src)
  | unpack (v : Val) (src : Src)

/-- What it returns: bytes, nothing or an object. -/
inductive Reply
  | bytes (b : Bytes)
  | nothing
  | value (v : Val)

/-- The task as steps of a thread. -/
def Task.thread (env : Env) (n : Nat) : Task → T Reply
  | .pack v => do pure (.bytes (← packObj env n v))
  | .packInto off v => do packObjInto env n off v; pure .nothing
  | .packWrite v => do packObjWrite env n v; pure .nothing
  | .createUnpack cls src => do pure (.value (← Threads.createUnpack env n cls src))
  | .unpack v src => do pure (.value (← unpackObj env n v src))

/-- The task in a program without threads (`Ops.lean`). -/
def Task.alone (env : Env) (n : Nat) : Task → M Reply
  | .pack v => do pure (.bytes (← Obj.pack env n v))
  | .packInto off v => do Obj.packInto env n off v; pure .nothing
  | .packWrite v => do Obj.packWrite env n v; pure .nothing
  | .createUnpack cls src => do pure (.value (← Verif.createUnpack env n cls src))
  | .unpack v src => do pure (.value (← Obj.unpack env n v src))

/-- A task that computes positions in a buffer. -/
def Task.inBuffer : Task → Bool
  | .packInto .. => true
  | .createUnpack _ .io | .unpack _ .io => false
  | .createUnpack .. | .unpack .. => true
  | _ => false

def Task.unpacks : Task → Bool
  | .createUnpack .. | .unpack .. => true
  | _ => false

/-- The result, buffer and stream of a call, without the attributes of the serializers. -/
def outcome : Res α → Except Err α × Loc
  | .ok a st => (.ok a, ⟨st.buf, st.io⟩)
  | .err e st => (.error e, ⟨st.buf, st.io⟩)

/-- The threads at their start. -/
def threads (env : Env) (n : Nat) (tasks : List (Task × Loc)) : List (Prog (Except Err Reply × Loc)) :=
  tasks.map fun t => t.1.thread env n t.2

end Verif.Threads
