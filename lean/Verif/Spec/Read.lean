import Verif.Spec.Sem
/-
Vocabulary for comparing what is read from buffers, buffers at an offset, and streams.
-/
namespace Verif
open Sem

/-- The bytes in front of the reader. -/
def Views (src : PSrc) (b : Bytes) : Prop :=
  match src with
  | .buf x => x = b
  | .at x off => off ≤ x.length ∧ x.drop off = b
  | .io data pos => data.drop pos = b

/-- The stream position after reading `k` bytes (0 when the source is not a stream). -/
def Sem.PSrc.ahead (src : PSrc) (k : Nat) : Nat :=
  match src with
  | .io _ pos => pos + k
  | _ => 0

def Sem.PSrc.isBuf : PSrc → Bool
  | .buf _ => true
  | _ => false

def Sem.PSrc.isAt : PSrc → Bool
  | .at .. => true
  | _ => false

mutual
/-- No empty `bytes` or `str` anywhere in a value. -/
def Val.noEmpty : Val → Bool
  | .bytes b => !b.isEmpty
  | .str s => !s.isEmpty
  | .list vs => Val.noEmptyList vs
  | .tup vs => Val.noEmptyList vs
  | .obj _ _ attrs => Val.noEmptyAttrs attrs
  | .custom _ v => v.noEmpty
  | _ => true
def Val.noEmptyList : List Val → Bool
  | [] => true
  | v :: vs => v.noEmpty && Val.noEmptyList vs
def Val.noEmptyAttrs : List (Name × Val) → Bool
  | [] => true
  | (_, v) :: vs => v.noEmpty && Val.noEmptyAttrs vs
end

/-- A count as made by `char[uint*]`: one unsigned integer, no action. -/
def StructSer.isCount (s : StructSer) : Bool :=
  s.actions.isNone && match s.toks with
    | [⟨1, .int false _⟩] => true
    | _ => false

/-- Reads a number of bytes that only depends on the bytes it needs anyway. -/
def Ser.solid : Ser → Bool
  | .struct _ | .staticArr .. | .dynArr .. => true
  | _ => false

/-- A `char[char.NET]`, or text in one. -/
def Ser.isNet : Ser → Bool
  | .net _ => true
  | .unicode inner _ _ => inner.isNet
  | _ => false

/-- The types that read lists and objects. -/
def Ser.readsContainer : Ser → Bool
  | .array .. | .staticArr .. | .dynArr .. | .structured .. => true
  | _ => false

/-- The serializers of `char` types, which `unicode` wraps. -/
def Ser.charLike : Ser → Bool
  | .null | .struct _ | .dynChar .. | .consuming _ | .terminated .. | .net _ => true
  | _ => false

/-- What a statement about reading admits. -/
structure Allow where
  /-- terminated strings -/
  term : Bool
  /-- read-to-end strings -/
  cons : Bool
  /-- decoders that do not map the empty string to the empty text -/
  codec : Bool
  /-- read-ahead types of every kind without length-prefixed strings, not only basic types and arrays of them -/
  peek : Bool

mutual
/-- No length-prefixed strings (`char[uint*]`, `char[char.NET]`), whose reading methods treat missing
bytes and empty strings differently, and no terminated strings unless `t`. -/
def Ser.steady (t : Bool) : Ser → Bool
  | .dynChar .. => false
  | .net _ => false
  | .terminated .. => t
  | .unicode inner _ _ => inner.steady t
  | .array _ _ item _ => item.steady t
  | .tuple _ inner => inner.steady t
  | .lookback _ _ _ opts dflt => Ser.steadyList t opts && dflt.steady t
  | .lookahead _ ra _ _ opts dflt => ra.sized && ra.steady t && Ser.steadyList t opts && dflt.steady t
  | .cond s _ _ => s.steady t
  | .compound _ ss => Ser.steadyList t ss
  | .specialized _ _ ss => Ser.steadyList t ss
  | _ => true
def Ser.steadyList (t : Bool) : List Ser → Bool
  | [] => true
  | s :: ss => s.steady t && Ser.steadyList t ss
end

mutual
def Ser.allowed (k : Allow) : Ser → Bool
  | .dynChar _ st => st.isCount
  | .terminated .. => k.term
  | .consuming _ => k.cons
  | .unicode inner _ de => inner.charLike && inner.allowed k && (k.codec || match de [] with
      | .ok [] => true
      | _ => false)
  | .array _ _ item _ => item.allowed k
  | .tuple _ inner => inner.allowed k
  | .lookback _ _ _ opts dflt => Ser.allowedList k opts && dflt.allowed k
  | .lookahead _ ra _ _ opts dflt =>
    (ra.solid || (k.peek && ra.steady true && ra.allowed k)) && Ser.allowedList k opts && dflt.allowed k
  | .cond s _ _ => s.allowed k
  | .compound _ ss => Ser.allowedList k ss
  | .specialized _ _ ss => Ser.allowedList k ss
  | _ => true
def Ser.allowedList (k : Allow) : List Ser → Bool
  | [] => true
  | s :: ss => s.allowed k && Ser.allowedList k ss
end

mutual
/-- No lookahead: only bytes that are consumed are looked at. -/
def Ser.noPeek : Ser → Bool
  | .lookahead .. => false
  | .dynChar _ st => st.isCount
  | .unicode inner _ _ => inner.noPeek
  | .array _ _ item _ => item.noPeek
  | .tuple _ inner => inner.noPeek
  | .lookback _ _ _ opts dflt => Ser.noPeekList opts && dflt.noPeek
  | .cond s _ _ => s.noPeek
  | .compound _ ss => Ser.noPeekList ss
  | .specialized _ _ ss => Ser.noPeekList ss
  | _ => true
def Ser.noPeekList : List Ser → Bool
  | [] => true
  | s :: ss => s.noPeek && Ser.noPeekList ss
end

/-- No class of a program looks ahead. -/
def Env.noPeek (env : Env) : Prop :=
  ∀ c ci, env.classes c = some ci → ci.serializer.noPeek = true

/-- All classes of a program are steady. -/
def Env.steady (env : Env) (t : Bool) : Prop :=
  ∀ c ci, env.classes c = some ci → ci.serializer.steady t = true

/-- All classes of a program are admitted. -/
def Env.allowed (env : Env) (k : Allow) : Prop :=
  ∀ c ci, env.classes c = some ci → ci.serializer.allowed k = true

/-- No class has a `__post_init__`. -/
def Env.noPost (env : Env) : Prop := ∀ c ci, env.classes c = some ci → ci.postInit = Except.ok

end Verif
