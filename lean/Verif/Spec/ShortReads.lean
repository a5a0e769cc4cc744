import Verif.ShortReads

/-!
Which classes can be read from streams that return fewer bytes than asked for.
-/
namespace Verif

mutual
/-- No terminated strings unless `t`, no .NET strings unless `n`, no read-to-end strings unless `c`. -/
def Ser.whole (t n c : Bool) : Ser → Bool
  | .terminated .. => t
  | .net _ => n
  | .consuming _ => c
  | .unicode inner _ _ => inner.whole t n c
  | .array _ _ item _ => item.whole t n c
  | .tuple _ inner => inner.whole t n c
  | .lookback _ _ _ opts dflt => Ser.wholeList t n c opts && dflt.whole t n c
  | .lookahead _ ra _ _ opts dflt => ra.whole t n c && Ser.wholeList t n c opts && dflt.whole t n c
  | .cond s _ _ => s.whole t n c
  | .compound _ ss => Ser.wholeList t n c ss
  | .specialized _ _ ss => Ser.wholeList t n c ss
  | _ => true
def Ser.wholeList (t n c : Bool) : List Ser → Bool
  | [] => true
  | s :: ss => s.whole t n c && Ser.wholeList t n c ss
end

/-- No class of the program has such strings. -/
def Env.whole (env : Env) (t n c : Bool) : Prop := ∀ cls ci, env.classes cls = some ci → ci.serializer.whole t n c = true

/-- Classes that can be read when every call of `read` that returns less than it was asked for returns at least `k` bytes: terminated
strings are read in chunks of 256 bytes, and .NET strings have at most 32767.  If calls may return `None` (`b`), .NET strings and
read-to-end strings cannot be read. -/
def Ser.readable (k : Nat) (b : Bool) (s : Ser) : Bool := s.whole (256 ≤ k) (decide (32767 ≤ k) && !b) (!b)

def Env.readable (env : Env) (k : Nat) (b : Bool) : Prop := ∀ cls ci, env.classes cls = some ci → ci.serializer.readable k b = true

/-- The two outcomes are the same, or the stream stopped short and the first one is `struct.error`. -/
def Short.SameOrShort (x : Res α × List (Option Nat)) (y : Res α) : Prop := x.1 = y ∨ ∃ st, x.1 = .err .structError st

/-- The two outcomes are the same, or the stream stopped short or had no data and the first one is `struct.error`, `TypeError` or `ValueError`. -/
def Short.SameOrRaises (x : Res α × List (Option Nat)) (y : Res α) : Prop :=
  x.1 = y ∨ ∃ e st, x.1 = .err e st ∧ (e = .structError ∨ e = .typeError ∨ e = .valueError)

end Verif
