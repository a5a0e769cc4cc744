import Verif.Spec.Arrays
import Verif.Samples
/-
Which type a union uses.
-/
namespace Verif.Spec

/-- `prepack` then `pack_into`. -/
def packIntoGiven (env : Env) (n : Nat) (s : Ser) (p : PObj) (off : Nat) (vs : List Val) : M Unit := do
  let s' ← s.prepack p
  packInto env n s' off vs

/-- `prepack` then `pack_write`. -/
def packWriteGiven (env : Env) (n : Nat) (s : Ser) (p : PObj) (vs : List Val) : M Unit := do
  let s' ← s.prepack p
  packWrite env n s' vs

/-- The type the map gives for the key `r`: that of the key equal to `r`, or the default if no key is. -/
inductive Chosen (keys : List Val) (opts : List Ser) (d : Ser) (r : Val) : Ser → Prop
  | mapped (i : Nat) (k : Val) (s : Ser) : keys[i]? = some k → opts[i]? = some s → k.keyEq r = true →
      (∀ j k', j < i → keys[j]? = some k' → k'.keyEq r = false) → Chosen keys opts d r s
  | default : (∀ k ∈ keys, k.keyEq r = false) → d ≠ .null → Chosen keys opts d r d

/-- What cannot be a key of a dictionary: lists, `Structured` objects (they define `__eq__` and no `__hash__`), and tuples
with such a thing in them. -/
inductive Unhashable : Val → Prop
  | list (vs : List Val) : Unhashable (.list vs)
  | obj (cls : ClassId) (bo : Option ByteOrder) (attrs : List (Name × Val)) : Unhashable (.obj cls bo attrs)
  | tup (vs : List Val) (v : Val) : v ∈ vs → Unhashable v → Unhashable (.tup vs)

/-- Both unions pack alike: `u` is one of them. -/
inductive IsUnion (id : SerId) (dec : Decider) (keys : List Val) (opts : List Ser) (d : Ser) : Ser → Prop
  | back : IsUnion id dec keys opts d (.lookback id dec keys opts d)
  | ahead (ra : Ser) : IsUnion id dec keys opts d (.lookahead id ra dec keys opts d)

/-- Serializers that have a `size` once they were used.  `Condition` and `Self` serializers never get one; they are
replaced by `prepack`/`preunpack`, but not inside tuples and text. -/
def HasSize : Ser → Prop
  | .cond .. => False
  | .selfT _ => False
  | .unicode i .. => HasSize i
  | .tuple _ i => HasSize i
  | _ => True

/-- The same value or exception, buffer and stream; only attributes of serializers may differ. -/
def SameOutcome (a b : Res α) : Prop :=
  Samples.result a = Samples.result b ∧ (Samples.after a).buf = (Samples.after b).buf ∧
    (Samples.after a).io = (Samples.after b).io

end Verif.Spec
