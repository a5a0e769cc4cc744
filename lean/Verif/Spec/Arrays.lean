import Verif.Spec.Strings
import Verif.Ops
/-
Specifications used in the theorems about arrays.
-/
namespace Verif.Spec

/-- `prepack` then `pack`, as a container does with a part. -/
def packGiven (env : Env) (n : Nat) (s : Ser) (p : PObj) (vs : List Val) : M Bytes := do
  let s' ← s.prepack p
  pack env n s' vs

/-- `preunpack` then `unpack*`. -/
def unpackGiven (env : Env) (n : Nat) (s : Ser) (p : PObj) (src : Src) : M (List Val) := do
  let s' ← s.preunpack p
  unpack env n noUpd s' src

/-- In states with `G` the item `v` is packed as `b`; `G` is kept and `size` is the number of bytes. -/
def ItemPacks (env : Env) (n : Nat) (i : Ser) (G : St → Prop) (v : Val) (b : Bytes) : Prop :=
  ∀ st, G st → ∃ st', pack env n i [v] st = .ok b st' ∧ G st' ∧ i.readSize st' = .ok b.length st'

/-- In states with `G`, wherever `b` stands in front, `v` is read and exactly `b` is used; `G` is kept and `size` is
the number of bytes. -/
def ItemReads (env : Env) (n : Nat) (i : Ser) (G : St → Prop) (b : Bytes) (v : Val) : Prop :=
  ∀ src st rest, G st → Shows src st (b ++ rest) → ∃ st', unpack env n noUpd i src st = .ok [v] st' ∧ G st' ∧
    Moved src b.length st st' ∧ i.readSize st' = .ok b.length st'

/-- The values packed on their own, one after the other; the first one that cannot be packed decides the exception. -/
def packEach (P : Platform) (item : StructSer) : List Val → Except Err Bytes
  | [] => .ok []
  | v :: vs => do
    let b ← item.pack P [v]
    let bs ← packEach P item vs
    .ok (b ++ bs)

end Verif.Spec
