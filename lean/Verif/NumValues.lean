import Verif.Structs
/-
`structs.py:44-54` `compute_num_values` with its cache, which is a default argument and so shared by all serializers of the
process.  `StructSer.numValues` is what the other parts of the model use for the attribute `num_values`.
-/
namespace Verif.NumValues
open Verif

/-- The dictionary `__cache`: formats, byte order character included, and numbers. -/
abbrev Cache := List (List Char × Nat)

/-- `structs.py:49-52`: `len(struct.Struct.unpack_from(st, bytearray(st.size)))` -/
def count (P : Platform) (s : StructSer) : Except Err Nat := do
  let vs ← structUnpackFrom P s.byteOrder s.toks (List.replicate s.size 0) 0
  .ok vs.length

/-- `structs.py:46-54`: one call. -/
def compute (P : Platform) (s : StructSer) (cache : Cache) : Except Err Nat × Cache :=
  match cache.lookup s.format with
  | some n => (.ok n, cache)
  | none =>
    match count P s with
    | .ok n => (.ok n, (s.format, n) :: cache)
    | .error e => (.error e, cache)

/-- Calls one after another. -/
def calls (P : Platform) : List StructSer → Cache → List (Except Err Nat) × Cache
  | [], cache => ([], cache)
  | s :: ss, cache =>
    let (r, cache) := compute P s cache
    let (rs, cache) := calls P ss cache
    (r :: rs, cache)

/-- Where a thread is in a call: before the look into the dictionary, between counting and storing, at the end. -/
inductive Phase where
  | start
  | counted (n : Nat)
  | done (r : Except Err Nat)

/-- A thread runs until it has used the dictionary once. -/
def step (P : Platform) (s : StructSer) (cache : Cache) : Phase → Phase × Cache
  | .start =>
    match cache.lookup s.format with
    | some n => (.done (.ok n), cache)
    | none =>
      match count P s with
      | .ok n => (.counted n, cache)
      | .error e => (.done (.error e), cache)
  | .counted n => (.done (.ok n), (s.format, n) :: cache)
  | .done r => (.done r, cache)

/-- The threads take turns in any order; thread `i` makes serializer `sers i`. -/
def schedule (P : Platform) (sers : Nat → StructSer) : List Nat → (Nat → Phase) × Cache → (Nat → Phase) × Cache
  | [], st => st
  | i :: is, (ph, cache) =>
    let (p, cache) := step P (sers i) cache (ph i)
    schedule P sers is (fun j => if j = i then p else ph j, cache)

end Verif.NumValues
