import Verif.Hints
/-
Vocabulary for statements about type hints.
-/
namespace Verif.Spec

/-- Metadata in an `Annotated` that the library takes no interest in: no serializer, `Condition` or `SerializeAs`, and
not one of the types that must be indexed. -/
def inert : Hint → Bool
  | .ser _ | .cond .. | .serAs _ | .unindexed _ => false
  | _ => true

/-- All that is in the metadata, at any depth of nested `Annotated`s, is of no interest. -/
def inertAll (ms : List Hint) : Bool := (Hint.flatMetas ms).all inert

/-- `typing` never makes an `Annotated` whose first argument is an `Annotated`. -/
def proper : Hint → Bool
  | .annot (.annot ..) _ => false
  | _ => true

/-- `Annotated[... Annotated[Annotated[h, *l1], *l2] ..., *lk]` -/
def layered (h : Hint) (layers : List (List Hint)) : Hint := layers.foldl annotate h

/-- A type of which the library could make a serializer, without metadata: a `Structured` class, `Self`, a tuple of
fixed length, or a serializer object itself. -/
def serializableType : Hint → Bool
  | .ser _ | .cls _ | .gen .. | .selfT | .tup _ false => true
  | _ => false

/-- Metadata of which the library makes a serializer. -/
def serializing : Hint → Bool
  | .ser _ | .serAs _ => true
  | _ => false

end Verif.Spec
