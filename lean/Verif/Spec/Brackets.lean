import Verif.Spec.ArrayHints
/-
Vocabulary for what may be written in the brackets of the library's types.
-/
namespace Verif.Spec

/-- One of `uint8`, `uint16`, `uint32`, `uint64`. -/
def SizeType (h : Hint) : Prop := ∃ st, IsSizeType h st

/-- A number, `NET`, a type variable, a byte string, or `math.inf`. -/
def isLength : Hint → Bool
  | .int _ | .net | .tvar _ | .bytes _ | .inf => true
  | _ => false

/-- The name of a codec or an `EncoderDecoder`. -/
def isCodec : Hint → Bool
  | .codec .. => true
  | _ => false

/-- The type hint of a type `name` with a serializer of its own. -/
def typed (name : String) (s : Ser) : Hint := .annot (.plain name) [.ser s]

/-- The serializer of `n` bytes in one string. -/
def Chars (n : Nat) (c : Code) (st : StructSer) : Prop := st.toks = [⟨n, c⟩] ∧ st.byteOrder = .default ∧ st.actions = none

end Verif.Spec
