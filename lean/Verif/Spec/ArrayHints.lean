import Verif.Classes
/-
Vocabulary for `array[Header[count, size], item]`.
-/
namespace Verif.Spec

/-- `h` is one of the types allowed in headers, `uint8`, `uint16`, `uint32`, `uint64`; `st` is its serializer. -/
def IsSizeType (h : Hint) (st : StructSer) : Prop := ∃ ch ∈ ['B', 'H', 'I', 'Q'], h = basicHint "int" ch ∧ st = ⟨[ch], none⟩

/-- `h` is what `array[Header[length, size], item]` is. -/
def IsArrayHint (ctx : HintCtx) (N : Nat) (length size item h : Hint) : Prop :=
  ∃ hd, mkHeader length size = .ok hd ∧ mkArray ctx N hd item = .ok h

/-- `s` is a serializer of the item type `item`. -/
def ItemSer (ctx : HintCtx) (N : Nat) (item : Hint) (s : Ser) : Prop := ∃ id, transform ctx N id item = .ok (.ser s)

/-- `s` is the serializer of a basic type such as `uint8`. -/
def IsBasic (s : Ser) : Prop := ∃ st, s = .struct st ∧ st.numValues = 1

end Verif.Spec
