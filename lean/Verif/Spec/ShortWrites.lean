import Verif.ShortWrites

/-!
What a stream holds after it was given pieces of data one after the other.
-/
namespace Verif.ShortW

/-- Calling `write` with each piece until one raises: the exception if there was one, the stream, and the answers left. -/
def feed : List Bytes → List Answer → Stream → Option Err × Stream × List Answer
  | [], as, io => (none, io, as)
  | b :: bs, [], io => feed bs [] (io.write b)
  | b :: bs, .takes k :: as, io => feed bs as (io.write (b.take k))
  | b :: _, .raises k e :: as, io => (some e, io.write (b.take k), as)

/-- No call that returns takes fewer than `m` bytes unless it was given fewer. -/
def Complete (m : Nat) (as : List Answer) : Prop := ∀ k, .takes k ∈ as → m ≤ k

end Verif.ShortW
