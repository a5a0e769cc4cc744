import Verif.Spec.Struct
import Verif.Spec.Read
/-
Specifications used in the theorems about strings.
-/
namespace Verif.Spec

/-- An integer written with `w` bytes in a byte order: digits least significant first for `'<'`, most significant
first for `'>'` and `'!'`, the order of the host otherwise. -/
def intBytes (P : Platform) (bo : ByteOrder) (w : Nat) (i : Int) : Bytes :=
  match bo with
  | .le => digitsLE w i
  | .be | .network => (digitsLE w i).reverse
  | _ => if P.le then digitsLE w i else (digitsLE w i).reverse

/-- The reader `src` has the bytes `d` in front of it. -/
def Shows (src : Src) (st : St) (d : Bytes) : Prop :=
  match src with
  | .buf b => b = d
  | .at b off => off ≤ b.length ∧ b.drop off = d
  | .io => st.io.data.drop st.io.pos = d

/-- Only the stream position has moved, by `k`, and only if the stream was read. -/
def Moved (src : Src) (k : Nat) (st st' : St) : Prop :=
  st'.buf = st.buf ∧ st'.io.data = st.io.data ∧ st'.io.pos = st.io.pos + (match src with | .io => k | _ => 0)

end Verif.Spec
