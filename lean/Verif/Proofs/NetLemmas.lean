import Verif.Ops
/-
Bit arithmetic of the .NET length marker.
-/
namespace Verif

theorem and_7F (c : Nat) : c &&& 0x7F = c % 128 := Nat.and_two_pow_sub_one_eq_mod c 7

theorem and_FF80 (c : Nat) : c &&& 0xFF80 = c / 128 % 512 * 128 := by
  have h : (0xFF80 : Nat) = (2 ^ 9 - 1) <<< 7 := by decide
  rw [h, show c / 128 % 512 * 128 = (c >>> 7 % 2 ^ 9) <<< 7 by
    rw [Nat.shiftLeft_eq, Nat.shiftRight_eq_div_pow]]
  rw [← Nat.and_two_pow_sub_one_eq_mod]
  apply Nat.eq_of_testBit_eq
  intro i
  simp only [Nat.testBit_and, Nat.testBit_shiftLeft, Nat.testBit_shiftRight]
  by_cases hi : 7 ≤ i
  · simp [hi, show 7 + (i - 7) = i by omega]
  · simp [hi]

theorem or_128 {r : Nat} (h : r < 128) : 128 ||| r = 128 + r := by
  have := Nat.two_pow_add_eq_or_of_lt (i := 7) (b := r) h 1
  simpa using this.symm

theorem or_mul {k r : Nat} (i : Nat) (h : r < 2 ^ i) : r ||| (k * 2 ^ i) = k * 2 ^ i + r := by
  have := Nat.two_pow_add_eq_or_of_lt (i := i) (b := r) h k
  rw [Nat.or_comm, Nat.mul_comm k, this]

theorem netMark_eq (c : Nat) : netMark c = 128 + c % 128 + 256 * (c / 128 % 512) := by
  have h1 : c % 128 < 128 := Nat.mod_lt _ (by omega)
  unfold netMark
  rw [and_7F, and_FF80, or_128 h1, Nat.shiftLeft_eq,
    show c / 128 % 512 * 128 * 2 ^ 1 = c / 128 % 512 * 2 ^ 8 by omega, or_mul 8 (by omega)]
  omega

theorem netDecode_eq (m : Nat) : netDecode m =
    (if 0x7FFF < m % 128 + 128 * (m / 256 % 512) then .error .valueError
     else .ok (m % 128 + 128 * (m / 256 % 512))) := by
  have h1 : m % 128 < 2 ^ 7 := Nat.mod_lt _ (by omega)
  have h : (m &&& 0x7F) ||| ((m >>> 1) &&& 0xFF80) = m % 128 + 128 * (m / 256 % 512) := by
    rw [and_7F, and_FF80, Nat.shiftRight_eq_div_pow, or_mul 7 h1]
    omega
  simp only [netDecode, h]

end Verif
