import Verif.Proofs.NetLemmas
/-
C16: the length marker of .NET strings.
-/
namespace Verif

/-- **C16** (marker).  Every length from 128 to 0x7FFF that `_st_count_data` encodes in two bytes fits
16 bits, has the bit set that tells the reader to read two bytes, and decodes to itself. -/
theorem C16_marker (c : Nat) (h : c ≤ 0x7FFF) :
    netMark c < 2 ^ 16 ∧ 128 ≤ netMark c % 256 ∧ netDecode (netMark c) = .ok c := by
  rw [netDecode_eq, netMark_eq]
  have h1 : c / 128 < 256 := by omega
  have h2 : (128 + c % 128 + 256 * (c / 128 % 512)) % 128
      + 128 * ((128 + c % 128 + 256 * (c / 128 % 512)) / 256 % 512) = c := by omega
  rw [h2, if_neg (by omega)]
  exact ⟨by omega, by omega, rfl⟩

/-- **C16** (injective).  Different lengths have different markers. -/
theorem C16_marker_injective (c d : Nat) (hc : c ≤ 0x7FFF) (hd : d ≤ 0x7FFF)
    (h : netMark c = netMark d) : c = d := by
  have h1 := (C16_marker c hc).2.2
  rw [h, (C16_marker d hd).2.2] at h1
  exact (Except.ok.inj h1).symm

/-- **C16** (no marker is too long).  Whatever two bytes are read, the decoded length is at most
0x7FFF, and it is the length whose marker has the same bits (the flag bit aside). -/
theorem C16_decode_bound (m : Nat) (h : m < 2 ^ 16) :
    ∃ c, netDecode m = .ok c ∧ c ≤ 0x7FFF ∧ (128 ≤ m % 256 → netMark c = m) := by
  rw [netDecode_eq]
  have h1 : m / 256 < 256 := by omega
  refine ⟨_, if_neg (by omega), by omega, ?_⟩
  intro hb
  rw [netMark_eq]
  omega

example : netMark 300 = 0x2AC ∧ netDecode 0x2AC = .ok 300 := ⟨by rfl, by rfl⟩
example : netMark 0x7FFF = 0xFFFF ∧ netDecode 0xFFFF = .ok 0x7FFF := ⟨by rfl, by rfl⟩

end Verif
