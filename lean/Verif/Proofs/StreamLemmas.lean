import Verif.Basic
/-
Writing to a stream.
-/
namespace Verif

theorem Stream.write_nil (s : Stream) : s.write [] = s := by simp [Stream.write]

theorem Stream.write_append (s : Stream) (a b : Bytes) : s.write (a ++ b) = (s.write a).write b := by
  by_cases ha : a = []
  · simp [ha, Stream.write_nil]
  by_cases hb : b = []
  · simp [hb, Stream.write_nil]
  have hab : a ++ b ≠ [] := by simp [ha]
  simp only [Stream.write, ha, hb, hab, ↓reduceIte, Stream.mk.injEq]
  have hl : (List.take s.pos s.data ++ List.replicate (s.pos - s.data.length) (0 : UInt8)).length = s.pos := by
    simp; omega
  constructor
  · have e1 : List.take (s.pos + a.length) (List.take s.pos s.data ++ List.replicate (s.pos - s.data.length) 0
        ++ a ++ List.drop (s.pos + a.length) s.data)
        = List.take s.pos s.data ++ List.replicate (s.pos - s.data.length) 0 ++ a := by
      rw [List.take_append_of_le_length (by simp; omega)]
      exact List.take_of_length_le (by simp; omega)
    have e2 : List.drop (s.pos + a.length + b.length) (List.take s.pos s.data ++
        List.replicate (s.pos - s.data.length) 0 ++ a ++ List.drop (s.pos + a.length) s.data)
        = List.drop (s.pos + (a ++ b).length) s.data := by
      rw [List.drop_append]
      have hlen : (List.take s.pos s.data ++ List.replicate (s.pos - s.data.length) (0 : UInt8) ++ a).length
          = s.pos + a.length := by rw [List.length_append, hl]
      rw [hlen, List.drop_of_length_le (by rw [hlen]; omega), List.drop_drop]
      simp; congr 1; omega
    have e3 : s.pos + a.length - (List.take s.pos s.data ++
        List.replicate (s.pos - s.data.length) 0 ++ a ++ List.drop (s.pos + a.length) s.data).length = 0 := by
      simp only [List.length_append, hl]; omega
    rw [e1, e2, e3]
    simp
  · simp; omega

end Verif
