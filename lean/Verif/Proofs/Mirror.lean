import Verif.Spec.Mirror
import Verif.Proofs.Places
/-
Lemmas on packing in another byte order.
-/
namespace Verif.Mirrors
open Spec Extends Places

theorem mirrored_refl : ∀ b : Bytes, Mirrored b b
  | [] => .nil
  | x :: b => .same x (mirrored_refl b)

theorem mirrored_append {b b' c c' : Bytes} (h : Mirrored b b') (h' : Mirrored c c') : Mirrored (b ++ c) (b' ++ c') := by
  induction h with
  | nil => exact h'
  | same x _ ih => exact .same x ih
  | turned hl _ ih => rw [List.append_assoc, List.append_assoc]; exact .turned hl ih

theorem mirrored_length {b b' : Bytes} (h : Mirrored b b') : b.length = b'.length := by
  induction h with
  | nil => rfl
  | same x _ ih => simp [ih]
  | turned _ _ ih => simp [ih]

theorem mirrored_symm {b b' : Bytes} (h : Mirrored b b') : Mirrored b' b := by
  induction h with
  | nil => exact .nil
  | same x _ ih => exact .same x ih
  | @turned c b b' hl _ ih =>
    have := Mirrored.turned (c := c.reverse) (by simpa using hl) ih
    rwa [List.reverse_reverse] at this

theorem mirrored_turn {c : Bytes} (hl : c.length = 1 ∨ c.length = 2 ∨ c.length = 4 ∨ c.length = 8) : Mirrored c c.reverse := by
  rcases hl with hl | hl
  · match c, hl with
    | [x], _ => exact mirrored_refl _
  · have := Mirrored.turned hl .nil
    rwa [List.append_nil, List.append_nil] at this

variable {P : Platform} {bo bo' : ByteOrder}

theorem intBytes_mirrored (w : Nat) (hw : w = 1 ∨ w = 2 ∨ w = 4 ∨ w = 8) (i : Int) : Mirrored (intBytes P bo w i) (intBytes P bo' w i) := by
  have hl : (digitsLE w i).length = w := by
    have := intBytes_length P .le w i
    exact this
  have h1 : Mirrored (digitsLE w i) (digitsLE w i).reverse := mirrored_turn (by rw [hl]; exact hw)
  have h2 := mirrored_symm h1
  have h3 := mirrored_refl (digitsLE w i)
  have h4 := mirrored_refl (digitsLE w i).reverse
  unfold intBytes
  cases bo <;> cases bo' <;> cases P.le <;> simp only [Bool.false_eq_true, if_true, if_false] <;> assumption

theorem size_cases (w : Size) : w.bytes = 1 ∨ w.bytes = 2 ∨ w.bytes = 4 ∨ w.bytes = 8 := by cases w <;> simp [Size.bytes]

theorem mirror_refl (r : Parsed Bytes) : Mirror r r := by
  cases r with
  | ok b => exact mirrored_refl b
  | err => rfl
  | deep | odd => trivial

theorem mirror_bind {r r' : Parsed Bytes} (h : Mirror r r') {f f' : Bytes → Parsed Bytes} (hf : ∀ b b', Mirrored b b' → Mirror (f b) (f' b')) :
    Mirror (r >>= f) (r' >>= f') := by
  cases r <;> cases r' <;> first | exact absurd h id | skip
  · exact hf _ _ h
  · exact h
  · trivial
  · trivial

theorem mirror_prefixed {b b' : Bytes} (h : Mirrored b b') (w : Size) (k : Nat) : Mirror (fits (prefixed P bo w k b)) (fits (prefixed P bo' w k b')) := by
  unfold prefixed
  split
  · exact mirrored_append (intBytes_mirrored _ (size_cases w) _) h
  · rfl

theorem mirror_putAll {f f' : Val → Parsed Bytes} (hf : ∀ v, Mirror (f v) (f' v)) : ∀ vs, Mirror (putAll f vs) (putAll f' vs)
  | [] => .nil
  | v :: vs => by
    simp only [putAll]
    exact mirror_bind (hf v) fun _ _ h1 => mirror_bind (mirror_putAll hf vs) fun _ _ h2 => mirrored_append h1 h2

theorem gap_zero {bo : ByteOrder} (h : aligned bo = false) (k : Nat) (x : Option (Nat × Nat)) : gap bo k x = 0 := by
  cases x with
  | none => rfl
  | some p => simp [gap, h]

theorem native_false {bo : ByteOrder} (h : aligned bo = false) : bo.isNative = false := by cases bo <;> first | rfl | cases h

theorem default_false {bo : ByteOrder} (h : aligned bo = false) : bo ≠ .default := by rintro rfl; cases h

theorem put_mirror {W : ClassId → Val → Parsed Bytes} {o : PObj} (hb : aligned bo = false) (hb' : aligned bo' = false) :
    ∀ (f : Fmt) (v : Val), Mirror (f.put P bo W o v) (f.put P bo' W o v)
  | .int s w, v => by
    simp only [Fmt.put]
    split
    · split
      · exact intBytes_mirrored _ (size_cases w) _
      · rfl
    · rfl
  | .bool, v => by simp only [Fmt.put]; exact mirror_refl _
  | .half, v => by
    simp only [Fmt.put]
    split
    · split
      · exact intBytes_mirrored _ (by omega) _
      · rfl
    · rfl
  | .single, v => by
    simp only [Fmt.put, native_false hb, native_false hb']
    split
    · split
      · exact intBytes_mirrored _ (by omega) _
      · rfl
    · rfl
  | .double, v => by
    simp only [Fmt.put]
    split
    · exact intBytes_mirrored _ (by omega) _
    · rfl
  | .chars _, v | .pascal _, v | .until _, v | .rest, v | .net, v | .text .., v | .tup _, v | .obj _, v | .me, v | .choice .., v => by
    simp only [Fmt.put]; exact mirror_refl _
  | .via _ f _ _ _, v => by
    simp only [Fmt.put]
    exact put_mirror hb hb' f v
  | .counted w, v => by
    simp only [Fmt.put, if_pos (default_false hb), if_pos (default_false hb')]
    exact mirror_refl _
  | .fixed n item, v => by
    simp only [Fmt.put]
    split
    · rfl
    · split
      · rfl
      · refine mirror_bind (mirror_putAll (put_mirror hb hb' item) _) fun _ _ h => ?_
        split
        · exact h
        · rfl
  | .list w item, v => by
    simp only [Fmt.put]
    split
    · rfl
    · exact mirror_bind (mirror_putAll (put_mirror hb hb' item) _) fun _ _ h => mirror_prefixed h _ _
  | .sized w w2 item, v => by
    simp only [Fmt.put, gap_zero hb, gap_zero hb', List.replicate_zero, List.nil_append]
    split
    · rfl
    · refine mirror_bind (mirror_putAll (put_mirror hb hb' item) _) fun b b' h => ?_
      rw [← mirrored_length h]
      exact mirror_bind (mirror_prefixed h _ _) fun _ _ h => mirror_prefixed h _ _

theorem putFields_mirror {W : ClassId → Val → Parsed Bytes} {o : PObj} (hb : aligned bo = false) (hb' : aligned bo' = false) :
    ∀ (fs : List Field) (k k' : Nat) (vs : List Val), Mirror (putFields P bo W o k fs vs) (putFields P bo' W o k' fs vs)
  | [], k, k', vs => by simp only [putFields]; exact .nil
  | .value a f :: fs, k, k', v :: vs => by
    simp only [putFields, gap_zero hb, gap_zero hb', List.replicate_zero, List.nil_append]
    exact mirror_bind (put_mirror hb hb' f v) fun _ _ h1 => mirror_bind (putFields_mirror hb hb' fs _ _ vs) fun _ _ h2 => mirrored_append h1 h2
  | .value a f :: fs, k, k', [] => by simp only [putFields]; trivial
  | .pad a n :: fs, k, k', vs => by
    simp only [putFields]
    exact mirror_bind (putFields_mirror hb hb' fs _ _ vs) fun _ _ h2 => mirrored_append (mirrored_refl _) h2
  | .when a c f d :: fs, k, k', v :: vs => by
    simp only [putFields]
    split
    · rfl
    · split
      · rfl
      · split
        · exact mirror_bind (put_mirror hb hb' f v) fun _ _ h1 => mirror_bind (putFields_mirror hb hb' fs _ _ vs) fun _ _ h2 => mirrored_append h1 h2
        · exact putFields_mirror hb hb' fs _ _ vs
        · rfl
  | .when a c f d :: fs, k, k', [] => by simp only [putFields]; trivial

end Verif.Mirrors
