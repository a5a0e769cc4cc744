import Verif.Spec.Read
import Verif.Proofs.Enough
import Verif.Proofs.RefineUnpack
/-
Reading the same bytes from different sources: leaves.
-/
namespace Verif
open Sem

variable {env : Env}

theorem noEmptyList_append {a b : List Val} : Val.noEmptyList (a ++ b) = (Val.noEmptyList a && Val.noEmptyList b) := by
  induction a with
  | nil => simp [Val.noEmptyList]
  | cons v a ih => simp [Val.noEmptyList, ih, Bool.and_assoc]

theorem noEmptyAttrs_zip {vs : List Val} : ∀ {names : List Name}, vs.length = names.length →
    Val.noEmptyAttrs (names.zip vs) = Val.noEmptyList vs := by
  induction vs with
  | nil => intro names h; cases names <;> simp_all [Val.noEmptyAttrs, Val.noEmptyList]
  | cons v vs ih =>
    intro names h
    cases names with
    | nil => simp at h
    | cons a as => simp only [List.zip_cons_cons, Val.noEmptyAttrs, Val.noEmptyList]; rw [ih (by simpa using h)]

theorem Views.next {src : PSrc} {b rest : Bytes} {k : Nat} (h : Views src (b ++ rest)) (hk : k ≤ b.length) :
    Views (src.next k (src.ahead k)) (b.drop k ++ rest) := by
  have hd : (b ++ rest).drop k = b.drop k ++ rest := List.drop_append_of_le_length hk
  cases src with
  | buf x => cases h; exact hd
  | «at» x off =>
    obtain ⟨h1, h2⟩ := h
    have hl : x.length - off = b.length + rest.length := by
      rw [← List.length_drop, h2, List.length_append]
    refine ⟨by omega, ?_⟩
    rw [← List.drop_drop, h2, hd]
  | io data pos =>
    show data.drop (pos + k) = _
    rw [← List.drop_drop, show data.drop pos = b ++ rest from h, hd]

theorem ahead_next {src : PSrc} {k j : Nat} : (src.next k (src.ahead k)).ahead j = src.ahead (k + j) := by
  cases src <;> simp [PSrc.next, PSrc.ahead]; omega

theorem isBuf_next {src : PSrc} {k p : Nat} : (src.next k p).isBuf = src.isBuf := by cases src <;> rfl
theorem isAt_next {src : PSrc} {k p : Nat} : (src.next k p).isAt = src.isAt := by cases src <;> rfl

theorem ahead_zero {src : PSrc} : src.ahead 0 = src.pos := by cases src <;> rfl

theorem next_zero {src : PSrc} : src.next 0 src.pos = src := by cases src <;> simp [PSrc.next, PSrc.pos]

/-! ### Structs -/

theorem structUnpack_take {P : Platform} {s : StructSer} {b : Bytes} {vs : List Val}
    (h : s.unpack P b = .ok vs) : s.size ≤ b.length ∧
      s.applyActions (unpackToks P s.byteOrder s.toks 0 (b.take s.size)) = .ok vs := by
  obtain ⟨ws, h1, h2⟩ := Except.bind_ok' h
  unfold structUnpack at h1
  split at h1
  · rename_i hl
    cases h1
    refine ⟨?_, h2⟩
    have : s.size = sizeToks s.byteOrder.isNative s.toks := rfl
    rw [List.length_take] at hl
    omega
  · cases h1

/-- Whatever the source, a struct reads the bytes in front of it. -/
theorem structDec_views {s : StructSer} {src : PSrc} {b : Bytes} (hv : Views src b) (hl : s.size ≤ b.length) :
    structDec env s src = (s.applyActions (unpackToks env.plat s.byteOrder s.toks 0 (b.take s.size))).map
      (fun vs => (vs, src.ahead s.size)) := by
  have hsz : s.size = sizeToks s.byteOrder.isNative s.toks := rfl
  cases src with
  | buf x =>
    cases hv
    have : s.unpack env.plat b = s.applyActions (unpackToks env.plat s.byteOrder s.toks 0 (b.take s.size)) := by
      simp only [StructSer.unpack, structUnpack]
      rw [if_pos (by rw [List.length_take]; omega)]; rfl
    simp only [structDec, this]
    cases s.applyActions _ <;> rfl
  | «at» x off =>
    obtain ⟨h1, rfl⟩ := hv
    rw [List.length_drop] at hl
    have : s.unpackFrom env.plat x off
        = s.applyActions (unpackToks env.plat s.byteOrder s.toks 0 ((x.drop off).take s.size)) := by
      simp only [StructSer.unpackFrom, structUnpackFrom]
      rw [if_pos ⟨h1, by omega⟩]; rfl
    simp only [structDec, this]
    cases s.applyActions _ <;> rfl
  | io data pos =>
    have hv' : data.drop pos = b := hv
    have : s.unpackRead env.plat (b.take s.size)
        = s.applyActions (unpackToks env.plat s.byteOrder s.toks 0 (b.take s.size)) := by
      simp only [StructSer.unpackRead, structUnpack]
      rw [if_pos (by rw [List.length_take]; omega)]; rfl
    simp only [structDec, hv', this]
    have hl' : (b.take s.size).length = s.size := by rw [List.length_take]; omega
    rw [hl']
    cases s.applyActions _ <;> rfl

theorem structDec_buf {s : StructSer} {b : Bytes} {r : List Val × Nat} (h : structDec env s (.buf b) = .ok r) :
    s.size ≤ b.length ∧ r.2 = 0 ∧
      s.applyActions (unpackToks env.plat s.byteOrder s.toks 0 (b.take s.size)) = .ok r.1 := by
  obtain ⟨vs, h1, h2⟩ := Except.bind_ok' h
  cases h2
  exact ⟨(structUnpack_take h1).1, rfl, (structUnpack_take h1).2⟩

theorem structDec_ext {s : StructSer} {src : PSrc} {b rest : Bytes} {r : List Val × Nat}
    (h : structDec env s (.buf b) = .ok r) (hv : Views src (b ++ rest)) :
    structDec env s src = .ok (r.1, src.ahead s.size) := by
  obtain ⟨h1, _, h3⟩ := structDec_buf h
  rw [structDec_views hv (by simp; omega), List.take_append_of_le_length h1, h3]
  rfl

theorem structDecOpt_ext {s : Option StructSer} {src : PSrc} {b rest : Bytes} {r : List Val × Nat}
    (h : structDecOpt env s (.buf b) = .ok r) (hv : Views src (b ++ rest)) :
    structDecOpt env s src = .ok (r.1, src.ahead (s.elim 0 StructSer.size)) ∧ s.elim 0 StructSer.size ≤ b.length := by
  cases s with
  | none => cases h; exact ⟨by simp [structDecOpt, ahead_zero], by simp⟩
  | some s => exact ⟨structDec_ext h hv, (structDec_buf h).1⟩

/-! ### Terminated strings -/

theorem findTerm_append {t : Byte} {a b : Bytes} {k : Nat} (h : findTerm t a = some k) : findTerm t (a ++ b) = some k := by
  induction a generalizing k with
  | nil => cases h
  | cons x a ih =>
    simp only [findTerm, List.cons_append] at h ⊢
    split
    · rename_i e; rw [if_pos e] at h; exact h
    · rename_i e
      rw [if_neg e] at h
      cases hf : findTerm t a with
      | none => rw [hf] at h; cases h
      | some j => rw [hf] at h; rw [ih hf]; exact h

theorem findTerm_none_append {t : Byte} {a b : Bytes} (h : findTerm t a = none) :
    findTerm t (a ++ b) = (findTerm t b).map (· + a.length) := by
  induction a with
  | nil => simp
  | cons x a ih =>
    simp only [findTerm, List.cons_append] at h ⊢
    split at h
    · cases h
    · rename_i e
      rw [if_neg e, ih (by simpa using h)]
      cases findTerm t b <;> simp; omega

theorem findTerm_lt {t : Byte} {a : Bytes} {k : Nat} (h : findTerm t a = some k) : k < a.length := by
  induction a generalizing k with
  | nil => cases h
  | cons x a ih =>
    simp only [findTerm] at h
    split at h
    · cases h; simp
    · cases hf : findTerm t a with
      | none => rw [hf] at h; cases h
      | some j =>
        rw [hf] at h; cases h
        have := ih hf
        simp; omega

/-- Reading in chunks of 256 bytes finds the same string as scanning. -/
theorem termReadLoop_eq (t : Byte) : ∀ n (rest out : Bytes) (size : Nat), rest.length < n →
    termReadLoop t n rest out size = (findTerm t rest).map fun j => (out ++ rest.take j, size + (j + 1)) := by
  intro n
  induction n with
  | zero => intro rest out size h; omega
  | succ n ih =>
    intro rest out size h
    simp only [termReadLoop]
    split
    · rename_i e
      have : rest = [] := by cases rest with
        | nil => rfl
        | cons => simp at e
      subst this; rfl
    · rename_i e
      have hne : rest ≠ [] := by rintro rfl; simp at e
      have hpos : 0 < rest.length := List.length_pos_iff.2 hne
      have hsplit : rest.take 256 ++ rest.drop 256 = rest := List.take_append_drop _ _
      cases hf : findTerm t (rest.take 256) with
      | none =>
        simp only
        rw [ih _ _ _ (by rw [List.length_drop]; omega)]
        have h2 := findTerm_none_append (b := rest.drop 256) hf
        rw [hsplit] at h2
        rw [h2]
        by_cases hl : 256 ≤ rest.length
        · have h3 : (rest.take 256).length = 256 := by rw [List.length_take]; omega
          rw [h3]
          cases findTerm t (rest.drop 256) with
          | none => rfl
          | some j =>
            simp only [Option.map_some, Option.some.injEq, Prod.mk.injEq, List.append_assoc]
            refine ⟨?_, by omega⟩
            rw [List.append_cancel_left_eq]
            conv => rhs; rw [← hsplit, List.take_append]
            rw [h3, List.take_of_length_le (l := rest.take 256) (by omega)]
            simp
        · have h3 : rest.drop 256 = [] := List.drop_of_length_le (by omega)
          rw [h3]; rfl
      | some o =>
        have h2 := findTerm_append (b := rest.drop 256) hf
        rw [hsplit] at h2
        rw [h2]
        have := findTerm_lt hf
        rw [List.length_take] at this
        simp only [Option.map_some, List.take_take]
        rw [Nat.min_eq_left (by omega)]

end Verif
