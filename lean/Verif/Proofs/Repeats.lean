import Verif.Proofs.ActionLemmas
import Verif.Spec.Struct
/-
Lemmas for `Props/Repeats.lean`: what `*` and `@` make, in a form that can be repeated again.
-/
namespace Verif.Repeats
open Verif Verif.Spec

/-- Last and first item of the format are not merged when it is repeated. -/
def NoMerge (t : List Tok) : Prop := lastCode t ≠ firstCode t ∨ (∃ c, lastCode t = some c ∧ c.isString = true)

theorem sameStruct {c d : StructSer} (hb : c.byteOrder = d.byteOrder) (h : ToksAgree c.toks d.toks)
    (ha : c.actions = d.actions) : SameStruct c d := by
  have hsz : ∀ nat, sizeToks nat c.toks = sizeToks nat d.toks := fun nat => h.off nat 0
  have hac : ∀ vs, c.applyActions vs = d.applyActions vs := by
    intro vs; simp only [StructSer.applyActions, ha]
  refine ⟨?_, ?_, ?_, ?_, ?_, ?_, ?_⟩
  · simp only [StructSer.size, hb, hsz]
  · simp only [StructSer.numValues, h.vals]
  · intro P vs
    simp only [StructSer.pack, structPack, hb, h.vals, h.pack]
  · intro P buf off vs
    simp only [StructSer.packInto, structPackInto, hb, h.vals, hsz, h.pack, h.pre]
  · intro P buf
    have e : c.size = d.size := by simp only [StructSer.size, hb, hsz]
    simp only [StructSer.unpack, e, structUnpack, hb, hsz, h.unpack, hac]
  · intro P buf off
    simp only [StructSer.unpackFrom, structUnpackFrom, hb, hsz, h.unpack, hac]
  · intro P data
    simp only [StructSer.unpackRead, structUnpack, hb, hsz, h.unpack, hac]

theorem rep_add (m n : Nat) (l : List α) : rep m l ++ rep n l = rep (m + n) l := by
  simp [rep, ← List.flatten_append, List.replicate_append_replicate]

theorem rep_rep (m n : Nat) (l : List α) : rep n (rep m l) = rep (m * n) l := by
  induction n with
  | zero => simp [rep]
  | succ n ih => rw [rep_succ', ih, rep_add, Nat.mul_succ]

theorem agree_rep {t u : List Tok} (h : ToksAgree t u) : ∀ n, ToksAgree (rep n t) (rep n u)
  | 0 => .refl _
  | n + 1 => by rw [rep_succ, rep_succ]; exact h.append (agree_rep h n)

theorem ne_nil {t : List Tok} (h : NoMerge t) : t ≠ [] := by
  rintro rfl
  rcases h with h | ⟨c, h, _⟩
  · exact h rfl
  · cases h

theorem last_rep {t : List Tok} (h : t ≠ []) (n : Nat) : lastCode (rep (n + 1) t) = lastCode t := by
  rw [rep_succ']; exact lastCode_agree_append h

theorem first_rep {t : List Tok} (h : t ≠ []) (n : Nat) : firstCode (rep (n + 1) t) = firstCode t := by
  obtain ⟨x, l, rfl⟩ := List.exists_cons_of_ne_nil h
  simp [rep_succ, firstCode]

theorem noMerge_rep {t : List Tok} (h : NoMerge t) (n : Nat) : NoMerge (rep (n + 1) t) := by
  have := ne_nil h
  unfold NoMerge
  rw [last_rep this, first_rep this]
  exact h

/-- The format that `*` computes, and that it is again one that can be repeated. -/
theorem mul_format {a : StructSer} (ha : a.Valid) (m : Nat) (hs : SingleItem a.baseFormat ∨ NoMerge a.toks) :
    ∃ f t, (List.replicate m a.baseFormat).foldl (foldOverlaps false) a.baseFormat = f ∧
      parse a.byteOrder.isNative f = some t ∧ ToksAgree t (rep (m + 1) a.toks) ∧
      ((¬ NoMerge a.toks ∧ SingleItem f) ∨ (NoMerge a.toks ∧ t = rep (m + 1) a.toks)) := by
  have h1 := StructSer.parse_base ha.fmt
  have hrep := parse_rep h1 (m + 1)
  by_cases hnm : NoMerge a.toks
  · exact ⟨_, _, fold_repeat_nomerge h1 hnm m, hrep, .refl _, .inr ⟨hnm, rfl⟩⟩
  · rcases hs with ⟨ds, ch, hf, hd, hch⟩ | hs
    · obtain ⟨c, hc⟩ := Option.isSome_iff_exists.1 hch
      have hbase := parse_item a.byteOrder.isNative ds hd ch c hc []
      rw [← hf, h1] at hbase
      split at hbase
      · cases hbase
      · rename_i hno
        simp only [parse, parseAux, Option.map_some, Option.some.injEq] at hbase
        have hstr : c.isString = false := by
          cases hh : c.isString with
          | false => rfl
          | true =>
            exfalso
            exact hnm (.inr ⟨c, by simp [lastCode, hbase], hh⟩)
        obtain ⟨f, hff, hsi, hfp⟩ := fold_repeat_single (cs := false) hd hc hno (.inr hstr) m
        refine ⟨f, _, by rw [hf]; exact hff, hfp, ?_, .inl ⟨hnm, hsi⟩⟩
        rw [hbase]
        exact ToksAgree.rep_single c hstr _ m
    · exact absurd hs hnm

theorem mul_shape {a : StructSer} (ha : a.Valid) (m : Nat) (hs : SingleItem a.baseFormat ∨ NoMerge a.toks) :
    ∃ c, a.mul ((m + 1 : Nat) : Int) = .ok (some c) ∧ c.Valid ∧ c.byteOrder = a.byteOrder ∧
      c.actions = a.actions.map (rep (m + 1)) ∧ ToksAgree c.toks (rep (m + 1) a.toks) ∧
      ((¬ NoMerge a.toks ∧ SingleItem c.baseFormat) ∨ (NoMerge a.toks ∧ c.toks = rep (m + 1) a.toks)) := by
  obtain ⟨f, t, hf, hp, hag, hsh⟩ := mul_format ha m hs
  have hmul : a.mul ((m + 1 : Nat) : Int)
      = .ok (some ⟨a.byteOrder.value ++ f, a.actions.map (rep (m + 1))⟩) := by
    by_cases hm : m = 0
    · subst hm
      simp only [List.replicate_zero, List.foldl_nil] at hf
      subst hf
      rw [← StructSer.format_eq]
      cases hact : a.actions <;> simp [StructSer.mul, StructSer.mulImpl, hact, bind, Except.bind, rep]
      rw [← hact]
    · have hpos : ¬ ((m + 1 : Nat) : Int) = 0 ∧ ¬ ((m + 1 : Nat) : Int) < 0 ∧
          ¬ ((m + 1 : Nat) : Int) = 1 := by omega
      have hto' : ((m + 1 : Nat) : Int).toNat = m + 1 := by omega
      cases hact : a.actions with
      | none =>
        simp only [StructSer.mul, StructSer.mulImpl, hpos, ↓reduceIte, StructSer.remake, hact, hf,
          StructSer.mkPlain_ok hp, bind, Except.bind, hto', Nat.add_sub_cancel]
        rfl
      | some as =>
        simp only [StructSer.mul, StructSer.mulImpl, hpos, ↓reduceIte, StructSer.remake, hact, hf,
          StructSer.mkActions_ok (as := []) hp (by simp), bind, Except.bind, hto', Nat.add_sub_cancel]
        rfl
  obtain ⟨f1, f2, f3, f4⟩ := StructSer.of_parse (a := a.actions.map (rep (m + 1))) hp
  refine ⟨_, hmul, ⟨f1, ?_⟩, f2, rfl, by rw [f4]; exact hag, by rw [f3, f4]; exact hsh⟩
  intro as' has
  obtain ⟨as, h1, rfl⟩ := Option.map_eq_some_iff.1 has
  simp only [StructSer.numValues, f4]
  rw [hag.vals, numVals_rep]
  have := ha.acts as h1
  simp only [StructSer.numValues] at this
  simp [rep, this]

theorem add_shape {a b : StructSer} (ha : a.Valid) (hb : b.Valid) (hbo : a.byteOrder = b.byteOrder)
    (hk : a.actions.isSome = b.actions.isSome) (hs : Seam b.baseFormat a.toks b.toks) :
    ∃ c, a.add b = .ok c ∧ c.byteOrder = a.byteOrder ∧ ToksAgree c.toks (a.toks ++ b.toks) ∧
      c.actions = a.actions.bind fun x => b.actions.map (x ++ ·) := by
  have h1 := StructSer.parse_base ha.fmt
  have h2 := StructSer.parse_base hb.fmt
  rw [← hbo] at h2
  obtain ⟨t, ht, hagree⟩ := foldOverlaps_agree h1 h2 hs
  have hnum : numVals t = a.numValues + b.numValues := by
    rw [hagree.vals, numVals_append]; rfl
  obtain ⟨_, f2, _, f4⟩ := StructSer.of_parse (a := a.actions.bind fun x => b.actions.map (x ++ ·)) ht
  refine ⟨⟨a.byteOrder.value ++ foldOverlaps false a.baseFormat b.baseFormat,
    a.actions.bind fun x => b.actions.map (x ++ ·)⟩, ?_, f2, by rw [f4]; exact hagree, rfl⟩
  unfold StructSer.add
  cases haa : a.actions with
  | none =>
    cases hba : b.actions with
    | none => dsimp only; rw [if_pos hbo, StructSer.mkPlain_ok ht]; rfl
    | some bs => simp [haa, hba] at hk
  | some as =>
    cases hba : b.actions with
    | none => simp [haa, hba] at hk
    | some bs =>
      have hal := ha.acts as haa
      have hbl := hb.acts bs hba
      dsimp only
      rw [StructSer.mkActions_ok ht (by simp [hal, hbl, hnum])]
      simp [hal, hbl, hnum]

/-- `[k]c @ n` is the single item `(n*k)c`, for a plain serializer. -/
theorem matmul_shape {a : StructSer} (n : Nat) (ha : a.Valid) (hpa : a.actions = none)
    (hs : SingleItem a.baseFormat) : ∃ k c, a.toks = [⟨k, c⟩] ∧ ∃ s, a.matmul ((n + 1 : Nat) : Int) = .ok (some s) ∧ s.Valid ∧
      s.actions = none ∧ SingleItem s.baseFormat ∧ s.toks = [⟨(n + 1) * k, c⟩] ∧ s.byteOrder = a.byteOrder := by
  have h1 := StructSer.parse_base ha.fmt
  obtain ⟨ds, ch, hf, hd, hch⟩ := id hs
  obtain ⟨c, hc⟩ := Option.isSome_iff_exists.1 hch
  have hbase := parse_item a.byteOrder.isNative ds hd ch c hc []
  rw [← hf, h1] at hbase
  split at hbase
  · cases hbase
  · rename_i hno
    simp only [parse, parseAux, Option.map_some, Option.some.injEq] at hbase
    refine ⟨_, _, hbase, ?_⟩
    by_cases hm : n = 0
    · subst hm
      exact ⟨a, by simp [StructSer.matmul, StructSer.mulImpl], ha, hpa, hs, by simp [hbase], rfl⟩
    · have hpos : ¬ ((n + 1 : Nat) : Int) = 0 ∧ ¬ ((n + 1 : Nat) : Int) < 0 ∧ ¬ ((n + 1 : Nat) : Int) = 1 := by
        omega
      have hto : ((n + 1 : Nat) : Int).toNat - 1 = n := by omega
      obtain ⟨f, hff, hsi, hfp⟩ := fold_repeat_single (cs := true) hd hc hno (.inl rfl) n
      obtain ⟨f1, f2, f3, f4⟩ := StructSer.of_parse (a := none) hfp
      refine ⟨⟨a.byteOrder.value ++ f, none⟩, ?_, ⟨f1, by simp⟩, rfl, by rw [f3]; exact hsi, f4, f2⟩
      simp only [StructSer.matmul, StructSer.mulImpl, hpos, ↓reduceIte, hto, StructSer.remake, hpa,
        hf, hff, StructSer.mkPlain_ok hfp, bind, Except.bind]

end Verif.Repeats
