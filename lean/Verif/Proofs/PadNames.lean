import Verif.Proofs.PadLemmas
/-
The names of pads.
-/
namespace Verif
open Spec Sem Samples

variable {ctx : HintCtx} {n : Nat} {id : SerId} {w : World} {d : ClassDecl} {o ob : ClassObj}

/-! ### Names -/

theorem padName_toList (k : Nat) : (padName k).toList = Nat.toDigits 10 k ++ "_pad_".toList := by
  show (Nat.repr k ++ "_pad_").toList = _
  rw [String.toList_append, Nat.toList_repr]

theorem padName_inj {j k : Nat} (h : padName j = padName k) : j = k := by
  have := congrArg String.toList h
  rw [padName_toList, padName_toList, List.append_cancel_right_eq] at this
  rw [← countVal_toDigits j, this, countVal_toDigits]

/-- The name of a pad cannot be written in Python. -/
theorem padName_not_identifier (k : Nat) : ¬ IsIdentifier (padName k) := by
  intro h
  cases hd : Nat.toDigits 10 k with
  | nil => exact Nat.toDigits_ne_nil hd
  | cons c cs =>
    have h1 := h c (cs ++ "_pad_".toList) (by rw [padName_toList, hd]; rfl)
    have h2 := toDigits_isDigit k c (by rw [hd]; simp)
    rw [h1] at h2
    cases h2

theorem metaDict_named {k : Nat} {as bs : List (Name × Hint)} (hn : PadsNamed k as bs) : ∀ {dd body : Dict Hint},
    metaDict ctx n id k dd as = .ok body → body = dd.update bs := by
  induction hn with
  | nil k => intro dd body h; cases h; rfl
  | @pad k j h as bs hp _ ih =>
    intro dd body hb
    rw [metaDict, if_pos rfl] at hb
    obtain ⟨st, h1, _, _, _, _, _, h7⟩ := padHint_transform (ctx := ctx) hp
    cases n with
    | zero => cases hb
    | succ n =>
      have : ispad ctx (n + 1) id h = .ok true := by
        unfold ispad
        rw [h1]
        show Except.ok (Ser.struct st).isPad = _
        rw [h7]
      rw [this] at hb
      exact ih hb
  | @other k a h as bs ha _ ih =>
    intro dd body hb
    rw [metaDict, if_neg ha] at hb
    exact ih hb

theorem padsNamed_at {k : Nat} {as bs : List (Name × Hint)} (hn : PadsNamed k as bs) : ∀ (i : Nat) (h : Hint), as[i]? = some ("_", h) →
    ∃ j c, k ≤ j ∧ bs[i]? = some (padName j, h) ∧ PadHint c h := by
  induction hn with
  | nil k => intro i h hi; simp at hi
  | @pad k j h as bs hp _ ih =>
    intro i h' hi
    cases i with
    | zero => simp only [List.getElem?_cons_zero, Option.some.injEq, Prod.mk.injEq, true_and] at hi; subst hi; exact ⟨k, j, Nat.le_refl _, rfl, hp⟩
    | succ i =>
      obtain ⟨j', c, h1, h2, h3⟩ := ih i h' (by simpa using hi)
      exact ⟨j', c, by omega, by simpa using h2, h3⟩
  | @other k a h as bs ha _ ih =>
    intro i h' hi
    cases i with
    | zero => simp only [List.getElem?_cons_zero, Option.some.injEq, Prod.mk.injEq] at hi; exact absurd hi.1 ha
    | succ i =>
      obtain ⟨j', c, h1, h2, h3⟩ := ih i h' (by simpa using hi)
      exact ⟨j', c, h1, by simpa using h2, h3⟩

/-- Every name is one that was written, or the next number. -/
theorem padsNamed_names {k : Nat} {as bs : List (Name × Hint)} (hn : PadsNamed k as bs) (hid : ∀ a ∈ as, IsIdentifier a.1) :
    (∀ b ∈ bs, ∀ j, b.1 = padName j → k ≤ j) ∧
    (∀ (i i' j : Nat) (h h' : Hint), bs[i]? = some (padName j, h) → bs[i']? = some (padName j, h') → i = i') := by
  induction hn with
  | nil k => simp
  | @pad k j h as bs hp _ ih =>
    obtain ⟨i1, i2⟩ := ih (fun a ha => hid a (by simp [ha]))
    have hno : ∀ (i : Nat) (h' : Hint), bs[i]? ≠ some (padName k, h') := by
      intro i h' e
      have := i1 _ (List.mem_of_getElem? e) k rfl
      omega
    refine ⟨?_, ?_⟩
    · intro b hb j' e
      rcases List.mem_cons.1 hb with rfl | hb
      · have := padName_inj e; omega
      · have := i1 b hb j' e; omega
    · intro i i' j' h1 h2 e1 e2
      cases i with
      | zero =>
        cases i' with
        | zero => rfl
        | succ i' =>
          simp only [List.getElem?_cons_zero, Option.some.injEq, Prod.mk.injEq, List.getElem?_cons_succ] at e1 e2
          have := padName_inj e1.1
          subst this
          exact absurd e2 (hno _ _)
      | succ i =>
        cases i' with
        | zero =>
          simp only [List.getElem?_cons_zero, Option.some.injEq, Prod.mk.injEq, List.getElem?_cons_succ] at e1 e2
          have := padName_inj e2.1
          subst this
          exact absurd e1 (hno _ _)
        | succ i' =>
          simp only [List.getElem?_cons_succ] at e1 e2
          rw [i2 i i' j' h1 h2 e1 e2]
  | @other k a h as bs ha _ ih =>
    obtain ⟨i1, i2⟩ := ih (fun a ha => hid a (by simp [ha]))
    have hne : ∀ j, a ≠ padName j := by
      intro j e
      exact padName_not_identifier j (e ▸ hid (a, h) (by simp))
    refine ⟨?_, ?_⟩
    · intro b hb j' e
      rcases List.mem_cons.1 hb with rfl | hb
      · exact absurd e (hne j')
      · exact i1 b hb j' e
    · intro i i' j' h1 h2 e1 e2
      cases i with
      | zero =>
        simp only [List.getElem?_cons_zero, Option.some.injEq, Prod.mk.injEq] at e1
        exact absurd e1.1 (hne _)
      | succ i =>
        cases i' with
        | zero =>
          simp only [List.getElem?_cons_zero, Option.some.injEq, Prod.mk.injEq] at e2
          exact absurd e2.1 (hne _)
        | succ i' =>
          simp only [List.getElem?_cons_succ] at e1 e2
          rw [i2 i i' j' h1 h2 e1 e2]

theorem lastFold_not {bs : List (Name × Hint)} {a : Name} (h : a ∉ bs.map (·.1)) (z : Hint) :
    bs.foldl (fun h (d : Name × Hint) => if d.1 = a then d.2 else h) z = z := by
  induction bs generalizing z with
  | nil => rfl
  | cons b bs ih =>
    simp only [List.map_cons, List.mem_cons, not_or] at h
    rw [List.foldl_cons, if_neg (fun e => h.1 e.symm)]
    exact ih h.2 z

theorem lastDecl_cons_not {b : Name × Hint} {bs : List (Name × Hint)} {a : Name} (h : b.1 ≠ a) : lastDecl (b :: bs) a = lastDecl bs a := by
  unfold lastDecl
  rw [List.foldl_cons, if_neg h]

theorem lastDecl_cons_mem {b : Name × Hint} {bs : List (Name × Hint)} {a : Name} (h : a ∈ bs.map (·.1)) : lastDecl (b :: bs) a = lastDecl bs a := by
  have := lastDecl_append [b] bs a
  rw [if_pos h] at this
  exact this

theorem lastDecl_cons_last {b : Name × Hint} {bs : List (Name × Hint)} (h : b.1 ∉ bs.map (·.1)) : lastDecl (b :: bs) b.1 = b.2 := by
  unfold lastDecl
  rw [List.foldl_cons, if_pos rfl, lastFold_not h]

/-- A name that is declared once. -/
theorem lastDecl_once {a : Name} {h : Hint} : ∀ {bs : List (Name × Hint)} {i : Nat}, bs[i]? = some (a, h) →
    (∀ i' h', bs[i']? = some (a, h') → i' = i) → lastDecl bs a = h := by
  intro bs
  induction bs with
  | nil => intro i hi; simp at hi
  | cons b bs ih =>
    intro i hi hu
    cases i with
    | zero =>
      simp only [List.getElem?_cons_zero, Option.some.injEq] at hi
      subst hi
      refine lastDecl_cons_last (b := (a, h)) ?_
      intro hm
      obtain ⟨⟨a', h'⟩, hx, rfl⟩ := List.mem_map.1 hm
      obtain ⟨k, hk⟩ := List.mem_iff_getElem?.1 hx
      have := hu (k + 1) h' (by simpa using hk)
      omega
    | succ i =>
      simp only [List.getElem?_cons_succ] at hi
      rw [lastDecl_cons_mem (List.mem_map.2 ⟨_, List.mem_of_getElem? hi, rfl⟩)]
      refine ih hi ?_
      intro i' h' e
      have := hu (i' + 1) h' (by simpa using e)
      omega

theorem get_update_last (bs : Dict Hint) (a : Name) : ∀ dd : Dict Hint,
    (Dict.update dd bs).get a = if a ∈ List.map (·.1) bs then some (lastDecl bs a) else dd.get a := by
  induction bs with
  | nil => intro dd; rfl
  | cons b bs ih =>
    intro dd
    show (Dict.update (dd.set b.1 b.2) bs).get a = _
    rw [ih, get_set]
    by_cases hm : a ∈ List.map (·.1) bs
    · rw [if_pos hm, if_pos (by simp [hm]), lastDecl_cons_mem hm]
    · rw [if_neg hm]
      by_cases hb : b.1 = a
      · subst hb
        rw [if_pos rfl, if_pos (by simp), lastDecl_cons_last hm]
      · rw [if_neg hb, if_neg (by simp only [List.map_cons, List.mem_cons, not_or]; exact ⟨fun e => hb e.symm, hm⟩)]

theorem lastDecl_nodup {dd : Dict Hint} {a : Name} {h : Hint} (hd : (Dict.keys dd).Nodup) (hg : dd.get a = some h) :
    lastDecl dd a = h ∧ a ∈ List.map (·.1) dd := by
  induction dd with
  | nil => cases hg
  | cons b bs ih =>
    simp only [Dict.keys, List.map_cons, List.nodup_cons] at hd
    by_cases hb : b.1 = a
    · subst hb
      have : Dict.get (b :: bs) b.1 = some b.2 := by simp [Dict.get]
      rw [this] at hg
      cases hg
      exact ⟨lastDecl_cons_last hd.1, by simp⟩
    · have : Dict.get (b :: bs) a = Dict.get bs a := by simp [Dict.get, hb]
      rw [this] at hg
      obtain ⟨h1, h2⟩ := ih hd.2 hg
      exact ⟨by rw [lastDecl_cons_not hb, h1], by simp [h2]⟩

theorem nodup_update {dd bs : Dict Hint} (h : (Dict.keys dd).Nodup) : (Dict.keys (dd.update bs)).Nodup := by
  rw [keys_update]
  exact nodup_foldl h _

theorem mem_update (dd bs : Dict Hint) (a : Name) : a ∈ (Dict.update dd bs).map (·.1) ↔ a ∈ List.map (·.1) dd ∨ a ∈ List.map (·.1) bs := by
  have := keys_update dd bs
  unfold Dict.keys at this
  rw [this, mem_foldl]

/-! ### Generic bases -/

theorem ownSpecHints_keys {own : Dict Hint} {m : TMap} : ∀ {hs : Dict Hint} {r : Dict Hint}, ownSpecHints ctx n id own m hs = .ok r →
    ∀ a ∈ List.map (·.1) r, a ∈ List.map (·.1) own
  | [], r, h => by cases h; simp
  | (name, hh) :: rest, r, h => by
    rw [ownSpecHints] at h
    split at h
    · rename_i hm
      have hname : name ∈ List.map (·.1) own := by
        simp only [Dict.mem, List.any_eq_true, beq_iff_eq] at hm
        obtain ⟨x, hx, rfl⟩ := hm
        exact List.mem_map.2 ⟨x, hx, rfl⟩
      obtain ⟨u, _, h⟩ := Except.bind_ok' h
      split at h
      · obtain ⟨ds, h1, h⟩ := Except.bind_ok' h
        split at h <;> cases h
        · intro a ha
          rcases List.mem_cons.1 ha with rfl | ha
          · exact hname
          · exact ownSpecHints_keys h1 a ha
        · exact ownSpecHints_keys h1
      · obtain ⟨v, _, h⟩ := Except.bind_ok' h
        obtain ⟨ds, h1, h⟩ := Except.bind_ok' h
        cases h
        intro a ha
        rcases List.mem_cons.1 ha with rfl | ha
        · exact hname
        · exact ownSpecHints_keys h1 a ha
      · obtain ⟨v, _, h⟩ := Except.bind_ok' h
        obtain ⟨ds, h1, h⟩ := Except.bind_ok' h
        cases h
        intro a ha
        rcases List.mem_cons.1 ha with rfl | ha
        · exact hname
        · exact ownSpecHints_keys h1 a ha
      · exact ownSpecHints_keys h
    · exact ownSpecHints_keys h

theorem superHints_keys {f : ClassId → List Hint → Except Err (Dict Hint)} {P : Name → Prop}
    (hf : ∀ c args r, f c args = .ok r → ∀ a ∈ List.map (·.1) r, P a) {m : TMap} : ∀ {cs : List (ClassId × List Hint)} {r : Dict Hint},
    superHints f m cs = .ok r → ∀ a ∈ List.map (·.1) r, P a
  | [], r, h => by cases h; simp
  | (c, args) :: rest, r, h => by
    rw [superHints] at h
    obtain ⟨x, h1, h⟩ := Except.bind_ok' h
    obtain ⟨e, h2, h⟩ := Except.bind_ok' h
    cases h
    intro a ha
    rcases (mem_update _ _ _).1 ha with h | h
    · exact superHints_keys hf h2 a h
    · exact hf _ _ _ h1 a h

/-- The names for which specializing a generic base gives hints are declared by classes. -/
theorem specHints_keys {w : World} : ∀ {k : Nat} {c : ClassId} {args : List Hint} {r : Dict Hint}, specHints ctx n id w k c args = .ok r →
    ∀ a ∈ List.map (·.1) r, ∃ c o, w c = some o ∧ a ∈ List.map (·.1) o.anns := by
  intro k
  induction k with
  | zero => intro c args r h; cases h
  | succ k ih =>
    intro c args r h
    rw [specHints] at h
    split at h
    · cases h
    · rename_i o ho
      simp only at h
      split at h
      · cases h
      · obtain ⟨own, h1, h⟩ := Except.bind_ok' h
        obtain ⟨sup, h2, h⟩ := Except.bind_ok' h
        cases h
        intro a ha
        rcases (mem_update _ _ _).1 ha with h | h
        · exact superHints_keys (P := fun a => ∃ c o, w c = some o ∧ a ∈ List.map (·.1) o.anns) (fun c args r hr => ih hr) h2 a h
        · exact ⟨c, o, ho, ownSpecHints_keys h1 a h⟩

end Verif
