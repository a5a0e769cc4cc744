import Verif.Proofs.PutValues
/-
Lemmas on what packing comes to: classes.
-/
namespace Verif
open Spec Sem

variable {bo : ByteOrder} {cf : ClassId → Bool} {env : Env} {W : ClassId → Val → Parsed Bytes} {ctx : HintCtx} {M : Nat}

theorem condPick_none {r : Val} {y : Ser} {ds : List Val} (hh : r.hashable = true) (h : verdict r = none) : condPick y ds r = .error .keyError := by
  unfold verdict at h
  unfold condPick
  rw [if_pos hh] at h
  split at h
  · cases h
  · rename_i ht
    split at h
    · cases h
    · rename_i hf
      simp [hh, ht, hf]

/-- The fields of a class come to what the documentation says. -/
theorem fields_puts (hW : ObjPuts env W) (p : PObj) : ∀ {fs : List Field} {ss : List Ser} {k : Nat} {vs : List Val},
    Field.IsL cf bo fs ss → (∀ f ∈ fs, f.sound = true) → vs.length = (fs.filter (!·.isPad)).length →
    vs.length = (ss.map Ser.numValues).sum ∧ GO env p k ss vs (putFields env.plat bo W p k fs vs)
  | [], _, k, vs, h, _, hl => by
    cases h
    cases vs with
    | nil => exact ⟨rfl, 0, fun n _ => rfl⟩
    | cons => cases hl
  | f :: fs, _, k, vs, h, hg, hl => by
    obtain ⟨x, xs, rfl, h1, h2⟩ := h
    have hg' : ∀ f ∈ fs, f.sound = true := fun g h => hg g (by simp [h])
    have hgf := hg f (by simp)
    cases f with
    | value a f =>
      have hw := is_puts hW f bo x hgf h1
      cases vs with
      | nil => cases hl
      | cons v vs =>
        obtain ⟨hl, hgo⟩ := fields_puts hW p (k := after bo k f.basic) h2 hg' (by simpa [Field.isPad] using hl)
        exact ⟨by simp [hl, hw.one]; omega, value_put h1 hw hgo⟩
    | pad a m =>
      obtain ⟨st, rfl, hb⟩ := h1
      obtain ⟨hp, hn0⟩ := pad_pack hb env.plat
      obtain ⟨hl, hgo⟩ := fields_puts hW p (k := k + m) (vs := vs) h2 hg' (by simpa [Field.isPad] using hl)
      refine ⟨by simp [hl, Ser.numValues, hn0], ?_⟩
      have hpk : st.packAt env.plat k (vs.take st.numValues) = .ok (List.replicate m 0) := by rw [hn0]; exact pad_packAt k hb hp
      simp only [putFields]
      cases hr : putFields env.plat bo W p (k + m) fs vs with
      | ok b =>
        rw [hr] at hgo
        obtain ⟨K, hK⟩ := hgo
        refine ⟨K, fun n hn => ⟨_, b, hpk, ?_, rfl⟩⟩
        rw [hn0, List.length_replicate]; exact hK n hn
      | err e =>
        rw [hr] at hgo
        obtain ⟨K, hK⟩ := hgo
        refine ⟨K, fun n hn => .inr ⟨_, hpk, ?_⟩⟩
        rw [hn0, List.length_replicate]; exact hK n hn
      | deep => trivial
      | odd => trivial
    | «when» a c f d =>
      obtain ⟨y, rfl, h1⟩ := h1
      simp only [Field.sound, Field.good, Bool.and_eq_true] at hgf
      have hw := is_puts hW f bo y hgf.1 h1
      have he := hw.same (plain_overrides hgf.2 h1) p
      have n1 : (Ser.cond y c [d]).numValues = 1 := hw.one
      cases vs with
      | nil => cases hl
      | cons v vs =>
        obtain ⟨hl, hgo⟩ := fields_puts hW p (k := 0) h2 hg' (by simpa [Field.isPad] using hl)
        refine ⟨by simp [hl, n1]; omega, ?_⟩
        have hns : ∀ st, Ser.cond y c [d] ≠ .struct st := by nofun
        have htk : (v :: vs).take (Ser.cond y c [d]).numValues = [v] := by rw [n1]; rfl
        have hdr : (v :: vs).drop (Ser.cond y c [d]).numValues = vs := by rw [n1]; rfl
        simp only [putFields]
        cases hc : c p with
        | error e =>
          refine ⟨0, fun n _ => (ge_part hns).2 (.inl (.inl ?_))⟩
          simp only [pre, hc, bind, Except.bind]
        | ok r =>
          simp only
          by_cases hh : r.hashable = true
          · simp only [hh, not_true_eq_false, if_false]
            cases hv : verdict r with
            | none =>
              refine ⟨0, fun n _ => (ge_part hns).2 (.inl (.inl ?_))⟩
              simp only [pre, hc, bind, Except.bind, condPick_none hh hv]
            | some t =>
              cases t with
              | true =>
                have hq : pre (.cond y c [d]) p = .ok (y, none) := by simp only [pre, hc, bind, Except.bind, verdict_true hv]
                obtain ⟨K1, hK1⟩ := he.enc v
                have hK1 : ∀ n ≥ K1, Comes (enc env n y none [v]) (f.put env.plat bo W p v) := hK1
                simp only
                cases hr : f.put env.plat bo W p v with
                | deep => trivial
                | odd => trivial
                | err e =>
                  rw [hr] at hK1
                  refine ⟨K1, fun n hn => (ge_part hns).2 (.inl (.inr ⟨y, none, hq, by rw [he.one, n1], ?_⟩))⟩
                  rw [htk]; exact hK1 n hn
                | ok b1 =>
                  rw [hr] at hK1
                  have hp1 : ∀ n ≥ K1, GivesPart env n p (.cond y c [d]) (v :: vs) b1 := fun n hn =>
                    ⟨y, none, hq, he.sized, by rw [he.one, n1], by rw [htk]; exact hK1 n hn⟩
                  cases hr2 : putFields env.plat bo W p 0 fs vs with
                  | deep => trivial
                  | odd => trivial
                  | err e =>
                    rw [hr2] at hgo
                    obtain ⟨K2, hK2⟩ := hgo
                    refine ⟨max K1 K2, fun n hn => (ge_part hns).2 (.inr ⟨b1, hp1 n (by omega), ?_⟩)⟩
                    rw [hdr]; exact hK2 n (by omega)
                  | ok b2 =>
                    rw [hr2] at hgo
                    obtain ⟨K2, hK2⟩ := hgo
                    refine ⟨max K1 K2, fun n hn => GL.part k hns (hp1 n (by omega)) ?_⟩
                    rw [hdr]; exact hK2 n (by omega)
              | false =>
                have hq : pre (.cond y c [d]) p = .ok (.skip [d], none) := by simp only [pre, hc, bind, Except.bind, verdict_false hv]
                have hp1 : ∀ n ≥ 1, GivesPart env n p (.cond y c [d]) (v :: vs) [] := fun n hn => by
                  obtain ⟨m, rfl⟩ : ∃ m, n = m + 1 := ⟨n - 1, by omega⟩
                  exact ⟨.skip [d], none, hq, rfl, by rw [n1]; rfl, .ok⟩
                simp only
                cases hr2 : putFields env.plat bo W p 0 fs vs with
                | deep => trivial
                | odd => trivial
                | err e =>
                  rw [hr2] at hgo
                  obtain ⟨K2, hK2⟩ := hgo
                  refine ⟨K2 + 1, fun n hn => (ge_part hns).2 (.inr ⟨[], hp1 n (by omega), ?_⟩)⟩
                  rw [hdr]; exact hK2 n (by omega)
                | ok b2 =>
                  rw [hr2] at hgo
                  obtain ⟨K2, hK2⟩ := hgo
                  refine ⟨K2 + 1, fun n hn => GL.part (b1 := []) k hns (hp1 n (by omega)) ?_⟩
                  rw [hdr]; exact hK2 n (by omega)
          · rw [if_pos hh]
            refine ⟨0, fun n _ => (ge_part hns).2 (.inl (.inl ?_))⟩
            simp only [pre, hc, bind, Except.bind, condPick, hh]
            rfl

theorem getAttrs_none {attrs : List (Name × Val)} {as : List Name} (h : pick attrs as = none) : getAttrs attrs as = .error .attributeError := by
  cases hg : getAttrs attrs as with
  | ok vs => rw [getAttrs_pick hg] at h; cases h
  | error e => rw [getAttrs_err hg]
where
  getAttrs_err {attrs : List (Name × Val)} : ∀ {as : List Name} {e : Err}, getAttrs attrs as = .error e → e = .attributeError
    | [], e, h => by cases h
    | a :: as, e, h => by
      simp only [getAttrs] at h
      split at h
      · cases hg : getAttrs attrs as with
        | ok vs => rw [hg] at h; cases h
        | error e' => rw [hg] at h; cases h; exact getAttrs_err hg
      · cases h; rfl

/-- What an object comes to: like a value, and the serializer has a size. -/
theorem obj_puts {docs : ClassId → Option ClassDoc} (hd : Describes env ctx M docs)
    (hall : ∀ c, (env.classes c).isSome = true → (docs c).isSome = true) : ∀ (k : Nat) (v : Val), ∃ K, ∀ n ≥ K,
      (∀ id c', Comes (enc env n (.structured id c') Option.none [v]) (putObj env.plat docs k v)) ∧
      Comes (encObj env (enc env n) v >>= fun r => .ok r.1) (putObj env.plat docs k v)
  | 0, v => ⟨0, fun n _ => ⟨fun _ _ => trivial, trivial⟩⟩
  | k + 1, v => by
    suffices key : ∃ K, ∀ n ≥ K, Comes (encObj env (enc env n) v >>= fun r => .ok r.1) (putObj env.plat docs (k + 1) v) ∧
        ∀ r s, encObj env (enc env n) v = .ok (r, s) → s.sized = true by
      obtain ⟨K, hK⟩ := key
      refine ⟨K + 1, fun n hn => ⟨fun id c' => ?_, (hK n (by omega)).1⟩⟩
      obtain ⟨m, rfl⟩ : ∃ m, n = m + 1 := ⟨n - 1, by omega⟩
      obtain ⟨h1, h2⟩ := hK m (by omega)
      simp only [enc]
      cases he : encObj env (enc env m) v with
      | stuck => rw [he] at h1; exact h1
      | err e => rw [he] at h1; exact h1
      | ok r =>
        obtain ⟨r, s⟩ := r
        rw [he] at h1
        simp only [Out.ok_bind, h2 r s he, not_true_eq_false, if_false] at h1 ⊢
        exact h1
    by_cases hv : ∃ c own attrs, v = .obj c own attrs
    · obtain ⟨c, own, attrs, rfl⟩ := hv
      simp only [putObj]
      cases hdc : docs c with
      | none =>
        have hc : env.classes c = none := by
          cases hc : env.classes c with
          | none => rfl
          | some ci =>
            have := hall c (by rw [hc]; rfl)
            rw [hdc] at this; cases this
        refine ⟨0, fun n _ => ?_⟩
        simp only [encObj, objSer, hc]
        exact ⟨.inr rfl, fun r s h => by cases h⟩
      | some d =>
        obtain ⟨hg, o, ho, hdo⟩ := hd c d hdc
        obtain ⟨ha, hs⟩ := documented_own hdo hg
        obtain ⟨ser, hobj, ss, his, hm, hap, hsh⟩ := documented_ser (own := own) ho hdo hg
        obtain ⟨hsz, hpre⟩ := lone_part env hg his hm hsh
        obtain ⟨s', q, hq⟩ := hpre ⟨c, false, attrs⟩
        have hsz' : ∀ n r s, encObj env (enc env n) (.obj c own attrs) = .ok (r, s) → s.sized = true := by
          intro n r s h
          simp only [encObj, hobj, Out.ofE, Out.ok_bind, hq] at h
          obtain ⟨_, _, h⟩ := Out.bind_ok' h
          obtain ⟨_, _, h⟩ := Out.bind_ok' h
          cases h
          exact hsz
        simp only
        cases hp : pick attrs d.attrs with
        | none =>
          refine ⟨0, fun n _ => ⟨?_, hsz' n⟩⟩
          simp only [encObj, hobj, Out.ofE, Out.ok_bind, hq, ha, getAttrs_none hp]
          exact .inr rfl
        | some vs =>
          have hg' := hg
          simp only [ClassDoc.sound, Bool.and_eq_true, List.all_eq_true] at hg'
          have hWk : ObjPuts env (fun _ => putObj env.plat docs k) := fun c v => by
            obtain ⟨K, hK⟩ := obj_puts hd hall k v
            exact ⟨K, fun n hn => (hK n hn).1⟩
          obtain ⟨hl, hgo⟩ := fields_puts hWk ⟨c, false, attrs⟩ (k := 0) his hg'.1.1 (by rw [pick_count hp, ClassDoc.attrs, List.length_map])
          obtain ⟨K, hK⟩ := whole_put hm hap (fun x hx => (fieldsL_fieldOf his x hx).2) hsh hl hgo
          refine ⟨K, fun n hn => ⟨?_, hsz' n⟩⟩
          have h1 := hK n hn
          simp only [hq, Out.ofE, Out.ok_bind] at h1
          simp only [encObj, hobj, Out.ofE, Out.ok_bind, hq, ha, pick_getAttrs hp]
          generalize putFields env.plat (own.getD d.byteOrder) (fun _ => putObj env.plat docs k) ⟨c, false, attrs⟩ 0 d.fields vs = r at h1 ⊢
          cases hx : enc env n s' q vs with
          | stuck => exact .stuck
          | err e => rw [hx] at h1; exact h1
          | ok x =>
            rw [hx] at h1
            cases r with
            | ok b =>
              rcases h1 with h1 | ⟨t, h1⟩ <;> cases h1
              exact .ok
            | err e => rcases h1 with h1 | h1 <;> cases h1
            | deep => trivial
            | odd => trivial
    · refine ⟨0, fun n _ => ?_⟩
      have : encObj env (enc env n) v = .err .attributeError ∧ putObj env.plat docs (k + 1) v = .err .attributeError := by
        cases v <;> first | exact ⟨rfl, rfl⟩ | exact absurd ⟨_, _, _, rfl⟩ hv
      rw [this.1, this.2]
      exact ⟨.inr rfl, fun r s h => by cases h⟩

end Verif
