import Verif.Proofs.PutBytes
/-
Lemmas on what packing comes to: tuples with too few or too many items.
-/
namespace Verif
open Spec Sem

variable {bo : ByteOrder} {cf : ClassId → Bool} {env : Env} {n : Nat} {p : PObj} {id : SerId}

/-- The values that the struct serializers at the front take together. -/
def lead : List Ser → Nat
  | .struct st :: ss => st.numValues + lead ss
  | _ => 0

theorem lead_congr {xs ys : List Ser} (h : lead xs = lead ys) : ∀ pr : List Ser, lead (pr ++ xs) = lead (pr ++ ys)
  | [] => h
  | s :: pr => by
    rcases isStruct_dec s with ⟨st, rfl⟩ | hs
    · simp only [List.cons_append, lead, lead_congr h pr]
    · cases s
      case struct st => exact absurd rfl (hs st)
      all_goals rfl

/-- The parts end with this exception, if there may be too few values. -/
def GF (env : Env) (n : Nat) (p : PObj) : Nat → List Ser → List Val → Err → Prop
  | _, [], _, _ => False
  | o, .struct st :: ss, vs, e => (vs.length < st.numValues + lead ss ∧ e = .structError) ∨
      (st.numValues + lead ss ≤ vs.length ∧ (st.packAt env.plat o (vs.take st.numValues) = .error e ∨
        ∃ b, st.packAt env.plat o (vs.take st.numValues) = .ok b ∧ GF env n p (o + b.length) ss (vs.drop st.numValues) e))
  | _, s :: ss, vs, e => FailsPart env n p s vs e ∨ ∃ b, GivesPart env n p s vs b ∧ GF env n p 0 ss (vs.drop s.numValues) e

theorem gf_part {s : Ser} {ss : List Ser} {vs : List Val} {e : Err} {o : Nat} (hs : ∀ st, s ≠ .struct st) :
    GF env n p o (s :: ss) vs e ↔ FailsPart env n p s vs e ∨ ∃ b, GivesPart env n p s vs b ∧ GF env n p 0 ss (vs.drop s.numValues) e := by
  cases s
  case struct st => exact absurd rfl (hs st)
  all_goals exact Iff.rfl

theorem gf_congr {xs ys : List Ser} (hld : lead xs = lead ys) (h : ∀ o vs e, GF env n p o xs vs e → GF env n p o ys vs e) :
    ∀ (pr : List Ser) {o : Nat} {vs : List Val} {e : Err}, GF env n p o (pr ++ xs) vs e → GF env n p o (pr ++ ys) vs e
  | [], o, vs, e, hx => h o vs e hx
  | s :: pr, o, vs, e, hx => by
    rcases isStruct_dec s with ⟨st, rfl⟩ | hs
    · have hl : lead (pr.append xs) = lead (pr.append ys) := lead_congr hld pr
      rcases hx with ⟨h1, h2⟩ | ⟨h0, hx | ⟨b, h1, h2⟩⟩
      · exact .inl ⟨by rw [← hl]; exact h1, h2⟩
      · exact .inr ⟨by rw [← hl]; exact h0, .inl hx⟩
      · exact .inr ⟨by rw [← hl]; exact h0, .inr ⟨b, h1, gf_congr hld h pr h2⟩⟩
    · rcases (gf_part (ss := pr ++ xs) hs).1 hx with hx | ⟨b, h1, h2⟩
      · exact (gf_part (ss := pr ++ ys) hs).2 (.inl hx)
      · exact (gf_part (ss := pr ++ ys) hs).2 (.inr ⟨b, h1, gf_congr hld h pr h2⟩)

/-- Joining neighbours changes nothing. -/
theorem gf_merge {xs ys : List Ser} (h : Merge (SumIn bo) xs ys) (hn : ∀ x ∈ xs, x ≠ .null) {o : Nat} {vs : List Val} {e : Err}
    (hx : GF env n p o xs vs e) : GF env n p o ys vs e := by
  induction h generalizing o vs e with
  | refl => exact hx
  | null => exact absurd rfl (hn .null (by simp))
  | @join pr post ys x y z hj _ ih =>
    refine ih ?_ (o := o) (gf_congr (xs := .struct x :: .struct y :: post) (ys := .struct z :: post) ?_ (fun o vs e hx => ?_) pr hx)
    · intro w hw
      simp only [List.mem_append, List.mem_cons] at hw
      rcases hw with hw | rfl | hw
      · exact hn w (by simp [hw])
      · nofun
      · exact hn w (by simp [hw])
    · simp only [lead, hj.numValues]; omega
    · have hz := hj.numValues
      rcases hx with ⟨h1, h2⟩ | ⟨h0, hx | ⟨b1, h1, ⟨h4, _⟩ | ⟨_, hx | ⟨b2, h2, h3⟩⟩⟩⟩
      · simp only [lead] at h1
        exact .inl ⟨by omega, h2⟩
      · simp only [lead] at h0
        exact .inr ⟨by omega, .inl (hj.packAt_err (by omega) (.inl hx))⟩
      · simp only [lead] at h0
        rw [List.length_drop] at h4
        omega
      · simp only [lead] at h0
        exact .inr ⟨by omega, .inl (hj.packAt_err (by omega) (.inr ⟨b1, h1, hx⟩))⟩
      · simp only [lead] at h0
        refine .inr ⟨by omega, .inr ⟨b1 ++ b2, hj.packAt h1 h2, ?_⟩⟩
        rw [hj.numValues, List.length_append, ← Nat.add_assoc, ← List.drop_drop]
        exact h3

theorem pack_count {st : StructSer} {P : Platform} {vs : List Val} (h : vs.length ≠ st.numValues) : st.pack P vs = .error .structError := by
  rw [← packAt_zero, StructSer.packAt, if_neg h]

theorem lead_apart {st : StructSer} {ys : List Ser} (h : Apart (.struct st :: ys)) : lead ys = 0 := by
  cases ys with
  | nil => rfl
  | cons y ys =>
    rcases isStruct_dec y with ⟨st', rfl⟩ | hs
    · exact absurd rfl (h [] st st' ys)
    · cases y
      case struct st => exact absurd rfl (hs st)
      all_goals rfl

/-- Without neighbouring struct serializers each part is packed alone. -/
theorem gf_enc : ∀ {ys : List Ser} {o : Nat} {vs : List Val} {e : Err}, Apart ys → (o = 0 ∨ ∀ st zs, ys ≠ .struct st :: zs) →
    GF env (n + 1) p o ys vs e → Fails (encLoop (enc env (n + 1)) (fun s => pre s p) touch ys vs) e
  | [], o, vs, e, _, _, h => h.elim
  | s :: ys, o, vs, e, ha, ho, h => by
    rcases isStruct_dec s with ⟨st, rfl⟩ | hs
    · rcases ho with rfl | ho
      · simp only [encLoop, pre, Ser.keeper, Option.map_none, Out.ofE, Out.ok_bind, Ser.sized, not_true_eq_false, if_false]
        rcases h with ⟨h1, rfl⟩ | ⟨_, h | ⟨b, h1, h2⟩⟩
        · rw [lead_apart ha] at h1
          refine Fails.bind ?_
          rw [enc, Ser.numValues, pack_count (by rw [List.length_take]; omega)]
          exact .inr rfl
        · rw [packAt_zero] at h
          refine Fails.bind ?_
          simp only [enc, Ser.numValues, h]; exact .inr rfl
        · have ih := gf_enc ha.tail (.inr fun st' zs e => ha [] st st' zs (by rw [e]; rfl)) h2
          rw [packAt_zero] at h1
          refine Gives.fails (b := b) ?_ fun t => ?_
          · simp only [enc, Ser.numValues, h1]; exact .ok
          · exact ih.bind
      · exact absurd rfl (ho st ys)
    · rcases (gf_part hs).1 h with (hq | ⟨s', q, hq, hv, h1⟩) | ⟨b, ⟨s', q, hq, hz, hv, h1⟩, h2⟩
      · simp only [encLoop, hq, Out.ofE]
        exact .inr rfl
      · simp only [encLoop, hq, Out.ofE, Out.ok_bind, hv]
        exact h1.bind
      · have ih := gf_enc ha.tail (.inl rfl) h2
        simp only [encLoop, hq, Out.ofE, Out.ok_bind, hv]
        refine h1.fails fun t => ?_
        simp only [hz, not_true_eq_false, if_false]
        exact ih.bind

/-- A sum of fields that is given too few values ends with an exception. -/
theorem whole_few {s : Ser} {ss : List Ser} {vs : List Val} {e : Err} {K : Nat} (hm : Merge (SumIn bo) ss (parts s))
    (ha : Apart (parts s)) (hnn : ∀ x ∈ ss, x ≠ .null) (hs : Simple s ∨ ∃ id xs, s = .compound id xs)
    (hl : vs.length < (ss.map Ser.numValues).sum) (h : ∀ n ≥ K, GF env n p 0 ss vs e) :
    pre s p = .error e ∨ ∃ s' q, pre s p = .ok (s', q) ∧ ∀ n ≥ K + 2, Fails (enc env n s' q vs) e := by
  have hg : ∀ n ≥ K, GF env n p 0 (parts s) vs e := fun n hn => gf_merge hm hnn (h n hn)
  have h' : ∀ n ≥ K + 1, Fails (encLoop (enc env n) (fun s => pre s p) touch (parts s) vs) e := by
    intro n hn
    obtain ⟨m, rfl⟩ : ∃ m, n = m + 1 := ⟨n - 1, by omega⟩
    exact gf_enc ha (.inl rfl) (hg (m + 1) (by omega))
  rcases hs with hs | ⟨id, xs, rfl⟩
  · rcases parts_simple hs with ⟨hp, rfl⟩ | hp
    · have := hg K (Nat.le_refl _)
      rw [hp] at this
      exact this.elim
    · rw [hp] at hg
      have hll : vs.length < s.numValues := by rw [merge_numValues hm, hp] at hl; simpa using hl
      rcases isStruct_dec s with ⟨st, rfl⟩ | hns
      · refine .inr ⟨.struct st, none, rfl, fun n hn => ?_⟩
        obtain ⟨m, rfl⟩ : ∃ m, n = m + 1 := ⟨n - 1, by omega⟩
        have hll : vs.length < st.numValues := hll
        rcases hg m (by omega) with ⟨_, rfl⟩ | ⟨h0, _⟩
        · rw [enc, pack_count (by omega)]
          exact .inr rfl
        · simp only [lead] at h0; omega
      · cases hq : pre s p with
        | error e' =>
          rcases (gf_part hns).1 (hg K (Nat.le_refl _)) with (h1 | ⟨_, _, h1, _⟩) | ⟨_, _, h1⟩
          · rw [hq] at h1; cases h1; exact .inl rfl
          · rw [hq] at h1; cases h1
          · exact h1.elim
        | ok sq =>
          obtain ⟨s', q⟩ := sq
          refine .inr ⟨s', q, rfl, fun n hn => ?_⟩
          rcases (gf_part hns).1 (hg n (by omega)) with (h1 | ⟨s2, q2, h1, h2, h3⟩) | ⟨_, _, h1⟩
          · rw [hq] at h1; cases h1
          · rw [hq] at h1
            cases h1
            rw [List.take_of_length_le (by omega)] at h3
            exact h3
          · exact h1.elim
  · refine .inr ?_
    by_cases hnp : needsPreprocess xs = true
    · refine ⟨.specialized id p xs, none, by simp [pre, hnp], fun n hn => ?_⟩
      obtain ⟨m, rfl⟩ : ∃ m, n = m + 1 := ⟨n - 1, by omega⟩
      exact h' m (by omega)
    · refine ⟨.compound id xs, none, by simp [pre, hnp], fun n hn => ?_⟩
      obtain ⟨m, rfl⟩ : ∃ m, n = m + 1 := ⟨n - 1, by omega⟩
      exact encLoop_pure_err p (Threads.needs_false hnp) (h' m (by omega))

/-! ### More values than parts -/

theorem encLoop_more {encN : Ser → Option PObj → List Val → Out Enc} {preF : Ser → Except Err (Ser × Option PObj)} {tch : Ser → List SerId} :
    ∀ {ss : List Ser} {vs us : List Val}, (∀ s ∈ ss, ∀ s' q, preF s = .ok (s', q) → s'.numValues = s.numValues) →
      (ss.map Ser.numValues).sum ≤ vs.length → encLoop encN preF tch ss (vs ++ us) = encLoop encN preF tch ss vs
  | [], _, _, _, _ => rfl
  | s :: ss, vs, us, hn, hl => by
    simp only [List.map_cons, List.sum_cons] at hl
    simp only [encLoop]
    cases hp : preF s with
    | error e => rfl
    | ok sq =>
      obtain ⟨s', q⟩ := sq
      have h1 := hn s (by simp) s' q hp
      simp only [Out.ofE, Out.ok_bind, h1]
      rw [List.take_append_of_le_length (by omega), List.drop_append_of_le_length (by omega),
        encLoop_more (fun x hx => hn x (by simp [hx])) (by rw [List.length_drop]; omega)]

/-- A sum of several serializers takes what it needs. -/
theorem compound_more {xs : List Ser} {vs us : List Val} (hn : ∀ s ∈ xs, ∀ s' q, pre s p = .ok (s', q) → s'.numValues = s.numValues)
    (hl : (xs.map Ser.numValues).sum ≤ vs.length) : ∃ s' q, pre (.compound id xs) p = .ok (s', q) ∧
      ∀ n, enc env n s' q (vs ++ us) = enc env n s' q vs := by
  by_cases hnp : needsPreprocess xs = true
  · refine ⟨.specialized id p xs, none, by simp [pre, hnp], fun n => ?_⟩
    cases n with
    | zero => rfl
    | succ n => exact encLoop_more hn hl
  · refine ⟨.compound id xs, none, by simp [pre, hnp], fun n => ?_⟩
    cases n with
    | zero => rfl
    | succ n => exact encLoop_more (fun s _ s' q h => by cases h; rfl) hl

/-- A compound made by adding has several parts. -/
theorem add_two {a b : Ser} {i : SerId} {xs : List Ser} (sa : Simple a) (sb : Simple b) (h : a.add cf id b = .ok (.compound i xs)) : 2 ≤ xs.length := by
  have hs : a = .null ∨ b = .null ∨ a.addSimple cf id b = .ok (.compound i xs) := by
    cases a <;> first | exact .inl rfl | cases sa | skip
    all_goals cases b <;> first | exact .inr (.inr h) | cases sb | exact .inr (.inl rfl)
  rcases hs with rfl | rfl | hs
  · cases h; cases sb
  · cases a <;> first | (cases h; done) | (cases sa; done)
  · unfold Ser.addSimple at hs
    split at hs
    · cases hs; cases sb
    · cases hs; cases sa
    · obtain ⟨z, _, hs⟩ := Except.bind_ok' hs
      cases hs
    · split at hs
      · cases hs
      · cases (mkCompound_ok hs).1
        exact Nat.le_refl _

theorem fields_two {ss : List Ser} {i : SerId} {xs : List Ser} (hs : ∀ x ∈ ss, FieldOf bo x) (h : sumSers cf id ss = .ok (.compound i xs)) : 2 ≤ xs.length := by
  suffices ∀ (ss : List Ser) (acc s : Ser), (∀ x ∈ ss, FieldOf bo x) → SumState cf bo acc →
      (∀ i xs, acc = .compound i xs → 2 ≤ xs.length) → ss.foldlM (fun (acc : Ser) s => acc.add cf id s) acc = .ok s →
      ∀ i xs, s = .compound i xs → 2 ≤ xs.length by
    exact this ss .null _ hs sumState_null (by nofun) h i xs rfl
  intro ss
  induction ss with
  | nil => intro acc s _ _ ha h; cases h; exact ha
  | cons b ss ih =>
    intro acc s hf hp hm h
    rw [List.foldlM_cons] at h
    obtain ⟨acc', ha, h⟩ := Except.bind_ok' h
    have hb := hf b (by simp)
    have hp' : SumState cf bo acc' := by
      rcases add_field (id := id) hp hb with ⟨s', e, k⟩ | e
      · rw [ha] at e; cases e; exact k
      · rw [ha] at e; cases e
    refine ih acc' s (fun x hx => hf x (by simp [hx])) hp' ?_ h
    rintro i xs rfl
    rcases hp.flat.notSpecial with sa | ⟨j, ys, rfl⟩
    · exact add_two sa hb.1 ha
    · have h2 := hm j ys rfl
      rcases add_one hp.flat hp.notNull hb.1 ha with ⟨rfl, he⟩ | ⟨_, he, _⟩ | ⟨fr, x, y, z, h1, rfl, _, he⟩
      · have he : xs = ys := he
        rw [he]; exact h2
      · have he : xs = ys ++ [b] := he
        rw [he, List.length_append]; omega
      · have he : xs = fr ++ [.struct z] := he
        have h1 : ys = fr ++ [.struct x] := h1
        rw [h1] at h2
        rw [he]
        simpa using h2

/-- Struct serializers only are added to one. -/
theorem merge_structs {J : StructSer → StructSer → StructSer → Prop} {xs ys : List Ser} (h : Merge J xs ys) (hx : ∀ x ∈ xs, ∃ st, x = .struct st) :
    ∀ y ∈ ys, ∃ st, y = .struct st := by
  induction h with
  | refl => exact hx
  | null => obtain ⟨_, h⟩ := hx .null (by simp); cases h
  | join _ _ ih =>
    refine ih fun w hw => ?_
    simp only [List.mem_append, List.mem_cons] at hw
    rcases hw with hw | rfl | hw
    · exact hx w (by simp [hw])
    · exact ⟨_, rfl⟩
    · exact hx w (by simp [hw])

/-- A sum of basic types counts its values. -/
theorem structs_count {ss : List Ser} {s : Ser} (hs : ∀ x ∈ ss, FieldOf bo x) (h : sumSers cf id ss = .ok s) (hx : ∀ x ∈ ss, ∃ st, x = .struct st)
    (hne : ss ≠ []) : ∃ st, s = .struct st ∧ st.numValues = (ss.map Ser.numValues).sum := by
  obtain ⟨hm, hst⟩ := fields_sumIn hs h
  have ha := fields_apart hs h
  have hy := merge_structs hm hx
  have hv := merge_numValues hm
  rcases hst.flat.notSpecial with sa | ⟨i, xs, rfl⟩
  · rcases parts_simple sa with ⟨hp, rfl⟩ | hp
    · rw [hp] at hm
      exfalso
      have : ∀ {xs ys : List Ser}, Merge (SumIn bo) xs ys → (∀ x ∈ xs, ∃ st, x = .struct st) → ys = [] → xs = [] := by
        intro xs ys h hx
        induction h with
        | refl => exact fun h => h
        | null => obtain ⟨_, h⟩ := hx .null (by simp); cases h
        | @join pr post ys x y z _ _ ih =>
          intro e
          have := ih (fun w hw => by
            simp only [List.mem_append, List.mem_cons] at hw
            rcases hw with hw | rfl | hw
            · exact hx w (by simp [hw])
            · exact ⟨_, rfl⟩
            · exact hx w (by simp [hw])) e
          simp at this
      exact hne (this hm hx rfl)
    · rw [hp] at hy hv
      obtain ⟨st, rfl⟩ := hy s (by simp)
      exact ⟨st, rfl, by rw [hv]; simp [Ser.numValues]⟩
  · exfalso
    have h2 := fields_two hs h
    match xs, h2 with
    | x :: y :: zs, _ =>
      obtain ⟨a, rfl⟩ := hy x (by simp [parts])
      obtain ⟨b, rfl⟩ := hy y (by simp [parts])
      exact ha [] a b zs rfl

end Verif
