import Verif.Spec.FormatPut
import Verif.Proofs.StoreWrites
/-
Lemmas on what packing comes to: the parts of a compound.
-/
namespace Verif
open Spec Sem

variable {bo : ByteOrder} {env : Env} {n : Nat} {p : PObj}

/-- The encoding ends with this exception, unless it depends on earlier use. -/
def Fails (x : Out Enc) (e : Err) : Prop := x = .stuck ∨ x = .err e

theorem Fails.bind {x : Out Enc} {e : Err} {f : Enc → Out Enc} (h : Fails x e) : Fails (x >>= f) e := by
  rcases h with rfl | rfl
  · exact .inl rfl
  · exact .inr rfl

theorem Gives.fails {x : Out Enc} {b : Bytes} {e : Err} {f : Enc → Out Enc} (h : Gives x b) (hf : ∀ t, Fails (f ⟨b, t⟩) e) : Fails (x >>= f) e := by
  rcases h with rfl | ⟨t, rfl⟩
  · exact .inl rfl
  · exact hf t

/-- The encoding comes to this. -/
def Comes (x : Out Enc) : Parsed Bytes → Prop
  | .ok b => Gives x b
  | .err e => Fails x e
  | .deep | .odd => True

theorem Comes.leaf {x : Except Err Bytes} : Comes (encLeaf x) (.ofE x) := by
  cases x with
  | ok b => exact .inr ⟨[], rfl⟩
  | error e => exact .inr rfl

theorem Comes.bind {x : Out Enc} {r : Parsed Bytes} {f : Enc → Out Enc} {g : Bytes → Parsed Bytes} (h : Comes x r)
    (hf : ∀ b t, r = .ok b → Comes (f ⟨b, t⟩) (g b)) : Comes (x >>= f) (r >>= g) := by
  cases r with
  | ok b =>
    have hf' : ∀ t, Comes (f ⟨b, t⟩) (g b) := fun t => hf b t rfl
    show Comes (x >>= f) (g b)
    rcases h with rfl | ⟨t, rfl⟩
    · cases g b with
      | ok => exact .inl rfl
      | err => exact .inl rfl
      | deep => trivial
      | odd => trivial
    · exact hf' t
  | err e => exact Fails.bind (show Fails x e from h)
  | deep => trivial
  | odd => trivial

/-- One part that is not a struct serializer ends with this exception. -/
def FailsPart (env : Env) (n : Nat) (p : PObj) (s : Ser) (vs : List Val) (e : Err) : Prop :=
  pre s p = .error e ∨ ∃ s' q, pre s p = .ok (s', q) ∧ s'.numValues = s.numValues ∧ Fails (enc env n s' q (vs.take s.numValues)) e

/-- The parts end with this exception, struct serializers each as part of its run. -/
def GE (env : Env) (n : Nat) (p : PObj) : Nat → List Ser → List Val → Err → Prop
  | _, [], _, _ => False
  | o, .struct st :: ss, vs, e => st.packAt env.plat o (vs.take st.numValues) = .error e ∨
      ∃ b, st.packAt env.plat o (vs.take st.numValues) = .ok b ∧ GE env n p (o + b.length) ss (vs.drop st.numValues) e
  | _, s :: ss, vs, e => FailsPart env n p s vs e ∨ ∃ b, GivesPart env n p s vs b ∧ GE env n p 0 ss (vs.drop s.numValues) e

theorem ge_part {s : Ser} {ss : List Ser} {vs : List Val} {e : Err} {o : Nat} (hs : ∀ st, s ≠ .struct st) :
    GE env n p o (s :: ss) vs e ↔ FailsPart env n p s vs e ∨ ∃ b, GivesPart env n p s vs b ∧ GE env n p 0 ss (vs.drop s.numValues) e := by
  cases s
  case struct st => exact absurd rfl (hs st)
  all_goals exact Iff.rfl

theorem ge_congr {xs ys : List Ser} (h : ∀ o vs e, (xs.map Ser.numValues).sum ≤ vs.length → GE env n p o xs vs e → GE env n p o ys vs e) :
    ∀ (pr : List Ser) {o : Nat} {vs : List Val} {e : Err}, ((pr ++ xs).map Ser.numValues).sum ≤ vs.length →
      GE env n p o (pr ++ xs) vs e → GE env n p o (pr ++ ys) vs e
  | [], o, vs, e, hl, hx => h o vs e hl hx
  | s :: pr, o, vs, e, hl, hx => by
    have hl' : ((pr ++ xs).map Ser.numValues).sum ≤ (vs.drop s.numValues).length := by
      simp only [List.cons_append, List.map_cons, List.sum_cons] at hl
      rw [List.length_drop]; omega
    rcases isStruct_dec s with ⟨st, rfl⟩ | hs
    · rcases hx with hx | ⟨b, h1, h2⟩
      · exact .inl hx
      · exact .inr ⟨b, h1, ge_congr h pr hl' h2⟩
    · rcases (ge_part (ss := pr ++ xs) hs).1 hx with hx | ⟨b, h1, h2⟩
      · exact (ge_part (ss := pr ++ ys) hs).2 (.inl hx)
      · exact (ge_part (ss := pr ++ ys) hs).2 (.inr ⟨b, h1, ge_congr h pr hl' h2⟩)

theorem SumIn.packAt_err {x y z : StructSer} (h : SumIn bo x y z) {P : Platform} {o : Nat} {vs : List Val} {e : Err}
    (hl : x.numValues + y.numValues ≤ vs.length)
    (hx : x.packAt P o (vs.take x.numValues) = .error e ∨ ∃ b, x.packAt P o (vs.take x.numValues) = .ok b ∧
      y.packAt P (o + b.length) ((vs.drop x.numValues).take y.numValues) = .error e) :
    z.packAt P o (vs.take z.numValues) = .error e := by
  have l1 : (vs.take x.numValues).length = x.numValues := by rw [List.length_take]; omega
  have l2 : ((vs.drop x.numValues).take y.numValues).length = y.numValues := by rw [List.length_take, List.length_drop]; omega
  have lz : (vs.take z.numValues).length = z.numValues := by rw [List.length_take, h.numValues]; omega
  have hv : vs.take z.numValues = vs.take x.numValues ++ (vs.drop x.numValues).take y.numValues := by rw [h.numValues, List.take_add]
  have hd : List.drop (numVals x.toks) (vs.take x.numValues ++ (vs.drop x.numValues).take y.numValues) = (vs.drop x.numValues).take y.numValues :=
    List.drop_left' l1
  unfold StructSer.packAt at hx ⊢
  rw [if_pos lz]
  rw [if_pos l1] at hx
  rw [hv, h.facts.byteOrder, h.facts.toks.pack, packToks_append, packToks_take P _ _ _ _ _ (by rw [l1]; exact Nat.le_refl _), hd]
  rcases hx with hx | ⟨b, hb, hy⟩
  · rw [hx]; rfl
  · rw [if_pos l2, h.ybo, ← h.xbo] at hy
    rw [hb]
    show (packToks P x.byteOrder y.toks (o + b.length) _ >>= _) = _
    rw [hy]; rfl

/-- Joining neighbours changes nothing. -/
theorem ge_merge {xs ys : List Ser} (h : Merge (SumIn bo) xs ys) (hn : ∀ x ∈ xs, x ≠ .null) {o : Nat} {vs : List Val} {e : Err}
    (hl : (xs.map Ser.numValues).sum ≤ vs.length) (hx : GE env n p o xs vs e) : GE env n p o ys vs e := by
  induction h generalizing o vs e with
  | refl => exact hx
  | null => exact absurd rfl (hn .null (by simp))
  | @join pr post ys x y z hj _ ih =>
    refine ih ?_ (o := o) ?_ (ge_congr (xs := .struct x :: .struct y :: post) (ys := .struct z :: post) (fun o vs e hl hx => ?_) pr hl hx)
    · intro w hw
      simp only [List.mem_append, List.mem_cons] at hw
      rcases hw with hw | rfl | hw
      · exact hn w (by simp [hw])
      · nofun
      · exact hn w (by simp [hw])
    · refine Nat.le_trans (Nat.le_of_eq ?_) hl
      simp [Ser.numValues, hj.numValues]; omega
    · have hl' : x.numValues + y.numValues ≤ vs.length := by
        simp only [List.map_cons, List.sum_cons, Ser.numValues] at hl; omega
      rcases hx with hx | ⟨b1, h1, hx | ⟨b2, h2, h3⟩⟩
      · exact .inl (hj.packAt_err hl' (.inl hx))
      · exact .inl (hj.packAt_err hl' (.inr ⟨b1, h1, hx⟩))
      · refine .inr ⟨b1 ++ b2, hj.packAt h1 h2, ?_⟩
        rw [hj.numValues, List.length_append, ← Nat.add_assoc, ← List.drop_drop]
        exact h3

/-- Without neighbouring struct serializers each part is packed alone. -/
theorem ge_enc : ∀ {ys : List Ser} {o : Nat} {vs : List Val} {e : Err}, Apart ys → (o = 0 ∨ ∀ st zs, ys ≠ .struct st :: zs) →
    GE env (n + 1) p o ys vs e → Fails (encLoop (enc env (n + 1)) (fun s => pre s p) touch ys vs) e
  | [], o, vs, e, _, _, h => h.elim
  | s :: ys, o, vs, e, ha, ho, h => by
    rcases isStruct_dec s with ⟨st, rfl⟩ | hs
    · rcases ho with rfl | ho
      · simp only [encLoop, pre, Ser.keeper, Option.map_none, Out.ofE, Out.ok_bind, Ser.sized, not_true_eq_false, if_false]
        rcases h with h | ⟨b, h1, h2⟩
        · rw [packAt_zero] at h
          refine Fails.bind ?_
          simp only [enc, Ser.numValues, h]; exact .inr rfl
        · have ih := ge_enc ha.tail (.inr fun st' zs e => ha [] st st' zs (by rw [e]; rfl)) h2
          rw [packAt_zero] at h1
          refine Gives.fails (b := b) ?_ fun t => ?_
          · simp only [enc, Ser.numValues, h1]; exact .ok
          · exact ih.bind
      · exact absurd rfl (ho st ys)
    · rcases (ge_part hs).1 h with (hq | ⟨s', q, hq, hv, h1⟩) | ⟨b, ⟨s', q, hq, hz, hv, h1⟩, h2⟩
      · simp only [encLoop, hq, Out.ofE]
        exact .inr rfl
      · simp only [encLoop, hq, Out.ofE, Out.ok_bind, hv]
        exact h1.bind
      · have ih := ge_enc ha.tail (.inl rfl) h2
        simp only [encLoop, hq, Out.ofE, Out.ok_bind, hv]
        refine h1.fails fun t => ?_
        simp only [hz, not_true_eq_false, if_false]
        exact ih.bind

theorem Fails.inv {x : Out Enc} {e : Err} {f : Enc → Out Enc} (h : Fails (x >>= f) e) :
    Fails x e ∨ ∃ b t, x = .ok ⟨b, t⟩ ∧ Fails (f ⟨b, t⟩) e := by
  cases x with
  | stuck => exact .inl (.inl rfl)
  | err e' => exact .inl h
  | ok r => exact .inr ⟨r.bytes, r.touched, rfl, h⟩

/-- Parts that need no partial object. -/
theorem encLoop_pure_err {encN : Ser → Option PObj → List Val → Out Enc} (p : PObj) : ∀ {ss : List Ser} {vs : List Val} {e : Err},
    (∀ s ∈ ss, s.overridesPre = false) → Fails (encLoop encN (fun s => pre s p) touch ss vs) e →
    Fails (encLoop encN (fun s => .ok (s, Option.none)) (fun _ => []) ss vs) e
  | [], _, _, _, h => h
  | s :: ss, vs, e, hn, h => by
    have ih := encLoop_pure_err (encN := encN) p (ss := ss) (vs := vs.drop s.numValues) (e := e) (fun x hx => hn x (by simp [hx]))
    simp only [encLoop, pre_overrides (hn s (by simp)), Out.ofE, Out.ok_bind] at h ⊢
    rcases h.inv with h1 | ⟨b1, t1, h1, h2⟩
    · exact h1.bind
    · rw [h1]
      simp only [Out.ok_bind]
      by_cases hs : s.sized = true
      · simp only [hs, not_true_eq_false, if_false] at h2 ⊢
        rcases h2.inv with h3 | ⟨b2, t2, h3, h4⟩
        · exact (ih h3).bind
        · rcases h4 with h4 | h4 <;> cases h4
      · rw [if_pos hs] at h2 ⊢
        exact h2

/-- A sum of fields ends with the exception of its fields. -/
theorem whole_err {s : Ser} {ss : List Ser} {vs : List Val} {e : Err} {K : Nat} (hm : Merge (SumIn bo) ss (parts s))
    (ha : Apart (parts s)) (hnn : ∀ x ∈ ss, x ≠ .null) (hs : Simple s ∨ ∃ id xs, s = .compound id xs)
    (hl : vs.length = (ss.map Ser.numValues).sum) (h : ∀ n ≥ K, GE env n p 0 ss vs e) :
    pre s p = .error e ∨ ∃ s' q, pre s p = .ok (s', q) ∧ ∀ n ≥ K + 2, Fails (enc env n s' q vs) e := by
  have hg : ∀ n ≥ K, GE env n p 0 (parts s) vs e := fun n hn => ge_merge hm hnn (Nat.le_of_eq hl.symm) (h n hn)
  have h' : ∀ n ≥ K + 1, Fails (encLoop (enc env n) (fun s => pre s p) touch (parts s) vs) e := by
    intro n hn
    obtain ⟨m, rfl⟩ : ∃ m, n = m + 1 := ⟨n - 1, by omega⟩
    exact ge_enc ha (.inl rfl) (hg (m + 1) (by omega))
  rcases hs with hs | ⟨id, xs, rfl⟩
  · rcases parts_simple hs with ⟨hp, rfl⟩ | hp
    · have := hg K (Nat.le_refl _)
      rw [hp] at this
      exact this.elim
    · rw [hp] at hg
      have hll : vs.length = s.numValues := by rw [hl, merge_numValues hm, hp]; simp
      rcases isStruct_dec s with ⟨st, rfl⟩ | hns
      · refine .inr ⟨.struct st, none, rfl, fun n hn => ?_⟩
        obtain ⟨m, rfl⟩ : ∃ m, n = m + 1 := ⟨n - 1, by omega⟩
        rcases hg m (by omega) with h1 | ⟨_, _, h2⟩
        · rw [packAt_zero, List.take_of_length_le (by rw [hll]; exact Nat.le_refl _)] at h1
          simp only [enc, h1]
          exact .inr rfl
        · exact h2.elim
      · cases hq : pre s p with
        | error e' =>
          rcases (ge_part hns).1 (hg K (Nat.le_refl _)) with (h1 | ⟨_, _, h1, _⟩) | ⟨_, _, h1⟩
          · rw [hq] at h1; cases h1; exact .inl rfl
          · rw [hq] at h1; cases h1
          · exact h1.elim
        | ok sq =>
          obtain ⟨s', q⟩ := sq
          refine .inr ⟨s', q, rfl, fun n hn => ?_⟩
          rcases (ge_part hns).1 (hg n (by omega)) with (h1 | ⟨s2, q2, h1, h2, h3⟩) | ⟨_, _, h1⟩
          · rw [hq] at h1; cases h1
          · rw [hq] at h1
            cases h1
            rw [List.take_of_length_le (by rw [hll]; exact Nat.le_refl _)] at h3
            exact h3
          · exact h1.elim
  · refine .inr ?_
    by_cases hnp : needsPreprocess xs = true
    · refine ⟨.specialized id p xs, none, by simp [pre, hnp], fun n hn => ?_⟩
      obtain ⟨m, rfl⟩ : ∃ m, n = m + 1 := ⟨n - 1, by omega⟩
      exact h' m (by omega)
    · refine ⟨.compound id xs, none, by simp [pre, hnp], fun n hn => ?_⟩
      obtain ⟨m, rfl⟩ : ∃ m, n = m + 1 := ⟨n - 1, by omega⟩
      exact encLoop_pure_err p (Threads.needs_false hnp) (h' m (by omega))

/-- What the parts come to, with enough fuel. -/
def GO (env : Env) (p : PObj) (k : Nat) (ss : List Ser) (vs : List Val) : Parsed Bytes → Prop
  | .ok b => ∃ K, ∀ n ≥ K, GL env n p k ss vs b
  | .err e => ∃ K, ∀ n ≥ K, GE env n p k ss vs e
  | .deep | .odd => True

/-- A sum of fields comes to what its fields come to. -/
theorem whole_put {s : Ser} {ss : List Ser} {vs : List Val} {r : Parsed Bytes} (hm : Merge (SumIn bo) ss (parts s))
    (ha : Apart (parts s)) (hnn : ∀ x ∈ ss, x ≠ .null) (hs : Simple s ∨ ∃ id xs, s = .compound id xs)
    (hl : vs.length = (ss.map Ser.numValues).sum) (h : GO env p 0 ss vs r) :
    ∃ K, ∀ n ≥ K, Comes (do
      let (s', q) ← .ofE (pre s p)
      enc env n s' q vs) r := by
  cases r with
  | ok b =>
    obtain ⟨K, h⟩ := h
    obtain ⟨s', q, h1, h2⟩ := whole_enc hm ha hnn hs hl h
    refine ⟨K + 2, fun n hn => ?_⟩
    rw [h1]
    exact h2 n hn
  | err e =>
    obtain ⟨K, h⟩ := h
    refine ⟨K + 2, fun n hn => ?_⟩
    rcases whole_err hm ha hnn hs hl h with h1 | ⟨s', q, h1, h2⟩
    · rw [h1]; exact .inr rfl
    · rw [h1]; exact h2 n hn
  | deep => exact ⟨0, fun _ _ => trivial⟩
  | odd => exact ⟨0, fun _ _ => trivial⟩

end Verif
