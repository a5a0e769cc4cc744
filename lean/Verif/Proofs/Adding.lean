import Verif.Spec.Adding
import Verif.Proofs.RefineInto
import Verif.Proofs.RoundTripLeaf
/-
Sums of serializers.
-/
namespace Verif
open Spec

variable {J : StructSer → StructSer → StructSer → Prop} {cf : ClassId → Bool} {id : SerId}

theorem Spec.Merge.append {xs ys : List Ser} (h : Merge J xs ys) (p q : List Ser) : Merge J (p ++ xs ++ q) (p ++ ys ++ q) := by
  induction h with
  | refl xs => exact .refl _
  | @null pre post ys _ ih =>
    have := Merge.null (J := J) (pre := p ++ pre) (post := post ++ q) (by simpa using ih)
    simpa using this
  | @join pre post ys x y z hj _ ih =>
    have := Merge.join (J := J) (pre := p ++ pre) (post := post ++ q) hj (by simpa using ih)
    simpa using this

theorem Spec.Merge.trans {xs ys zs : List Ser} (h : Merge J xs ys) (k : Merge J ys zs) : Merge J xs zs := by
  induction h with
  | refl xs => exact k
  | null _ ih => exact .null (ih k)
  | join hj _ ih => exact .join hj (ih k)

theorem Spec.Merge.mono {J' : StructSer → StructSer → StructSer → Prop} (hJ : ∀ x y z, J x y z → J' x y z) {xs ys : List Ser}
    (h : Merge J xs ys) : Merge J' xs ys := by
  induction h with
  | refl xs => exact .refl _
  | null _ ih => exact .null ih
  | join hj _ ih => exact .join (hJ _ _ _ hj) ih

theorem mkCompound_ok {ss : List Ser} {s : Ser} (h : mkCompound id ss = .ok s) : s = .compound id ss ∧ ∀ x ∈ ss, Simple x := by
  unfold mkCompound at h
  split at h
  · cases h
  · rename_i hn
    cases h
    refine ⟨rfl, fun x hx => ?_⟩
    simp only [List.any_eq_true, not_exists, not_and, Bool.not_eq_true] at hn
    exact hn x hx

/-- Two simple serializers: kept side by side, or merged to one. -/
theorem addSimple_merge {a b j : Ser} (ha : Simple a) (hb : Simple b) (h : a.addSimple cf id b = .ok j) :
    (j = .compound id [a, b] ∧ a.isFinal cf = false) ∨
      (Simple j ∧ Merge IsSum [a, b] [j]) := by
  unfold Ser.addSimple at h
  split at h
  · cases h
    exact .inr ⟨hb, .null (pre := []) (.refl _)⟩
  · cases h
    exact .inr ⟨ha, .null (pre := [_]) (.refl _)⟩
  · obtain ⟨z, hz, h⟩ := Except.bind_ok' h
    cases h
    exact .inr ⟨rfl, .join (pre := []) hz (.refl _)⟩
  · split at h
    · cases h
    · rename_i hf
      exact .inl ⟨(mkCompound_ok h).1, by simpa using hf⟩

theorem addImpl_merge {front cands out : List Ser} {last : Ser} (hf : ∀ x ∈ front, Simple x) (hl : Simple last)
    (hc : ∀ x ∈ cands, Simple x) (h : addImpl cf id front last cands = .ok out) :
    Merge IsSum (front ++ last :: cands) out ∧ (∀ x ∈ out, Simple x) := by
  induction cands generalizing front last with
  | nil =>
    rw [addImpl] at h
    cases h
    exact ⟨.refl _, fun x hx => by
      rcases List.mem_append.1 hx with hx | hx
      · exact hf x hx
      · rw [List.mem_singleton.1 hx]; exact hl⟩
  | cons c cs ih =>
    rw [addImpl] at h
    obtain ⟨j, hj, h⟩ := Except.bind_ok' h
    have hc1 : Simple c := hc c (by simp)
    have hcs : ∀ x ∈ cs, Simple x := fun x hx => hc x (by simp [hx])
    rcases addSimple_merge hl hc1 hj with ⟨rfl, _⟩ | ⟨hs, hm⟩
    · rw [if_pos (by rfl)] at h
      have := ih (front := front ++ [last]) (fun x hx => by
        rcases List.mem_append.1 hx with hx | hx
        · exact hf x hx
        · rw [List.mem_singleton.1 hx]; exact hl) hc1 hcs h
      simpa using this
    · rw [if_neg (by rw [hs]; simp)] at h
      obtain ⟨i1, i2⟩ := ih hf hs hcs h
      refine ⟨.trans ?_ i1, i2⟩
      have := hm.append front cs
      simpa using this

theorem addImpl_final {front cands out : List Ser} {last : Ser} (hl : Simple last) (hc : ∀ x ∈ cands, Simple x)
    (hf : ∀ x ∈ front, x.isFinal cf = false) (h : addImpl cf id front last cands = .ok out) :
    ∃ f l, out = f ++ [l] ∧ ∀ x ∈ f, x.isFinal cf = false := by
  induction cands generalizing front last with
  | nil =>
    rw [addImpl] at h
    cases h
    exact ⟨front, last, rfl, hf⟩
  | cons c cs ih =>
    rw [addImpl] at h
    obtain ⟨j, hj, h⟩ := Except.bind_ok' h
    have hc1 : Simple c := hc c (by simp)
    have hcs : ∀ x ∈ cs, Simple x := fun x hx => hc x (by simp [hx])
    rcases addSimple_merge hl hc1 hj with ⟨rfl, hlf⟩ | ⟨hs, _⟩
    · rw [if_pos (by rfl)] at h
      exact ih (front := front ++ [last]) hc1 hcs (fun x hx => by
        rcases List.mem_append.1 hx with hx | hx
        · exact hf x hx
        · rw [List.mem_singleton.1 hx]; exact hlf) h
    · rw [if_neg (by rw [hs]; simp)] at h
      exact ih hs hcs hf h

/-- What sums of simple serializers are. -/
structure Flat (cf : ClassId → Bool) (s : Ser) : Prop where
  notSpecial : Simple s ∨ ∃ id ss, s = .compound id ss
  simple : ∀ x ∈ parts s, Simple x
  final : ∀ pre x post, parts s = pre ++ x :: post → x.isFinal cf = true → post = []

theorem parts_simple {s : Ser} (h : Simple s) : parts s = [] ∧ s = .null ∨ parts s = [s] := by
  cases s <;> first | exact .inr rfl | exact .inl ⟨rfl, rfl⟩ | cases h

theorem merge_parts {s : Ser} (h : Simple s) : Merge J [s] (parts s) := by
  rcases parts_simple h with ⟨hp, rfl⟩ | hp
  · rw [hp]; exact .null (pre := []) (.refl _)
  · rw [hp]; exact .refl _

theorem flat_simple {s : Ser} (h : Simple s) : Flat cf s := by
  refine ⟨.inl h, fun x hx => ?_, fun pre x post he _ => ?_⟩
  · rcases parts_simple h with ⟨hp, rfl⟩ | hp
    · rw [hp] at hx; simp at hx
    · rw [hp] at hx; rw [List.mem_singleton.1 hx]; exact h
  · rcases parts_simple h with ⟨hp, rfl⟩ | hp
    · rw [hp] at he; simp at he
    · rw [hp] at he
      rcases pre with _ | ⟨_, pre⟩
      · simp at he; exact he.2
      · simp at he

theorem flat_compound {ss : List Ser} {f : List Ser} {l : Ser} (h : ∀ x ∈ ss, Simple x) (he : ss = f ++ [l])
    (hf : ∀ x ∈ f, x.isFinal cf = false) : Flat cf (.compound id ss) := by
  refine ⟨.inr ⟨_, _, rfl⟩, h, fun pre x post hp hx => ?_⟩
  rcases List.eq_nil_or_concat post with rfl | ⟨p, z, rfl⟩
  · rfl
  · exfalso
    have hp' : f ++ [l] = pre ++ x :: (p.concat z) := by rw [← he]; exact hp
    have : f = pre ++ x :: p := by
      have := congrArg List.dropLast hp'
      simpa [List.dropLast_append_of_ne_nil, List.dropLast_cons_of_ne_nil] using this
    have := hf x (by rw [this]; simp)
    rw [this] at hx; cases hx

theorem notFinal_front {s : Ser} (h : Flat cf s) {f : List Ser} {l : Ser} (he : parts s = f ++ [l]) :
    ∀ x ∈ f, x.isFinal cf = false := by
  intro x hx
  obtain ⟨p, q, rfl⟩ := List.append_of_mem hx
  cases hf : x.isFinal cf with
  | false => rfl
  | true =>
    have := h.final p x (q ++ [l]) (by rw [he]; simp) hf
    simp at this

theorem addSimple_null (a : Ser) : a.addSimple cf id .null = .ok a := by
  cases a <;> rfl

theorem reverse_cons {xs front : List Ser} {last : Ser} (h : xs.reverse = last :: front) : xs = front.reverse ++ [last] := by
  have := congrArg List.reverse h
  simpa using this

/-- Adding flat serializers gives a flat one whose parts are those of the two, merged. -/
theorem add_merge {a b s : Ser} (ha : Flat cf a) (hb : Flat cf b) (h : a.add cf id b = .ok s) :
    Flat cf s ∧ Merge IsSum (parts a ++ parts b) (parts s) := by
  have comp : ∀ {xs cands : List Ser} {i : SerId}, Flat cf (.compound i xs) → (∀ x ∈ cands, Simple x) →
      (match xs.reverse with
        | [] => (.error .indexError : Except Err Ser)
        | last :: front => do
          let l ← addImpl cf id front.reverse last cands
          mkCompound id l) = .ok s →
      Flat cf s ∧ Merge IsSum (xs ++ cands) (parts s) := by
    intro xs cands i hx hc h
    cases hr : xs.reverse with
    | nil => rw [hr] at h; cases h
    | cons last front =>
      rw [hr] at h
      dsimp only at h
      obtain ⟨l, hl, h⟩ := Except.bind_ok' h
      have he := reverse_cons hr
      obtain ⟨rfl, _⟩ := mkCompound_ok h
      have hsx : ∀ x ∈ xs, Simple x := hx.simple
      have hfin := notFinal_front hx (f := front.reverse) (l := last) he
      obtain ⟨m, ms⟩ := addImpl_merge (fun x hx => hsx x (by rw [he]; simp at hx ⊢; simp [hx]))
        (hsx last (by rw [he]; simp)) hc hl
      obtain ⟨f, l', e, hf⟩ := addImpl_final (hsx last (by rw [he]; simp)) hc hfin hl
      refine ⟨flat_compound ms e hf, ?_⟩
      rw [he]
      simpa [parts] using m
  have simp2 : Simple a → Simple b → a.addSimple cf id b = .ok s →
      Flat cf s ∧ Merge IsSum (parts a ++ parts b) (parts s) := by
    intro sa sb h
    rcases parts_simple sa with ⟨hp, rfl⟩ | hp
    · cases h
      exact ⟨hb, .refl _⟩
    · rcases parts_simple sb with ⟨hq, rfl⟩ | hq
      · have : s = a := by
          cases a <;> first | (cases h; rfl) | cases sa
        subst this
        exact ⟨ha, by rw [hq, List.append_nil]; exact .refl _⟩
      · rw [hp, hq]
        rcases addSimple_merge sa sb h with ⟨rfl, hf⟩ | ⟨hs, hm⟩
        · exact ⟨flat_compound (f := [a]) (l := b) (fun x hx => by
            simp at hx
            rcases hx with rfl | rfl
            · exact sa
            · exact sb) rfl (fun x hx => by rw [List.mem_singleton.1 hx]; exact hf), .refl _⟩
        · exact ⟨flat_simple hs, hm.trans (merge_parts hs)⟩
  unfold Ser.add at h
  split at h
  · cases h
    exact ⟨hb, .refl _⟩
  · exact comp ha hb.simple h
  · rename_i xs hnc
    have sb : Simple b := hb.notSpecial.elim (fun h => h) (fun ⟨i, ss, he⟩ => absurd he (hnc _ _))
    obtain ⟨f, m⟩ := comp ha (cands := [b]) (fun x hx => by rw [List.mem_singleton.1 hx]; exact sb) h
    refine ⟨f, ?_⟩
    rcases parts_simple sb with ⟨hp, rfl⟩ | hp
    · rw [hp, List.append_nil]
      cases hr : xs.reverse with
      | nil => rw [hr] at h; cases h
      | cons last front =>
        rw [hr] at h
        dsimp only at h
        have hl : Simple last := ha.simple last (by
          show last ∈ xs
          rw [reverse_cons hr]; simp)
        rw [addImpl, addSimple_null] at h
        simp only [bind, Except.bind] at h
        rw [if_neg (by rw [hl]; simp), addImpl] at h
        obtain ⟨rfl, _⟩ := mkCompound_ok h
        rw [← reverse_cons hr]
        exact .refl _
    · rw [hp]; exact m
  · cases h
    exact ⟨ha, by rw [show parts .null = [] from rfl, List.append_nil]; exact .refl _⟩
  · rename_i ys h1 h2 h3
    have sa : Simple a := ha.notSpecial.elim (fun h => h) (fun ⟨i, ss, he⟩ => (h3 _ _ he).elim)
    split at h
    · cases h
    · obtain ⟨l, hl, h⟩ := Except.bind_ok' h
      obtain ⟨rfl, _⟩ := mkCompound_ok h
      obtain ⟨m, ms⟩ := addImpl_merge (by simp) sa hb.simple hl
      obtain ⟨f, l', e, hf⟩ := addImpl_final sa hb.simple (by simp) hl
      refine ⟨flat_compound ms e hf, ?_⟩
      rcases parts_simple sa with ⟨hp, rfl⟩ | hp
      · exact (h2 rfl).elim
      · rw [hp]; exact m
  · rename_i h1 h2 h3 h4 h5
    have sa : Simple a := ha.notSpecial.elim (fun h => h) (fun ⟨i, ss, he⟩ => (h2 _ _ he).elim)
    have sb : Simple b := hb.notSpecial.elim (fun h => h) (fun ⟨i, ss, he⟩ => (h4 _ _ he).elim)
    exact simp2 sa sb h

/-- Adding one simple serializer to a sum. -/
theorem add_one {a b s : Ser} (ha : Flat cf a) (hn : ∀ x ∈ parts a, x ≠ .null) (hb : Simple b) (h : a.add cf id b = .ok s) :
    (b = .null ∧ parts s = parts a) ∨
      (b ≠ .null ∧ parts s = parts a ++ [b] ∧ ∀ front x y, parts a = front ++ [.struct x] → b ≠ .struct y) ∨
      ∃ front x y z, parts a = front ++ [.struct x] ∧ b = .struct y ∧ x.add y = .ok z ∧ parts s = front ++ [.struct z] := by
  by_cases hb0 : b = .null
  · left
    refine ⟨hb0, ?_⟩
    subst hb0
    rcases ha.notSpecial with sa | ⟨i, ss, rfl⟩
    · cases a <;> first | (cases h; rfl) | cases sa
    · unfold Ser.add at h
      dsimp only at h
      cases hr : ss.reverse with
      | nil => rw [hr] at h; cases h
      | cons last front =>
        rw [hr] at h
        dsimp only at h
        have hl : Simple last := ha.simple last (by
          show last ∈ ss
          rw [reverse_cons hr]; simp)
        rw [addImpl, addSimple_null] at h
        simp only [bind, Except.bind] at h
        rw [if_neg (by rw [hl]; simp), addImpl] at h
        obtain ⟨rfl, _⟩ := mkCompound_ok h
        rw [← reverse_cons hr]
        rfl
  · right
    have key : ∀ {last j : Ser}, Simple last → last ≠ .null → last.addSimple cf id b = .ok j →
        (j = .compound id [last, b] ∧ ∀ x y, last = .struct x → b ≠ .struct y) ∨ ∃ x y z, last = .struct x ∧ b = .struct y ∧ x.add y = .ok z ∧ j = .struct z := by
      intro last j hl hl0 hj
      unfold Ser.addSimple at hj
      split at hj
      · exact absurd rfl hl0
      · exact absurd rfl hb0
      · obtain ⟨z, hz, hj⟩ := Except.bind_ok' hj
        cases hj
        exact .inr ⟨_, _, z, rfl, rfl, hz, rfl⟩
      · split at hj
        · cases hj
        · rename_i hss _
          exact .inl ⟨(mkCompound_ok hj).1, fun x y e1 e2 => hss x y e1 e2⟩
    rcases ha.notSpecial with sa | ⟨i, ss, rfl⟩
    · by_cases ha0 : a = .null
      · subst ha0
        left
        have : s = b := by cases h; rfl
        subst this
        rcases parts_simple hb with ⟨_, h0⟩ | hp
        · exact absurd h0 hb0
        · exact ⟨hb0, by rw [hp]; rfl, fun front x y e => by cases front <;> cases e⟩
      · have hs : a.addSimple cf id b = .ok s := by
          cases a <;> first | exact absurd rfl ha0 | cases sa | skip
          all_goals cases b <;> first | exact h | cases hb | exact absurd rfl hb0
        have hpa : parts a = [a] := by
          rcases parts_simple sa with ⟨_, h0⟩ | hp
          · exact absurd h0 ha0
          · exact hp
        rcases key sa ha0 hs with ⟨rfl, hk⟩ | ⟨x, y, z, rfl, rfl, hz, rfl⟩
        · left
          refine ⟨hb0, by rw [hpa]; rfl, fun front x y e => hk x y ?_⟩
          rw [hpa] at e
          cases front with
          | nil => cases e; rfl
          | cons => simp at e
        · right; exact ⟨[], x, y, z, rfl, rfl, hz, rfl⟩
    · have h' : (match ss.reverse with
          | [] => (.error .indexError : Except Err Ser)
          | last :: front => do mkCompound id (← addImpl cf id front.reverse last [b])) = .ok s := by
        cases b <;> first | exact h | cases hb
      cases hr : ss.reverse with
      | nil => rw [hr] at h'; cases h'
      | cons last front =>
        rw [hr] at h'
        dsimp only at h'
        have he := reverse_cons hr
        have hm : last ∈ ss := by rw [he]; simp
        have hl : Simple last := ha.simple last hm
        obtain ⟨l, hl', h'⟩ := Except.bind_ok' h'
        obtain ⟨rfl, _⟩ := mkCompound_ok h'
        rw [addImpl] at hl'
        obtain ⟨j, hj, hl'⟩ := Except.bind_ok' hl'
        rcases key hl (hn last hm) hj with ⟨rfl, hk⟩ | ⟨x, y, z, rfl, rfl, hz, rfl⟩
        · rw [if_pos (by rfl), addImpl] at hl'
          cases hl'
          left
          refine ⟨hb0, by rw [← he]; rfl, fun front' x y e => hk x y ?_⟩
          have e' : ss = front' ++ [.struct x] := e
          rw [he] at e'
          simpa using (List.append_inj' e' rfl).2
        · rw [if_neg (by simp [Ser.isCompound]), addImpl] at hl'
          cases hl'
          right; exact ⟨front.reverse, x, y, z, he, rfl, hz, rfl⟩

theorem eval_flat {e : Sum} {s : Ser} (hl : ∀ x ∈ e.leaves, Simple x) (h : e.eval cf = .ok s) :
    Flat cf s ∧ Merge IsSum e.leaves (parts s) := by
  induction e generalizing s with
  | leaf x =>
    cases h
    have hx : Simple x := hl x (by simp [Sum.leaves])
    exact ⟨flat_simple hx, merge_parts hx⟩
  | plus i l r ihl ihr =>
    rw [Sum.eval] at h
    obtain ⟨a, ha, h⟩ := Except.bind_ok' h
    obtain ⟨b, hb, h⟩ := Except.bind_ok' h
    obtain ⟨f1, m1⟩ := ihl (fun x hx => hl x (by simp [Sum.leaves, hx])) ha
    obtain ⟨f2, m2⟩ := ihr (fun x hx => hl x (by simp [Sum.leaves, hx])) hb
    obtain ⟨f3, m3⟩ := add_merge f1 f2 h
    refine ⟨f3, .trans ?_ m3⟩
    rw [Sum.leaves]
    have k1 := m1.append [] r.leaves
    have k2 := m2.append (parts a) []
    simp only [List.nil_append, List.append_nil] at k1 k2
    exact k1.trans k2

/-- Only `NullSerializer`s follow a serializer that reads to the end. -/
def FinalLast (cf : ClassId → Bool) : List Ser → Prop
  | [] => True
  | s :: ss => (s.isFinal cf = true → ∀ y ∈ ss, y = .null) ∧ FinalLast cf ss

theorem finalLast_of {ss : List Ser} (h : ∀ pre x post, ss = pre ++ x :: post → x.isFinal cf = true → post = []) :
    FinalLast cf ss := by
  induction ss with
  | nil => trivial
  | cons s ss ih =>
    refine ⟨fun hs y hy => ?_, ih fun pre x post he hx => h (s :: pre) x post (by rw [he]; rfl) hx⟩
    rw [h [] s ss rfl hs] at hy; simp at hy

theorem finalLast_split {ss : List Ser} (h : FinalLast cf ss) {pre post : List Ser} {x : Ser} (he : ss = pre ++ x :: post)
    (hx : x.isFinal cf = true) : ∀ y ∈ post, y = .null := by
  induction ss generalizing pre with
  | nil => simp at he
  | cons s ss ih =>
    rcases pre with _ | ⟨p, pre⟩
    · simp at he; obtain ⟨rfl, rfl⟩ := he; exact h.1 hx
    · simp at he; exact ih h.2 he.2

theorem struct_not_final (x : StructSer) : (Ser.struct x).isFinal cf = false := by
  rw [Ser.isFinal] <;> intros <;> simp_all

theorem finalLast_null {pre post : List Ser} (ih : FinalLast cf (pre ++ post)) : FinalLast cf (pre ++ .null :: post) := by
  induction pre with
  | nil => exact ⟨fun h => by rw [Ser.isFinal] at h <;> simp_all, ih⟩
  | cons s pre ihp =>
    refine ⟨fun hs y hy => ?_, ihp ih.2⟩
    have hy' : y ∈ pre ++ .null :: post := hy
    have : ∀ y ∈ pre ++ post, y = .null := ih.1 hs
    simp only [List.mem_append, List.mem_cons] at hy' this
    rcases hy' with hy | rfl | hy
    · exact this y (.inl hy)
    · rfl
    · exact this y (.inr hy)

theorem finalLast_join {pre post : List Ser} {x y z : StructSer} (ih : FinalLast cf (pre ++ .struct z :: post)) :
    FinalLast cf (pre ++ .struct x :: .struct y :: post) := by
  induction pre with
  | nil =>
    refine ⟨fun h => ?_, fun h => ?_, ih.2⟩
    · rw [struct_not_final] at h; cases h
    · rw [struct_not_final] at h; cases h
  | cons s pre ihp =>
    refine ⟨fun hs w hw => ?_, ihp ih.2⟩
    have := ih.1 hs (.struct z) (by simp)
    cases this

theorem finalLast_merge {xs ys : List Ser} (h : Merge J xs ys) (hy : FinalLast cf ys) : FinalLast cf xs := by
  induction h with
  | refl xs => exact hy
  | null _ ih => exact finalLast_null (ih hy)
  | join _ _ ih => exact finalLast_join (ih hy)

end Verif
