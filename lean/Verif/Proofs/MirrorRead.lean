import Verif.Proofs.Mirror
import Verif.Proofs.Near
/-
Lemmas on reading in another byte order.
-/
namespace Verif.Mirrors
open Spec Places Near

/-- What the one reads from some bytes the other reads from the same bytes with some numbers turned around, whatever follows. -/
def Turns {α : Type} (g g' : Bytes → Parsed (α × Nat)) : Prop := ∀ x y v, g (x ++ y) = .ok (v, x.length) →
  ∃ t, Mirrored x t ∧ ∀ y', g' (t ++ y') = .ok (v, x.length)

variable {α β γ : Type} {P : Platform} {bo bo' : ByteOrder}

theorem Turns.of_local {g : Bytes → Parsed (α × Nat)} (h : Local g) : Turns g g := fun x y v hg => ⟨x, mirrored_refl x, fun y' => h x y y' v hg⟩

theorem Turns.bind {g g' : Bytes → Parsed (α × Nat)} (h : Turns g g') {k : α → Nat → Parsed β} :
    Turns (fun b => g b >>= fun (v, n) => k v n >>= fun w => .ok (w, n)) (fun b => g' b >>= fun (v, n) => k v n >>= fun w => .ok (w, n)) := by
  intro x y w hg
  simp only at hg
  cases hr : g (x ++ y) with
  | ok p =>
    obtain ⟨v, n⟩ := p
    rw [hr] at hg
    simp only [ok_bind] at hg
    cases hk : k v n with
    | ok w' =>
      rw [hk] at hg
      simp only [ok_bind, Parsed.ok.injEq, Prod.mk.injEq] at hg
      obtain ⟨rfl, rfl⟩ := hg
      obtain ⟨t, h1, h2⟩ := h x y v hr
      refine ⟨t, h1, fun y' => ?_⟩
      simp only [h2 y', ok_bind, hk]
    | err | deep | odd => rw [hk] at hg; cases hg
  | err | deep | odd => rw [hr] at hg; cases hg

theorem Turns.pair {g g' : Bytes → Parsed (α × Nat)} (h : Turns g g') {k k' : α → Bytes → Parsed (β × Nat)} (hk : ∀ v, Turns (k v) (k' v)) (f : α → β → γ) :
    Turns (fun b => g b >>= fun (v, n) => k v (b.drop n) >>= fun (w, m) => .ok (f v w, n + m))
      (fun b => g' b >>= fun (v, n) => k' v (b.drop n) >>= fun (w, m) => .ok (f v w, n + m)) := by
  intro x y u hg
  simp only at hg
  cases hr : g (x ++ y) with
  | ok p =>
    obtain ⟨v, n⟩ := p
    rw [hr] at hg
    simp only [ok_bind] at hg
    cases hs : k v ((x ++ y).drop n) with
    | ok q =>
      obtain ⟨w, m⟩ := q
      rw [hs] at hg
      simp only [ok_bind, Parsed.ok.injEq, Prod.mk.injEq] at hg
      obtain ⟨rfl, hl⟩ := hg
      have l1 : (x.take n).length = n := by rw [List.length_take]; omega
      have l2 : (x.drop n).length = m := by rw [List.length_drop]; omega
      rw [show x ++ y = x.take n ++ (x.drop n ++ y) by rw [← List.append_assoc, List.take_append_drop]] at hr
      rw [List.drop_append_of_le_length (by omega)] at hs
      obtain ⟨t1, a1, a2⟩ := h _ _ v (by rw [l1]; exact hr)
      obtain ⟨t2, b1, b2⟩ := hk v _ _ w (by rw [l2]; exact hs)
      rw [l1] at a2
      rw [l2] at b2
      have l3 : t1.length = n := by rw [← mirrored_length a1, l1]
      refine ⟨t1 ++ t2, ?_, fun y' => ?_⟩
      · have := mirrored_append a1 b1
        rwa [List.take_append_drop] at this
      · simp only
        rw [List.append_assoc, a2]
        simp only [ok_bind]
        rw [← l3, List.drop_left, b2]
        simp only [ok_bind, l3, hl]
    | err | deep | odd => rw [hs] at hg; cases hg
  | err | deep | odd => rw [hr] at hg; cases hg

theorem turns_readMany {g g' : Bytes → Parsed (Val × Nat)} (h : Turns g g') : ∀ n, Turns (readMany g n) (readMany g' n)
  | 0 => fun x y v hg => by
    simp only [readMany, Parsed.ok.injEq, Prod.mk.injEq] at hg
    obtain ⟨rfl, hl⟩ := hg
    have : x = [] := List.length_eq_zero_iff.1 hl.symm
    subst this
    exact ⟨[], .nil, fun y' => rfl⟩
  | n + 1 => by
    have := Turns.pair h (k := fun _ => readMany g n) (k' := fun _ => readMany g' n) (fun _ => turns_readMany h n) (fun v vs => v :: vs)
    exact this

/-- The number with the same digits in another byte order. -/
theorem digits_turn (x : Bytes) : ∃ t, (t = x ∨ t = x.reverse) ∧ bigFirst P bo' t = bigFirst P bo x := by
  have h : ∀ bo : ByteOrder, (∀ y, bigFirst P bo y = y) ∨ ∀ y, bigFirst P bo y = y.reverse := by
    intro bo
    cases bo <;> cases hP : P.le <;> simp [bigFirst, hP]
  rcases h bo with h1 | h1 <;> rcases h bo' with h2 | h2
  · exact ⟨x, .inl rfl, by rw [h1, h2]⟩
  · exact ⟨x.reverse, .inr rfl, by rw [h1, h2, List.reverse_reverse]⟩
  · exact ⟨x.reverse, .inr rfl, by rw [h1, h2]⟩
  · exact ⟨x, .inl rfl, by rw [h1, h2]⟩

theorem number_turn (x : Bytes) (hl : x.length = 1 ∨ x.length = 2 ∨ x.length = 4 ∨ x.length = 8) :
    ∃ t, Mirrored x t ∧ t.length = x.length ∧ natFrom P bo' t = natFrom P bo x := by
  obtain ⟨t, h1, h2⟩ := digits_turn (P := P) (bo := bo) (bo' := bo') x
  refine ⟨t, ?_, ?_, congrArg natOf h2⟩
  · rcases h1 with rfl | rfl
    · exact mirrored_refl _
    · exact mirrored_turn hl
  · rcases h1 with rfl | rfl
    · rfl
    · exact List.length_reverse

/-- A number of so many bytes. -/
def header (P : Platform) (bo : ByteOrder) (w : Nat) (b : Bytes) : Parsed (Nat × Nat) :=
  if w ≤ b.length then .ok (natFrom P bo (b.take w), w) else .err .structError

theorem turns_header {w : Nat} (hw : w = 1 ∨ w = 2 ∨ w = 4 ∨ w = 8) : Turns (header P bo w) (header P bo' w) := by
  intro x y v h
  unfold header at h
  split at h
  · simp only [Parsed.ok.injEq, Prod.mk.injEq] at h
    obtain ⟨rfl, rfl⟩ := h
    obtain ⟨t, h1, h2, h3⟩ := number_turn (P := P) (bo := bo) (bo' := bo') x hw
    refine ⟨t, h1, fun y' => ?_⟩
    unfold header
    rw [if_pos (by rw [List.length_append]; omega), ← h2, List.take_left, h3, h2, List.take_left]
  · cases h

theorem turns_takes {w : Nat} (hw : w = 1 ∨ w = 2 ∨ w = 4 ∨ w = 8) {f f' : Bytes → Val}
    (hf : ∀ x t : Bytes, t.length = x.length → natFrom P bo' t = natFrom P bo x → f' t = f x) : Turns (takes w · f) (takes w · f') := by
  intro x y v h
  simp only [takes] at h ⊢
  split at h
  · simp only [Parsed.ok.injEq, Prod.mk.injEq] at h
    obtain ⟨rfl, rfl⟩ := h
    obtain ⟨t, h1, h2, h3⟩ := number_turn (P := P) (bo := bo) (bo' := bo') x hw
    refine ⟨t, h1, fun y' => ?_⟩
    rw [if_pos (by rw [List.length_append]; omega), ← h2, List.take_left, hf x t h2 h3, h2, List.take_left]
  · cases h

theorem list_form {w : Nat} {g : Bytes → Parsed (Val × Nat)} (b : Bytes) :
    (if w ≤ b.length then readMany g (natFrom P bo (b.take w)) (b.drop w) >>= fun (vs, k) => .ok (Val.list vs, w + k) else .err .structError) =
      header P bo w b >>= fun (n, k) => readMany g n (b.drop k) >>= fun (vs, m) => .ok (Val.list vs, k + m) := by
  unfold header
  split
  · simp only [ok_bind]
  · rfl

theorem counted_form {w : Nat} (b : Bytes) :
    (if w ≤ b.length then
      .ok (.bytes ((b.drop w).take (natFrom P bo (b.take w))), w + natFrom P bo (b.take w)) else .err .structError : Parsed (Val × Nat)) =
      header P bo w b >>= fun (n, k) => (fun c : Bytes => (.ok (c.take n, n) : Parsed (Bytes × Nat))) (b.drop k) >>= fun (d, m) => .ok (Val.bytes d, k + m) := by
  unfold header
  split
  · simp only [ok_bind]
  · rfl

theorem sized_form {w w2 : Nat} {g : Bytes → Parsed (Val × Nat)} (b : Bytes) :
    (if w + w2 ≤ b.length then readMany g (natFrom P bo (b.take w)) (b.drop (w + w2)) >>= fun (vs, k) =>
      if k = natFrom P bo ((b.drop w).take w2) then .ok (Val.list vs, w + w2 + k) else .err .valueError
      else .err .structError) =
      header P bo w b >>= fun (n, k) => (fun c : Bytes => header P bo w2 c >>= fun (s, k2) =>
        (fun d : Bytes => readMany g n d >>= fun (vs, m) => (if m = s then .ok (Val.list vs) else .err .valueError : Parsed Val) >>= fun v => .ok (v, m)) (c.drop k2) >>=
          fun (v, m) => .ok (v, k2 + m)) (b.drop k) >>= fun (v, m) => .ok (v, k + m) := by
  unfold header
  by_cases h1 : w ≤ b.length
  · by_cases h2 : w + w2 ≤ b.length
    · rw [if_pos h1, if_pos h2]
      simp only [ok_bind]
      rw [if_pos (by rw [List.length_drop]; omega)]
      simp only [ok_bind, List.drop_drop, bind_assoc]
      congr 1
      funext ⟨vs, k⟩
      simp only
      split
      · simp only [ok_bind, Nat.add_assoc]
      · rfl
    · rw [if_pos h1, if_neg h2]
      simp only [ok_bind]
      rw [if_neg (by rw [List.length_drop]; omega)]
      rfl
  · rw [if_neg h1, if_neg (by omega)]
    rfl

theorem turns_take (n : Nat) : Turns (fun c : Bytes => (.ok (c.take n, n) : Parsed (Bytes × Nat))) (fun c => .ok (c.take n, n)) := by
  apply Turns.of_local
  intro x y y' v h
  simp only [Parsed.ok.injEq, Prod.mk.injEq] at h ⊢
  obtain ⟨rfl, rfl⟩ := h
  simp only [List.take_left, and_self]

section
variable {cls : ClassId → Bytes → Parsed (Val × Nat)} {S : ClassId → Prop}

mutual
theorem read_turns (hb : aligned bo = false) (hb' : aligned bo' = false) (hc : ∀ c, S c → Local (cls c)) (o : PObj) :
    ∀ f : Fmt, f.near S o.cls → Turns (f.read P bo cls o) (f.read P bo' cls o)
  | .int s w, _ => by
    have := turns_takes (P := P) (bo := bo) (bo' := bo') (size_cases w) (f := fun d => .int (intFrom P bo s d)) (f' := fun d => .int (intFrom P bo' s d))
      (fun x t h1 h2 => by simp only [intFrom, h1, h2])
    intro x y v h
    simp only [Fmt.read] at h ⊢
    exact this x y v h
  | .half, _ => by
    have := turns_takes (P := P) (bo := bo) (bo' := bo') (w := 2) (by omega) (f := fun d => .float (P.unpackF16 (UInt16.ofNat (natFrom P bo d))))
      (f' := fun d => .float (P.unpackF16 (UInt16.ofNat (natFrom P bo' d)))) (fun x t h1 h2 => by simp only [h2])
    intro x y v h
    simp only [Fmt.read] at h ⊢
    exact this x y v h
  | .single, _ => by
    have := turns_takes (P := P) (bo := bo) (bo' := bo') (w := 4) (by omega) (f := fun d => .float (P.unpackF32 (UInt32.ofNat (natFrom P bo d))))
      (f' := fun d => .float (P.unpackF32 (UInt32.ofNat (natFrom P bo' d)))) (fun x t h1 h2 => by simp only [h2])
    intro x y v h
    simp only [Fmt.read] at h ⊢
    exact this x y v h
  | .double, _ => by
    have := turns_takes (P := P) (bo := bo) (bo' := bo') (w := 8) (by omega) (f := fun d => .float (UInt64.ofNat (natFrom P bo d)))
      (f' := fun d => .float (UInt64.ofNat (natFrom P bo' d))) (fun x t h1 h2 => by simp only [h2])
    intro x y v h
    simp only [Fmt.read] at h ⊢
    exact this x y v h
  | .bool, hn | .chars _, hn | .pascal _, hn | .until _, hn | .net, hn | .obj _, hn | .me, hn => by
    have := Turns.of_local (read_local (P := P) (bo := bo) hc o _ hn)
    intro x y v h
    have := this x y v h
    simp only [Fmt.read] at this ⊢
    exact this
  | .via _ f _ _ make, hn => by
    simp only [Fmt.near] at hn
    have := Turns.bind (k := fun v _ => .ok (make v)) (read_turns hb hb' hc o f hn)
    intro x y v h
    have := this x y v
    simp only [ok_bind] at this
    simp only [Fmt.read] at h ⊢
    exact this h
  | .text f _ de, hn => by
    simp only [Fmt.near] at hn
    have := Turns.bind (k := fun (v : Val) _ => match v with
      | .bytes d => Parsed.ofE (de d) >>= fun s => .ok (Val.str (dropNuls s))
      | _ => .odd) (read_turns hb hb' hc o f hn)
    intro x y v h
    have := this x y v
    simp only [Fmt.read] at h ⊢
    have e : ∀ (bo : ByteOrder) (b : Bytes), (f.read P bo cls o b >>= fun (v, n) => (match v with
        | .bytes d => Parsed.ofE (de d) >>= fun s => .ok (.str (dropNuls s))
        | _ => .odd : Parsed Val) >>= fun w => .ok (w, n)) = f.read P bo cls o b >>= fun (v, n) => match v with
        | .bytes d => Parsed.ofE (de d) >>= fun s => .ok (.str (dropNuls s), n)
        | _ => .odd := by
      intro bo b
      cases f.read P bo cls o b with
      | ok p =>
        obtain ⟨v, n⟩ := p
        simp only [ok_bind]
        cases v <;> first | rfl | (simp only [bind_assoc, ok_bind])
      | err | deep | odd => rfl
    simp only [e] at this
    exact this h
  | .counted w, _ => by
    have := Turns.pair (turns_header (P := P) (bo := bo) (bo' := bo') (size_cases w)) turns_take (fun _ d => Val.bytes d)
    intro x y v h
    simp only [Fmt.read, counted_form] at h ⊢
    exact this x y v h
  | .rest, hn => by simp only [Fmt.near] at hn
  | .fixed n f, hn => by
    simp only [Fmt.near] at hn
    have := Turns.bind (k := fun vs _ => .ok (Val.list vs)) (turns_readMany (read_turns hb hb' hc o f hn) n)
    intro x y v h
    have := this x y v
    simp only [ok_bind] at this
    simp only [Fmt.read] at h ⊢
    exact this h
  | .list w f, hn => by
    simp only [Fmt.near] at hn
    have := Turns.pair (turns_header (P := P) (bo := bo) (bo' := bo') (size_cases w)) (fun n => turns_readMany (read_turns hb hb' hc o f hn) n) (fun _ vs => Val.list vs)
    intro x y v h
    simp only [Fmt.read, list_form] at h ⊢
    exact this x y v h
  | .sized w w2 f, hn => by
    simp only [Fmt.near] at hn
    have := Turns.pair (turns_header (P := P) (bo := bo) (bo' := bo') (size_cases w)) (fun n => Turns.pair (turns_header (P := P) (bo := bo) (bo' := bo') (size_cases w2))
      (fun s => Turns.bind (k := fun vs m => if m = s then .ok (Val.list vs) else .err .valueError) (turns_readMany (read_turns hb hb' hc o f hn) n)) (fun _ v => v)) (fun _ v => v)
    intro x y v h
    simp only [Fmt.read, gap_zero hb, gap_zero hb', Nat.add_zero, sized_form] at h ⊢
    exact this x y v h
  | .tup fs, hn => by
    simp only [Fmt.near] at hn
    have := Turns.bind (k := fun vs _ => .ok (Val.tup vs)) (reads_turns hb hb' hc o fs hn 0 0)
    intro x y v h
    have := this x y v
    simp only [ok_bind] at this
    simp only [Fmt.read] at h ⊢
    split at h
    · rename_i hf
      simp only [if_pos hf]
      exact this h
    · cases h
  | .choice _ _ ahead decider keys opts other, hn => by
    simp only [Fmt.near] at hn
    obtain ⟨rfl, h1, h2⟩ := hn
    intro x y v h
    simp only [Fmt.read] at h ⊢
    cases hd : decider o with
    | error e => rw [hd] at h; cases h
    | ok r =>
      rw [hd] at h
      simp only [Parsed.ofE, ok_bind] at h ⊢
      split at h
      · cases h
      · rename_i hh
        simp only [if_neg hh]
        split at h
        · exact readAt_turns hb hb' hc o opts h1 _ x y v h
        · exact readAt_turns hb hb' hc o other h2 _ x y v h
theorem reads_turns (hb : aligned bo = false) (hb' : aligned bo' = false) (hc : ∀ c, S c → Local (cls c)) (o : PObj) :
    ∀ fs : List Fmt, Fmt.allNear S o.cls fs → ∀ k k', Turns (Fmt.reads P bo cls o k fs) (Fmt.reads P bo' cls o k' fs)
  | [], _, k, k' => fun x y v h => by
    simp only [Fmt.reads, Parsed.ok.injEq, Prod.mk.injEq] at h
    obtain ⟨rfl, hl⟩ := h
    have : x = [] := List.length_eq_zero_iff.1 hl.symm
    subst this
    exact ⟨[], .nil, fun y' => by simp only [Fmt.reads, List.length_nil]⟩
  | f :: fs, hn, k, k' => by
    simp only [Fmt.allNear] at hn
    have := Turns.pair (read_turns hb hb' hc o f hn.1) (fun _ => reads_turns hb hb' hc o fs hn.2 (after bo k f.basic) (after bo' k' f.basic)) (fun v vs => v :: vs)
    intro x y v h
    simp only [Fmt.reads, gap_zero hb, gap_zero hb', Nat.zero_add, List.drop_zero] at h ⊢
    exact this x y v h
theorem readAt_turns (hb : aligned bo = false) (hb' : aligned bo' = false) (hc : ∀ c, S c → Local (cls c)) (o : PObj) :
    ∀ fs : List Fmt, Fmt.allNear S o.cls fs → ∀ k, Turns (Fmt.readAt P bo cls o fs k) (Fmt.readAt P bo' cls o fs k)
  | [], _, k => fun x y v h => by simp only [Fmt.readAt] at h; cases h
  | f :: fs, hn, 0 => by
    simp only [Fmt.allNear] at hn
    intro x y v h
    simp only [Fmt.readAt] at h ⊢
    exact read_turns hb hb' hc o f hn.1 x y v h
  | f :: fs, hn, k + 1 => by
    simp only [Fmt.allNear] at hn
    intro x y v h
    simp only [Fmt.readAt] at h ⊢
    exact readAt_turns hb hb' hc o fs hn.2 k x y v h
end

theorem readFields_turns (hb : aligned bo = false) (hb' : aligned bo' = false) (hc : ∀ c, S c → Local (cls c)) :
    ∀ (fs : List Field) (o : PObj), (∀ f ∈ fs, f.near S o.cls) → ∀ k k', Turns (readFields P bo cls o k fs) (readFields P bo' cls o k' fs)
  | [], o, _, k, k' => fun x y v h => by
    simp only [readFields, Parsed.ok.injEq, Prod.mk.injEq] at h
    obtain ⟨rfl, hl⟩ := h
    have : x = [] := List.length_eq_zero_iff.1 hl.symm
    subst this
    exact ⟨[], .nil, fun y' => by simp only [readFields, List.length_nil]⟩
  | .value a f :: fs, o, hn, k, k' => by
    have h1 := hn _ (List.mem_cons_self ..)
    simp only [Field.near] at h1
    have := Turns.pair (read_turns (P := P) hb hb' hc o f h1) (fun v => readFields_turns hb hb' hc fs (o.with a v)
      (fun g hg => hn g (List.mem_cons_of_mem _ hg)) (after bo k f.basic) (after bo' k' f.basic)) (fun v vs => v :: vs)
    intro x y v h
    simp only [readFields, gap_zero hb, gap_zero hb', Nat.zero_add, List.drop_zero] at h ⊢
    exact this x y v h
  | .pad a n :: fs, o, hn, k, k' => by
    have hl : Local fun b : Bytes => (if n ≤ b.length then .ok ((), n) else .err .structError : Parsed (Unit × Nat)) := by
      intro x y y' v h
      simp only at h ⊢
      split at h
      · simp only [Parsed.ok.injEq, Prod.mk.injEq] at h
        rw [if_pos (by rw [List.length_append]; omega), h.2]
      · cases h
    have := Turns.pair (Turns.of_local hl) (fun _ => readFields_turns hb hb' hc fs o (fun g hg => hn g (List.mem_cons_of_mem _ hg)) (k + n) (k' + n)) (fun _ vs => vs)
    have e : ∀ (bo : ByteOrder) (k : Nat) (b : Bytes), (if n ≤ b.length then readFields P bo cls o k fs (b.drop n) >>= fun (vs, m) => .ok (vs, n + m) else .err .structError) =
        (if n ≤ b.length then .ok ((), n) else .err .structError : Parsed (Unit × Nat)) >>= fun (_, j) => readFields P bo cls o k fs (b.drop j) >>= fun (vs, m) => .ok (vs, j + m) := by
      intro bo k b
      split
      · simp only [ok_bind]
      · rfl
    intro x y v h
    simp only [readFields, e] at h ⊢
    exact this x y v h
  | .when a c f d :: fs, o, hn, k, k' => by
    have h1 := hn _ (List.mem_cons_self ..)
    simp only [Field.near] at h1
    have h2 := Turns.pair (read_turns (P := P) hb hb' hc o f h1) (fun v => readFields_turns hb hb' hc fs (o.with a v)
      (fun g hg => hn g (List.mem_cons_of_mem _ hg)) 0 0) (fun v vs => v :: vs)
    have h3 := Turns.bind (k := fun vs _ => .ok (d :: vs)) (readFields_turns hb hb' hc fs (o.with a d) (fun g hg => hn g (List.mem_cons_of_mem _ hg)) 0 0)
    simp only [ok_bind] at h3
    intro x y v h
    simp only [readFields] at h ⊢
    cases hd : c o with
    | error e => rw [hd] at h; cases h
    | ok r =>
      rw [hd] at h
      simp only [Parsed.ofE, ok_bind] at h ⊢
      split at h
      · cases h
      · rename_i hh
        simp only [if_neg hh]
        split at h
        · exact h2 x y v h
        · exact h3 x y v h
        · cases h

end

end Verif.Mirrors
