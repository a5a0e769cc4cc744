import Verif.Spec.Spans
import Verif.Props.Strings

/-!
The number of bytes that is written or read is within the limits of the format.
-/
namespace Verif.Spans
open Spec

variable {P : Platform} {B : ClassId → Span}

theorem has_exact (n : Nat) : (Span.exact n).Has n := ⟨Nat.le_refl _, fun h e => by cases e; exact Nat.le_refl _⟩

theorem has_any (n : Nat) : Span.any.Has n := ⟨Nat.zero_le _, nofun⟩

theorem has_plus {s t : Span} {a b : Nat} (h1 : s.Has a) (h2 : t.Has b) : (s.plus t).Has (a + b) := by
  refine ⟨Nat.add_le_add h1.1 h2.1, fun h e => ?_⟩
  unfold Span.plus at e
  cases hs : s.hi with
  | none => rw [hs] at e; cases e
  | some x =>
    cases ht : t.hi with
    | none => rw [hs, ht] at e; cases e
    | some y =>
      rw [hs, ht] at e
      cases e
      exact Nat.add_le_add (h1.2 _ hs) (h2.2 _ ht)

theorem has_upTo {s : Span} {a b : Nat} (h : s.Has a) (hb : b ≤ a) : s.upTo.Has b := ⟨Nat.zero_le _, fun _ e => Nat.le_trans hb (h.2 _ e)⟩

theorem has_upTo_zero (s : Span) : s.upTo.Has 0 := ⟨Nat.zero_le _, fun _ _ => Nat.zero_le _⟩

theorem has_or_left {s t : Span} {a : Nat} (h : s.Has a) : (s.or t).Has a := by
  refine ⟨Nat.le_trans (Nat.min_le_left ..) h.1, fun _ e => ?_⟩
  unfold Span.or at e
  cases hs : s.hi with
  | none => rw [hs] at e; cases e
  | some x =>
    cases ht : t.hi with
    | none => rw [hs, ht] at e; cases e
    | some y => rw [hs, ht] at e; cases e; exact Nat.le_trans (h.2 _ hs) (Nat.le_max_left ..)

theorem has_or_right {s t : Span} {a : Nat} (h : t.Has a) : (s.or t).Has a := by
  refine ⟨Nat.le_trans (Nat.min_le_right ..) h.1, fun _ e => ?_⟩
  unfold Span.or at e
  cases hs : s.hi with
  | none => rw [hs] at e; cases e
  | some x =>
    cases ht : t.hi with
    | none => rw [hs, ht] at e; cases e
    | some y => rw [hs, ht] at e; cases e; exact Nat.le_trans (h.2 _ ht) (Nat.le_max_right ..)

theorem either_left {x y : Option Span} {s : Span} {a : Nat} (hx : x = some s) (h : s.Has a) : ∃ t, Span.either x y = some t ∧ t.Has a := by
  subst hx
  cases y with
  | none => exact ⟨s, rfl, h⟩
  | some t => exact ⟨_, rfl, has_or_left h⟩

theorem either_right {x y : Option Span} {s : Span} {a : Nat} (hy : y = some s) (h : s.Has a) : ∃ t, Span.either x y = some t ∧ t.Has a := by
  subst hy
  cases x with
  | none => exact ⟨s, rfl, h⟩
  | some t => exact ⟨_, rfl, has_or_right h⟩

theorem has_getD {x : Option Span} {a : Nat} (h : ∃ t, x = some t ∧ t.Has a) : (x.getD .any).Has a := by
  obtain ⟨t, rfl, h⟩ := h
  exact h

theorem has_within {s t : Span} {a : Nat} (hw : s.Within t) (h : s.Has a) : t.Has a := by
  refine ⟨Nat.le_trans hw.1 h.1, fun x e => ?_⟩
  obtain ⟨y, e', hy⟩ := hw.2 x e
  exact Nat.le_trans (h.2 _ e') hy

theorem has_times_zero (s : Span) : (s.times 0).Has 0 := ⟨by simp [Span.times], fun h e => by simp [Span.times] at e; omega⟩

theorem has_times_succ {s : Span} {n a b : Nat} (h1 : s.Has a) (h2 : (s.times n).Has b) : (s.times (n + 1)).Has (a + b) := by
  refine ⟨?_, fun h e => ?_⟩
  · have := h2.1
    have := h1.1
    simp only [Span.times] at *
    rw [Nat.succ_mul]
    omega
  · simp only [Span.times, Nat.succ_ne_zero, if_false] at e
    cases hs : s.hi with
    | none => rw [hs] at e; cases e
    | some x =>
      rw [hs] at e
      cases e
      have h3 := h1.2 _ hs
      have h4 : b ≤ n * x := by
        by_cases hn : n = 0
        · subst hn
          have := h2.2 0 (by simp [Span.times])
          omega
        · exact h2.2 _ (by simp only [Span.times, if_neg hn, hs, Option.map_some])
      show a + b ≤ (n + 1) * x
      rw [Nat.succ_mul]
      omega

theorem has_times_le {s : Span} {n m a : Nat} (h : (s.times n).Has a) (hn : n ≤ m) : (s.times m).upTo.Has a := by
  refine ⟨Nat.zero_le _, fun x e => ?_⟩
  by_cases hm : m = 0
  · obtain rfl : n = 0 := by omega
    have := h.2 0 (by simp [Span.times])
    omega
  · simp only [Span.upTo, Span.times, if_neg hm] at e
    cases hs : s.hi with
    | none => rw [hs] at e; cases e
    | some y =>
      rw [hs] at e
      cases e
      by_cases hn0 : n = 0
      · have := h.2 0 (by simp [Span.times, hn0])
        omega
      · have := h.2 (n * y) (by simp only [Span.times, if_neg hn0, hs, Option.map_some])
        exact Nat.le_trans this (Nat.mul_le_mul_right _ hn)

theorem has_gather {s : Span} {f : Val → Option Bytes} (hf : ∀ v b, f v = some b → s.Has b.length) : ∀ {vs : List Val} {b : Bytes}, gather f vs = some b →
    (s.times vs.length).Has b.length
  | [], b, h => by cases h; exact has_times_zero s
  | v :: vs, b, h => by
    simp only [gather] at h
    split at h
    · rename_i x y hx hy
      cases h
      rw [List.length_append]
      exact has_times_succ (hf _ _ hx) (has_gather hf hy)
    · cases h

theorem prefixed_length {bo : ByteOrder} {w : Size} {k : Nat} {b b' : Bytes} (h : prefixed P bo w k b = some b') : b'.length = w.bytes + b.length ∧ k ≤ w.limit - 1 := by
  unfold prefixed at h
  split at h
  · cases h
    rw [List.length_append, intBytes_length]
    exact ⟨rfl, by unfold Size.limit; omega⟩
  · cases h

theorem cut_length (n : Nat) (b : Bytes) : (cut n b).length = n := by
  unfold cut
  rw [List.length_append, List.length_take, List.length_replicate]
  omega

/-! ### What is written -/

mutual
theorem has_write {W : ClassId → Val → Option Bytes} (hW : ∀ c v b, W c v = some b → (B c).Has b.length) (o : PObj) :
    ∀ (f : Fmt) (bo : ByteOrder) (v : Val) (b : Bytes), f.good bo = true → f.write P bo W o v = some b → (f.span B o.cls bo).Has b.length
  | .int s w, bo, v, b, _, h => by
    simp only [Fmt.write] at h
    split at h
    · split at h
      · cases h; rw [intBytes_length]; exact has_exact _
      · cases h
    · cases h
  | .bool, bo, v, b, _, h => by
    simp only [Fmt.write] at h
    split at h
    · cases h; exact has_exact _
    · cases h
  | .half, bo, v, b, _, h => by
    simp only [Fmt.write] at h
    split at h
    · obtain ⟨u, _, rfl⟩ := Option.map_eq_some_iff.1 h
      rw [intBytes_length]; exact has_exact _
    · cases h
  | .single, bo, v, b, _, h => by
    simp only [Fmt.write] at h
    split at h
    · obtain ⟨u, _, rfl⟩ := Option.map_eq_some_iff.1 h
      rw [intBytes_length]; exact has_exact _
    · cases h
  | .double, bo, v, b, _, h => by
    simp only [Fmt.write] at h
    split at h
    · cases h; rw [intBytes_length]; exact has_exact _
    · cases h
  | .chars n, bo, v, b, _, h => by
    simp only [Fmt.write] at h
    split at h
    · rename_i d
      split at h
      · cases h
        rw [List.length_append, List.length_replicate, show d.length + (n - d.length) = n by omega]
        exact has_exact _
      · cases h
    · cases h
  | .pascal n, bo, v, b, _, h => by
    simp only [Fmt.write] at h
    split at h
    · rename_i d
      split at h
      · cases h
        rw [List.cons_append, List.length_cons, List.length_append, List.length_replicate, show d.length + (n - 1 - d.length) + 1 = n by omega]
        exact has_exact _
      · cases h
    · cases h
  | .via _ f _ _ _, bo, v, b, hg, h => by
    simp only [Fmt.good, Bool.and_eq_true] at hg
    exact has_write hW o f bo _ b hg.2 (by simpa only [Fmt.write] using h)
  | .counted w, bo, v, b, _, h => by
    simp only [Fmt.write] at h
    split at h
    · split at h
      · cases h
      · obtain ⟨h1, h2⟩ := prefixed_length h
        rw [h1]
        exact ⟨Nat.le_add_right .., fun x e => by cases e; exact Nat.add_le_add_left h2 _⟩
    · cases h
  | .until t, bo, v, b, _, h => by
    simp only [Fmt.write] at h
    split at h
    · split at h
      · cases h
      · cases h
        rw [List.length_append]
        exact ⟨Nat.le_add_left .., nofun⟩
    · cases h
  | .rest, bo, v, b, _, h => has_any _
  | .net, bo, v, b, _, h => by
    simp only [Fmt.write] at h
    split at h
    · rename_i d
      split at h
      · cases h
      · obtain ⟨l, hl, rfl⟩ := Option.map_eq_some_iff.1 h
        unfold netLength at hl
        rw [List.length_append]
        split at hl
        · cases hl
          exact ⟨Nat.le_add_right .., fun x e => by cases e; simp only [List.length_singleton]; omega⟩
        · split at hl
          · rename_i hk
            simp only [Bool.and_eq_true, decide_eq_true_eq] at hk
            cases hl
            exact ⟨by simp only [List.length_cons]; show 1 ≤ _; omega, fun x e => by cases e; simp only [List.length_cons, List.length_nil]; omega⟩
          · cases hl
    · cases h
  | .text f _ _, bo, v, b, hg, h => by
    simp only [Fmt.good, Bool.and_eq_true, decide_eq_true_eq] at hg
    obtain ⟨⟨rfl, -⟩, hg⟩ := hg
    simp only [Fmt.write] at h
    split at h
    · exact has_write hW o f _ _ b hg h
    · cases h
  | .fixed n item, bo, v, b, hg, h => by
    simp only [Fmt.good] at hg
    simp only [Fmt.write] at h
    split at h
    · split at h
      · rename_i hn
        subst hn
        exact has_gather (fun v b h => has_write hW o item bo v b hg h) h
      · cases h
    · cases h
  | .list w item, bo, v, b, hg, h => by
    simp only [Fmt.good, Bool.and_eq_true] at hg
    simp only [Fmt.write] at h
    split at h
    · split at h
      · rename_i hb
        obtain ⟨h1, h2⟩ := prefixed_length h
        rw [h1]
        exact has_plus (has_exact _) (has_times_le (has_gather (fun v b h => has_write hW o item bo v b hg.1 h) hb) h2)
      · cases h
    · cases h
  | .sized w w2 item, bo, v, b, hg, h => by
    simp only [Fmt.write] at h
    split at h
    · split at h
      · split at h
        · rename_i hb
          obtain ⟨h1, h2⟩ := prefixed_length h
          obtain ⟨h3, h4⟩ := prefixed_length hb
          rw [h1, List.length_append, List.length_replicate, h3, ← Nat.add_assoc, ← Nat.add_assoc]
          exact has_plus (has_exact _) ⟨Nat.zero_le _, fun x e => by cases e; exact h4⟩
        · cases h
      · cases h
    · cases h
  | .tup items, bo, v, b, hg, h => by
    simp only [Fmt.good, Bool.and_eq_true, decide_eq_true_eq] at hg
    obtain ⟨⟨⟨rfl, hg⟩, -⟩, -⟩ := hg
    simp only [Fmt.write] at h
    split at h
    · exact has_writes hW o items _ 0 _ b hg h
    · cases h
  | .obj c, bo, v, b, _, h => hW c v b h
  | .me, bo, v, b, _, h => hW _ v b h
  | .choice _ _ _ decider keys opts other, bo, v, b, hg, h => by
    simp only [Fmt.good, Bool.and_eq_true, decide_eq_true_eq] at hg
    obtain ⟨⟨⟨⟨rfl, ho⟩, hd⟩, -⟩, -⟩ := hg
    simp only [Fmt.write] at h
    split at h
    · split at h
      · obtain ⟨s, hs, h'⟩ := has_writeAt hW o opts _ _ b ho h
        exact has_getD (either_left hs h')
      · split at h
        · obtain ⟨s, hs, h'⟩ := has_writeAt hW o other _ _ b hd h
          exact has_getD (either_right hs h')
        · cases h
    · cases h
theorem has_writes {W : ClassId → Val → Option Bytes} (hW : ∀ c v b, W c v = some b → (B c).Has b.length) (o : PObj) :
    ∀ (fs : List Fmt) (bo : ByteOrder) (k : Nat) (vs : List Val) (b : Bytes), Fmt.goods bo fs = true → Fmt.writes P bo W o k fs vs = some b →
      (Fmt.spans B o.cls bo k fs).Has b.length
  | [], bo, k, [], b, _, h => by cases h; exact has_exact _
  | [], bo, k, _ :: _, b, _, h => by cases h
  | f :: fs, bo, k, [], b, _, h => by cases h
  | f :: fs, bo, k, v :: vs, b, hg, h => by
    simp only [Fmt.goods, Bool.and_eq_true] at hg
    simp only [Fmt.writes] at h
    split at h
    · rename_i hx hy
      cases h
      rw [List.append_assoc, List.length_append, List.length_append, List.length_replicate]
      exact has_plus (has_exact _) (has_plus (has_write hW o f bo v _ hg.1 hx) (has_writes hW o fs bo _ vs _ hg.2 hy))
    · cases h
theorem has_writeAt {W : ClassId → Val → Option Bytes} (hW : ∀ c v b, W c v = some b → (B c).Has b.length) (o : PObj) :
    ∀ (fs : List Fmt) (k : Nat) (v : Val) (b : Bytes), Fmt.goods .default fs = true → Fmt.writeAt P .default W o fs k v = some b →
      ∃ s, Fmt.among B o.cls fs = some s ∧ s.Has b.length
  | [], _, _, _, _, h => by cases h
  | f :: fs, 0, v, b, hg, h => by
    simp only [Fmt.goods, Bool.and_eq_true] at hg
    exact either_left rfl (has_write hW o f .default v b hg.1 h)
  | f :: fs, k + 1, v, b, hg, h => by
    simp only [Fmt.goods, Bool.and_eq_true] at hg
    obtain ⟨s, hs, h'⟩ := has_writeAt hW o fs k v b hg.2 h
    exact either_right hs h'
end

theorem has_writeFields {W : ClassId → Val → Option Bytes} (hW : ∀ c v b, W c v = some b → (B c).Has b.length) (o : PObj) (bo : ByteOrder) :
    ∀ (fs : List Field) (k : Nat) (vs : List Val) (b : Bytes), (∀ f ∈ fs, f.good bo = true) → writeFields P bo W o k fs vs = some b →
      (fieldsSpan B o.cls bo k fs).Has b.length
  | [], k, [], b, _, h => by cases h; exact has_exact _
  | [], k, _ :: _, b, _, h => by cases h
  | .value a f :: fs, k, [], b, _, h => by cases h
  | .when a c f d :: fs, k, [], b, _, h => by cases h
  | .value a f :: fs, k, v :: vs, b, hg, h => by
    have hg1 := hg _ (List.mem_cons_self ..)
    simp only [writeFields] at h
    split at h
    · rename_i hx hy
      cases h
      rw [List.append_assoc, List.length_append, List.length_append, List.length_replicate]
      exact has_plus (has_exact _) (has_plus (has_write hW o f bo v _ hg1 hx) (has_writeFields hW o bo fs _ vs _ (fun f hf => hg f (List.mem_cons_of_mem _ hf)) hy))
    · cases h
  | .pad a n :: fs, k, vs, b, hg, h => by
    unfold writeFields at h
    split at h
    · rename_i hy
      cases h
      rw [List.length_append, List.length_replicate]
      exact has_plus (has_exact _) (has_writeFields hW o bo fs _ vs _ (fun f hf => hg f (List.mem_cons_of_mem _ hf)) hy)
    · cases h
  | .when a c f d :: fs, k, v :: vs, b, hg, h => by
    have hg1 : f.good bo = true := by
      have := hg _ (List.mem_cons_self ..)
      simp only [Field.good, Bool.and_eq_true] at this
      exact this.1
    have ih := fun vs b h => has_writeFields hW o bo fs 0 vs b (fun f hf => hg f (List.mem_cons_of_mem _ hf)) h
    simp only [writeFields] at h
    split at h
    · split at h
      · rename_i hx hy
        cases h
        rw [List.length_append]
        exact has_plus (has_upTo (has_write hW o f bo v _ hg1 hx) (Nat.le_refl _)) (ih _ _ hy)
      · cases h
    · have h1 := has_plus (has_upTo_zero (f.span B o.cls bo)) (ih _ _ h)
      rwa [Nat.zero_add] at h1
    · cases h

theorem has_writeObj {docs : ClassId → Option ClassDoc} (hd : ∀ c d, docs c = some d → d.good = true) (hB : Limits docs B) :
    ∀ (k : Nat) (c : ClassId) (v : Val) (b : Bytes), writeObj P docs k c v = some b → (B c).Has b.length
  | 0, _, _, _, h => by cases h
  | k + 1, c, v, b, h => by
    simp only [writeObj] at h
    split at h
    · rename_i c' attrs d hc
      split at h
      · split at h
        · have hg := hd c d hc
          simp only [ClassDoc.good, Bool.and_eq_true, List.all_eq_true] at hg
          exact has_within (hB c d hc) (has_writeFields (fun c v b => has_writeObj hd hB k c v b) ⟨c, false, attrs⟩ d.byteOrder d.fields 0 _ b hg.1.1 h)
        · cases h
      · cases h
    · cases h

/-! ### What is stored: any values, in any byte order -/

mutual
theorem has_store {strict : Bool} {W : ClassId → Val → Option Bytes} (hW : ∀ c v b, W c v = some b → (B c).Has b.length) (o : PObj) :
    ∀ (f : Fmt) (bo : ByteOrder) (v : Val) (b : Bytes), f.store strict P bo W o v = some b → (f.span B o.cls bo).Has b.length
  | .int s w, bo, v, b, h => by
    simp only [Fmt.store] at h
    split at h
    · split at h
      · cases h; rw [intBytes_length]; exact has_exact _
      · cases h
    · cases h
  | .bool, bo, v, b, h => by
    simp only [Fmt.store] at h
    cases h; exact has_exact _
  | .half, bo, v, b, h => by
    simp only [Fmt.store] at h
    split at h
    · obtain ⟨u, _, rfl⟩ := Option.map_eq_some_iff.1 h
      rw [intBytes_length]; exact has_exact _
    · cases h
  | .single, bo, v, b, h => by
    simp only [Fmt.store] at h
    split at h
    · obtain ⟨u, _, rfl⟩ := Option.map_eq_some_iff.1 h
      rw [intBytes_length]; exact has_exact _
    · cases h
  | .double, bo, v, b, h => by
    simp only [Fmt.store] at h
    split at h
    · cases h; rw [intBytes_length]; exact has_exact _
    · cases h
  | .chars n, bo, v, b, h => by
    simp only [Fmt.store] at h
    obtain ⟨u, _, rfl⟩ := Option.map_eq_some_iff.1 h
    rw [cut_length]; exact has_exact _
  | .pascal n, bo, v, b, h => by
    simp only [Fmt.store] at h
    obtain ⟨u, _, rfl⟩ := Option.map_eq_some_iff.1 h
    rw [cut_length]; exact has_exact _
  | .via _ f _ _ _, bo, v, b, h => has_store hW o f bo _ b (by simpa only [Fmt.store] using h)
  | .counted w, bo, v, b, h => by
    simp only [Fmt.store] at h
    split at h
    · split at h
      · cases h
      · obtain ⟨h1, h2⟩ := prefixed_length h
        rw [h1]
        exact ⟨Nat.le_add_right .., fun x e => by cases e; exact Nat.add_le_add_left h2 _⟩
    · cases h
  | .until t, bo, v, b, h => by
    simp only [Fmt.store] at h
    obtain ⟨u, _, rfl⟩ := Option.map_eq_some_iff.1 h
    rw [List.length_append]
    exact ⟨Nat.le_add_left .., nofun⟩
  | .rest, bo, v, b, h => has_any _
  | .net, bo, v, b, h => by
    simp only [Fmt.store] at h
    split at h
    · rename_i d _
      split at h
      · cases h
      · obtain ⟨l, hl, rfl⟩ := Option.map_eq_some_iff.1 h
        unfold netPrefix at hl
        rw [List.length_append]
        split at hl
        · cases hl
          exact ⟨Nat.le_add_right .., fun x e => by cases e; simp only [List.length_singleton]; omega⟩
        · split at hl
          · cases hl
            rw [intBytes_length]
            exact ⟨by show 1 ≤ _; omega, fun x e => by cases e; omega⟩
          · cases hl
    · cases h
  | .text f _ _, bo, v, b, h => by
    simp only [Fmt.store] at h
    split at h
    · exact has_store hW o f _ _ b h
    · cases h
  | .fixed n item, bo, v, b, h => by
    simp only [Fmt.store] at h
    split at h
    · split at h
      · rename_i hn
        subst hn
        exact has_gather (fun v b h => has_store hW o item bo v b h) h
      · cases h
    · cases h
  | .list w item, bo, v, b, h => by
    simp only [Fmt.store] at h
    split at h
    · split at h
      · rename_i hb
        obtain ⟨h1, h2⟩ := prefixed_length h
        rw [h1]
        exact has_plus (has_exact _) (has_times_le (has_gather (fun v b h => has_store hW o item bo v b h) hb) h2)
      · cases h
    · cases h
  | .sized w w2 item, bo, v, b, h => by
    simp only [Fmt.store] at h
    split at h
    · split at h
      · split at h
        · rename_i hb
          obtain ⟨h1, h2⟩ := prefixed_length h
          obtain ⟨h3, h4⟩ := prefixed_length hb
          rw [h1, List.length_append, List.length_replicate, h3, ← Nat.add_assoc, ← Nat.add_assoc]
          exact has_plus (has_exact _) ⟨Nat.zero_le _, fun x e => by cases e; exact h4⟩
        · cases h
      · cases h
    · cases h
  | .tup items, bo, v, b, h => by
    simp only [Fmt.store] at h
    split at h
    · split at h
      · cases h
      · exact has_stores hW o items _ 0 _ b h
    · cases h
  | .obj c, bo, v, b, h => hW c v b h
  | .me, bo, v, b, h => hW _ v b h
  | .choice _ _ _ decider keys opts other, bo, v, b, h => by
    simp only [Fmt.store] at h
    split at h
    · split at h
      · obtain ⟨s, hs, h'⟩ := has_storeAt hW o opts _ _ b h
        exact has_getD (either_left hs h')
      · split at h
        · obtain ⟨s, hs, h'⟩ := has_storeAt hW o other _ _ b h
          exact has_getD (either_right hs h')
        · cases h
    · cases h
theorem has_stores {strict : Bool} {W : ClassId → Val → Option Bytes} (hW : ∀ c v b, W c v = some b → (B c).Has b.length) (o : PObj) :
    ∀ (fs : List Fmt) (bo : ByteOrder) (k : Nat) (vs : List Val) (b : Bytes), Fmt.stores strict P bo W o k fs vs = some b →
      (Fmt.spans B o.cls bo k fs).Has b.length
  | [], bo, k, _, b, h => by simp only [Fmt.stores] at h; cases h; exact has_exact _
  | f :: fs, bo, k, [], b, h => by cases h
  | f :: fs, bo, k, v :: vs, b, h => by
    simp only [Fmt.stores] at h
    split at h
    · rename_i hx hy
      cases h
      rw [List.append_assoc, List.length_append, List.length_append, List.length_replicate]
      exact has_plus (has_exact _) (has_plus (has_store hW o f bo v _ hx) (has_stores hW o fs bo _ vs _ hy))
    · cases h
theorem has_storeAt {strict : Bool} {W : ClassId → Val → Option Bytes} (hW : ∀ c v b, W c v = some b → (B c).Has b.length) (o : PObj) :
    ∀ (fs : List Fmt) (k : Nat) (v : Val) (b : Bytes), Fmt.storeAt strict P W o fs k v = some b →
      ∃ s, Fmt.among B o.cls fs = some s ∧ s.Has b.length
  | [], _, _, _, h => by cases h
  | f :: fs, 0, v, b, h => either_left rfl (has_store hW o f .default v b h)
  | f :: fs, k + 1, v, b, h => by
    obtain ⟨s, hs, h'⟩ := has_storeAt hW o fs k v b h
    exact either_right hs h'
end

theorem has_storeFields {strict : Bool} {W : ClassId → Val → Option Bytes} (hW : ∀ c v b, W c v = some b → (B c).Has b.length) (o : PObj) (bo : ByteOrder) :
    ∀ (fs : List Field) (k : Nat) (vs : List Val) (b : Bytes), storeFields strict P bo W o k fs vs = some b →
      (fieldsSpan B o.cls bo k fs).Has b.length
  | [], k, [], b, h => by cases h; exact has_exact _
  | [], k, _ :: _, b, h => by cases h
  | .value a f :: fs, k, [], b, h => by cases h
  | .when a c f d :: fs, k, [], b, h => by cases h
  | .value a f :: fs, k, v :: vs, b, h => by
    simp only [storeFields] at h
    split at h
    · rename_i hx hy
      cases h
      rw [List.append_assoc, List.length_append, List.length_append, List.length_replicate]
      exact has_plus (has_exact _) (has_plus (has_store hW o f bo v _ hx) (has_storeFields hW o bo fs _ vs _ hy))
    · cases h
  | .pad a n :: fs, k, vs, b, h => by
    unfold storeFields at h
    split at h
    · rename_i hy
      cases h
      rw [List.length_append, List.length_replicate]
      exact has_plus (has_exact _) (has_storeFields hW o bo fs _ vs _ hy)
    · cases h
  | .when a c f d :: fs, k, v :: vs, b, h => by
    have ih := fun vs b => has_storeFields (strict := strict) hW o bo fs 0 vs b
    simp only [storeFields] at h
    split at h
    · split at h
      · split at h
        · rename_i hx hy
          cases h
          rw [List.length_append]
          exact has_plus (has_upTo (has_store hW o f bo v _ hx) (Nat.le_refl _)) (ih _ _ hy)
        · cases h
      · have h1 := has_plus (has_upTo_zero (f.span B o.cls bo)) (ih _ _ h)
        rwa [Nat.zero_add] at h1
      · cases h
    · cases h

/-! ### What is read -/

/-- A number of bytes within the limits, and the least number of them is there. -/
def Took (s : Span) (b : Bytes) (n : Nat) : Prop := s.Has n ∧ s.lo ≤ b.length

theorem took_takes {n : Nat} {b : Bytes} {f : Bytes → Val} {v : Val} {m : Nat} (h : takes n b f = .ok (v, m)) : Took (.exact n) b m := by
  unfold takes at h
  split at h
  · rename_i hn
    cases h
    exact ⟨has_exact _, hn⟩
  · cases h

theorem Parsed.bind_ok {x : Parsed α} {f : α → Parsed β} {r : β} (h : (x >>= f) = .ok r) : ∃ a, x = .ok a ∧ f a = .ok r := by
  cases x with
  | ok a => exact ⟨a, rfl, h⟩
  | err => cases h
  | deep => cases h
  | odd => cases h

theorem took_plus {s t : Span} {b : Bytes} {n m : Nat} (h1 : Took s b n) (h2 : Took t (b.drop n) m) : Took (s.plus t) b (n + m) := by
  refine ⟨has_plus h1.1 h2.1, ?_⟩
  have := h1.2
  have := h1.1.1
  have := h2.2
  rw [List.length_drop] at this
  show s.lo + t.lo ≤ b.length
  omega

theorem took_many {s : Span} {f : Bytes → Parsed (Val × Nat)} (hf : ∀ b v n, f b = .ok (v, n) → Took s b n) :
    ∀ (n : Nat) {b : Bytes} {vs : List Val} {m : Nat}, readMany f n b = .ok (vs, m) → Took (s.times n) b m
  | 0, b, vs, m, h => by cases h; exact ⟨has_times_zero s, by simp [Span.times]⟩
  | n + 1, b, vs, m, h => by
    obtain ⟨⟨v, k⟩, h1, h⟩ := Parsed.bind_ok h
    obtain ⟨⟨vs', m'⟩, h2, h⟩ := Parsed.bind_ok h
    cases h
    have t1 := hf _ _ _ h1
    have t2 := took_many hf n h2
    refine ⟨has_times_succ t1.1 t2.1, ?_⟩
    have a1 := t1.2
    have a2 := t1.1.1
    have a3 := t2.2
    simp only [Span.times, List.length_drop] at a3 ⊢
    rw [Nat.succ_mul]
    omega

/-- Basic formats have at least one byte. -/
theorem basic_pos {bo : ByteOrder} {c : ClassId} : ∀ {f : Fmt} {x : Nat × Nat}, f.good bo = true → f.basic = some x → 0 < (f.span B c bo).lo
  | .int _ w, _, _, _ => by cases w <;> exact Nat.succ_pos _
  | .bool, _, _, _ => Nat.succ_pos _
  | .half, _, _, _ => Nat.succ_pos _
  | .single, _, _, _ => Nat.succ_pos _
  | .double, _, _, _ => Nat.succ_pos _
  | .chars n, _, h, _ => by simpa [Fmt.good, Fmt.span, Span.exact] using h
  | .pascal n, _, h, _ => by simpa [Fmt.good, Fmt.span, Span.exact] using h
  | .via _ f _ _ _, _, h, hb => by
    simp only [Fmt.good, Bool.and_eq_true] at h
    exact basic_pos (f := f) h.2 hb

/-- A format and the gap in front of it. -/
theorem took_gap {bo : ByteOrder} {c : ClassId} {k : Nat} {f : Fmt} {b : Bytes} {n : Nat} (hg : f.good bo = true)
    (h : Took (f.span B c bo) (b.drop (gap bo k f.basic)) n) : Took ((Span.exact (gap bo k f.basic)).plus (f.span B c bo)) b (gap bo k f.basic + n) := by
  refine ⟨has_plus (has_exact _) h.1, ?_⟩
  show gap bo k f.basic + (f.span B c bo).lo ≤ b.length
  have h2 := h.2
  rw [List.length_drop] at h2
  cases hb : f.basic with
  | none => rw [hb] at h2; simp only [gap] at h2 ⊢; omega
  | some x =>
    have := basic_pos (B := B) (c := c) hg hb
    rw [hb] at h2
    omega

theorem tookE_left {x y : Option Span} {s : Span} {b : Bytes} {n : Nat} (hx : x = some s) (h : Took s b n) :
    ∃ t, Span.either x y = some t ∧ Took t b n := by
  subst hx
  cases y with
  | none => exact ⟨s, rfl, h⟩
  | some t => exact ⟨_, rfl, has_or_left h.1, Nat.le_trans (Nat.min_le_left ..) h.2⟩

theorem tookE_right {x y : Option Span} {s : Span} {b : Bytes} {n : Nat} (hy : y = some s) (h : Took s b n) :
    ∃ t, Span.either x y = some t ∧ Took t b n := by
  subst hy
  cases x with
  | none => exact ⟨s, rfl, h⟩
  | some t => exact ⟨_, rfl, has_or_right h.1, Nat.le_trans (Nat.min_le_right ..) h.2⟩

theorem took_left {x y : Option Span} {s : Span} {b : Bytes} {n : Nat} (hx : x = some s) (h : Took s b n) : Took ((Span.either x y).getD .any) b n := by
  obtain ⟨t, e, h⟩ := tookE_left (y := y) hx h
  rw [e]; exact h

theorem took_right {x y : Option Span} {s : Span} {b : Bytes} {n : Nat} (hy : y = some s) (h : Took s b n) : Took ((Span.either x y).getD .any) b n := by
  obtain ⟨t, e, h⟩ := tookE_right (x := x) hy h
  rw [e]; exact h

theorem plus_assoc (s t u : Span) : s.plus (t.plus u) = (s.plus t).plus u := by
  unfold Span.plus
  cases s.hi <;> cases t.hi <;> cases u.hi <;> simp [Nat.add_assoc]

theorem natOf_lt : ∀ (b : Bytes) (a : Nat), b.foldl (fun n (x : Byte) => 256 * n + x.toNat) a < (a + 1) * 256 ^ b.length
  | [], a => by simp
  | x :: b, a => by
    have h := natOf_lt b (256 * a + x.toNat)
    have hx := x.toNat_lt
    refine Nat.lt_of_lt_of_le h ?_
    rw [List.length_cons, Nat.pow_succ, Nat.mul_comm (256 ^ _) 256, ← Nat.mul_assoc]
    exact Nat.mul_le_mul_right _ (by omega)

theorem natFrom_le (bo : ByteOrder) (w : Size) {b : Bytes} : natFrom P bo (b.take w.bytes) ≤ w.limit - 1 := by
  have h : ∀ d : Bytes, natOf d ≤ 256 ^ d.length - 1 := fun d => by
    have h1 := natOf_lt d 0
    rw [Nat.zero_add, Nat.one_mul] at h1
    exact Nat.le_sub_one_of_lt h1
  have hl : (bigFirst P bo (b.take w.bytes)).length = (b.take w.bytes).length := by
    unfold bigFirst
    cases bo <;> simp only [List.length_reverse] <;> split <;> simp
  have := h (bigFirst P bo (b.take w.bytes))
  rw [hl, List.length_take] at this
  unfold natFrom Size.limit
  refine Nat.le_trans this (Nat.sub_le_sub_right (Nat.pow_le_pow_right (by omega) (Nat.min_le_left ..)) 1)

mutual
theorem took_read {R : ClassId → Bytes → Parsed (Val × Nat)} (hR : ∀ c b v n, R c b = .ok (v, n) → Took (B c) b n) (o : PObj) :
    ∀ (f : Fmt) (bo : ByteOrder) (b : Bytes) (v : Val) (n : Nat), f.good bo = true → f.read P bo R o b = .ok (v, n) → Took (f.span B o.cls bo) b n
  | .int s w, bo, b, v, n, _, h => took_takes h
  | .bool, bo, b, v, n, _, h => took_takes h
  | .half, bo, b, v, n, _, h => took_takes h
  | .single, bo, b, v, n, _, h => took_takes h
  | .double, bo, b, v, n, _, h => took_takes h
  | .chars m, bo, b, v, n, _, h => took_takes h
  | .pascal m, bo, b, v, n, _, h => took_takes h
  | .via _ f _ _ mk, bo, b, v, n, hg, h => by
    simp only [Fmt.good, Bool.and_eq_true] at hg
    simp only [Fmt.read] at h
    obtain ⟨⟨v', n'⟩, h1, h⟩ := Parsed.bind_ok h
    cases h
    exact took_read hR o f bo b _ _ hg.2 h1
  | .counted w, bo, b, v, n, _, h => by
    simp only [Fmt.read] at h
    split at h
    · rename_i hl
      cases h
      exact ⟨⟨Nat.le_add_right .., fun x e => by cases e; exact Nat.add_le_add_left (natFrom_le bo w) _⟩, hl⟩
    · cases h
  | .until t, bo, b, v, n, _, h => by
    simp only [Fmt.read] at h
    split at h
    · rename_i ht
      cases h
      refine ⟨⟨Nat.le_add_left .., nofun⟩, ?_⟩
      show 1 ≤ b.length
      exact List.length_pos_of_mem ht
    · cases h
  | .rest, bo, b, v, n, _, h => ⟨has_any _, Nat.zero_le _⟩
  | .net, bo, b, v, n, _, h => by
    cases b with
    | nil => simp only [Fmt.read] at h; cases h
    | cons c b =>
      simp only [Fmt.read] at h
      have hlen : 1 ≤ (c :: b).length := Nat.succ_pos _
      split at h
      · cases h
        exact ⟨⟨Nat.le_add_right .., fun x e => by cases e; omega⟩, hlen⟩
      · split at h
        · cases h
        · rename_i c' b'
          split at h
          · cases h
            have h1 := c.toNat_lt
            have h2 := c'.toNat_lt
            refine ⟨⟨?_, fun x e => by cases e; omega⟩, hlen⟩
            show 1 ≤ _
            omega
          · cases h
  | .text f _ de, bo, b, v, n, hg, h => by
    simp only [Fmt.good, Bool.and_eq_true, decide_eq_true_eq] at hg
    obtain ⟨⟨rfl, -⟩, hg⟩ := hg
    simp only [Fmt.read] at h
    obtain ⟨⟨v', n'⟩, h1, h⟩ := Parsed.bind_ok h
    simp only at h
    split at h
    · obtain ⟨s, _, h⟩ := Parsed.bind_ok h
      cases h
      exact took_read hR o f _ b _ _ hg h1
    · cases h
  | .fixed m item, bo, b, v, n, hg, h => by
    simp only [Fmt.good] at hg
    simp only [Fmt.read] at h
    obtain ⟨⟨vs, k⟩, h1, h⟩ := Parsed.bind_ok h
    cases h
    exact took_many (fun b v n h => took_read hR o item bo b v n hg h) m h1
  | .list w item, bo, b, v, n, hg, h => by
    simp only [Fmt.good, Bool.and_eq_true] at hg
    simp only [Fmt.read] at h
    split at h
    · rename_i hl
      obtain ⟨⟨vs, k⟩, h1, h⟩ := Parsed.bind_ok h
      cases h
      have t := took_many (fun b v n h => took_read hR o item bo b v n hg.1 h) _ h1
      exact ⟨has_plus (has_exact _) (has_times_le t.1 (natFrom_le bo w)), hl⟩
    · cases h
  | .sized w w2 item, bo, b, v, n, hg, h => by
    simp only [Fmt.read] at h
    split at h
    · rename_i hl
      obtain ⟨⟨vs, k⟩, h1, h⟩ := Parsed.bind_ok h
      simp only at h
      split at h
      · rename_i hk
        cases h
        refine ⟨has_plus (has_exact _) ⟨Nat.zero_le _, fun x e => ?_⟩, hl⟩
        cases e
        rw [hk]
        exact natFrom_le bo w2
      · cases h
    · cases h
  | .tup items, bo, b, v, n, hg, h => by
    simp only [Fmt.good, Bool.and_eq_true, decide_eq_true_eq] at hg
    obtain ⟨⟨⟨rfl, hg⟩, -⟩, -⟩ := hg
    simp only [Fmt.read] at h
    split at h
    · obtain ⟨⟨vs, k⟩, h1, h⟩ := Parsed.bind_ok h
      cases h
      exact took_reads hR o items _ 0 b _ _ hg h1
    · cases h
  | .obj c, bo, b, v, n, _, h => hR c b v n h
  | .me, bo, b, v, n, _, h => hR _ b v n h
  | .choice i as ahead decider keys opts other, bo, b, v, n, hg, h => by
    simp only [Fmt.good, Bool.and_eq_true, decide_eq_true_eq] at hg
    obtain ⟨⟨⟨⟨rfl, ho⟩, hd⟩, -⟩, -⟩ := hg
    have tail : ∀ r : Val, (if ¬ r.hashable = true then Parsed.err .typeError
        else match keyAt keys r with
          | some k => Fmt.readAt P .default R o opts k b
          | none => Fmt.readAt P .default R o other 0 b) = .ok (v, n) → Took (Fmt.span B o.cls .default (.choice i as ahead decider keys opts other)) b n := by
      intro r h
      split at h
      · cases h
      · split at h
        · obtain ⟨s, hs, h'⟩ := took_readAt hR o opts _ b v n ho h
          exact took_left hs h'
        · obtain ⟨s, hs, h'⟩ := took_readAt hR o other _ b v n hd h
          exact took_right hs h'
    cases ahead with
    | none =>
      simp only [Fmt.read] at h
      obtain ⟨r, _, h⟩ := Parsed.bind_ok h
      exact tail r h
    | some a =>
      simp only [Fmt.read] at h
      split at h
      · obtain ⟨r, _, h⟩ := Parsed.bind_ok h
        exact tail r h
      · cases h
theorem took_reads {R : ClassId → Bytes → Parsed (Val × Nat)} (hR : ∀ c b v n, R c b = .ok (v, n) → Took (B c) b n) (o : PObj) :
    ∀ (fs : List Fmt) (bo : ByteOrder) (k : Nat) (b : Bytes) (vs : List Val) (n : Nat), Fmt.goods bo fs = true → Fmt.reads P bo R o k fs b = .ok (vs, n) →
      Took (Fmt.spans B o.cls bo k fs) b n
  | [], bo, k, b, vs, n, _, h => by cases h; exact ⟨has_exact _, Nat.zero_le _⟩
  | f :: fs, bo, k, b, vs, n, hg, h => by
    simp only [Fmt.goods, Bool.and_eq_true] at hg
    simp only [Fmt.reads] at h
    obtain ⟨⟨v, m⟩, h1, h⟩ := Parsed.bind_ok h
    obtain ⟨⟨vs', m'⟩, h2, h⟩ := Parsed.bind_ok h
    cases h
    have t1 := took_gap hg.1 (took_read hR o f bo _ v m hg.1 h1)
    have t2 := took_reads hR o fs bo _ _ vs' m' hg.2 h2
    rw [Fmt.spans, plus_assoc]
    exact took_plus t1 t2
theorem took_readAt {R : ClassId → Bytes → Parsed (Val × Nat)} (hR : ∀ c b v n, R c b = .ok (v, n) → Took (B c) b n) (o : PObj) :
    ∀ (fs : List Fmt) (k : Nat) (b : Bytes) (v : Val) (n : Nat), Fmt.goods .default fs = true → Fmt.readAt P .default R o fs k b = .ok (v, n) →
      ∃ s, Fmt.among B o.cls fs = some s ∧ Took s b n
  | [], _, _, _, _, _, h => by cases h
  | f :: fs, 0, b, v, n, hg, h => by
    simp only [Fmt.goods, Bool.and_eq_true] at hg
    exact tookE_left rfl (took_read hR o f .default b v n hg.1 h)
  | f :: fs, k + 1, b, v, n, hg, h => by
    simp only [Fmt.goods, Bool.and_eq_true] at hg
    obtain ⟨s, hs, h'⟩ := took_readAt hR o fs k b v n hg.2 h
    exact tookE_right hs h'
end

theorem took_readFields {R : ClassId → Bytes → Parsed (Val × Nat)} (hR : ∀ c b v n, R c b = .ok (v, n) → Took (B c) b n) (bo : ByteOrder) :
    ∀ (fs : List Field) (o : PObj) (k : Nat) (b : Bytes) (vs : List Val) (n : Nat), (∀ f ∈ fs, f.good bo = true) → readFields P bo R o k fs b = .ok (vs, n) →
      Took (fieldsSpan B o.cls bo k fs) b n
  | [], o, k, b, vs, n, _, h => by cases h; exact ⟨has_exact _, Nat.zero_le _⟩
  | .value a f :: fs, o, k, b, vs, n, hg, h => by
    have hg1 := hg _ (List.mem_cons_self ..)
    simp only [readFields] at h
    obtain ⟨⟨v, m⟩, h1, h⟩ := Parsed.bind_ok h
    obtain ⟨⟨vs', m'⟩, h2, h⟩ := Parsed.bind_ok h
    cases h
    have t1 := took_gap hg1 (took_read hR o f bo _ v m hg1 h1)
    have t2 := took_readFields hR bo fs (o.with a v) _ _ vs' m' (fun f hf => hg f (List.mem_cons_of_mem _ hf)) h2
    rw [fieldsSpan, plus_assoc]
    exact took_plus t1 t2
  | .pad a m :: fs, o, k, b, vs, n, hg, h => by
    simp only [readFields] at h
    split at h
    · rename_i hl
      obtain ⟨⟨vs', m'⟩, h2, h⟩ := Parsed.bind_ok h
      cases h
      exact took_plus ⟨has_exact _, hl⟩ (took_readFields hR bo fs o _ _ vs' m' (fun f hf => hg f (List.mem_cons_of_mem _ hf)) h2)
    · cases h
  | .when a c f d :: fs, o, k, b, vs, n, hg, h => by
    have hg1 : f.good bo = true := by
      have := hg _ (List.mem_cons_self ..)
      simp only [Field.good, Bool.and_eq_true] at this
      exact this.1
    simp only [readFields] at h
    obtain ⟨r, _, h⟩ := Parsed.bind_ok h
    split at h
    · cases h
    · split at h
      · obtain ⟨⟨v, m⟩, h1, h⟩ := Parsed.bind_ok h
        obtain ⟨⟨vs', m'⟩, h2, h⟩ := Parsed.bind_ok h
        cases h
        have t1 := took_read hR o f bo _ v m hg1 h1
        exact took_plus (s := (f.span B o.cls bo).upTo) ⟨has_upTo t1.1 (Nat.le_refl _), Nat.zero_le _⟩
          (took_readFields hR bo fs (o.with a v) _ _ vs' m' (fun f hf => hg f (List.mem_cons_of_mem _ hf)) h2)
      · obtain ⟨⟨vs', m'⟩, h2, h⟩ := Parsed.bind_ok h
        cases h
        have t := took_plus (s := (f.span B o.cls bo).upTo) (b := b) (n := 0) ⟨has_upTo_zero _, Nat.zero_le _⟩
          (took_readFields hR bo fs (o.with a d) 0 b vs' m' (fun f hf => hg f (List.mem_cons_of_mem _ hf)) h2)
        rwa [Nat.zero_add] at t
      · cases h

theorem took_readObj {docs : ClassId → Option ClassDoc} (hd : ∀ c d, docs c = some d → d.good = true) (hB : Limits docs B) :
    ∀ (k : Nat) (c : ClassId) (b : Bytes) (v : Val) (n : Nat), readObj P docs k c b = .ok (v, n) → Took (B c) b n
  | 0, _, _, _, _, h => by cases h
  | k + 1, c, b, v, n, h => by
    simp only [readObj] at h
    split at h
    · cases h
    · rename_i d hc
      split at h
      · cases h
      · obtain ⟨⟨vs', m'⟩, h2, h⟩ := Parsed.bind_ok h
        cases h
        have hg := hd c d hc
        simp only [ClassDoc.good, Bool.and_eq_true, List.all_eq_true] at hg
        have t := took_readFields (fun c b v n => took_readObj hd hB k c b v n) d.byteOrder d.fields ⟨c, true, []⟩ 0 b vs' m' hg.1.1 h2
        exact ⟨has_within (hB c d hc) t.1, Nat.le_trans (hB c d hc).1 t.2⟩

end Verif.Spans
