import Verif.Proofs.ParseLeaf
import Verif.Proofs.ChoiceLemmas
/-
Lemmas for the parser of documented formats: every format.
-/
namespace Verif
open Spec Sem

variable {bo : ByteOrder} {cf : ClassId → Bool} {env : Env} {k : Nat} {upd : Upd}

/-- A sum of fields is read as the fields are. -/
theorem whole_parses {s : Ser} {ss : List Ser} {b : Bytes} {r : Parsed (List Val × Nat)} {p : PObj} (hm : Merge (SumIn bo) ss (parts s))
    (hn : ∀ x ∈ ss, x ≠ .null) (hna : ∀ st, .struct st ∈ ss → Sure st) (hap : Apart (parts s)) (hs : Simple s ∨ ∃ id xs, s = .compound id xs)
    (hu : UpdSeq upd) (h : PL env k upd p 0 0 ss b r) :
    r = .odd ∨ (∃ e, preU s p = .error e ∧ r = .err e) ∨ ∃ s2 q2, preU s p = .ok (s2, q2) ∧
      Ag k (fun _ : Unit => True) (fun _ => DecIs) (fun _ n => dec env n upd s2 q2 (.buf b)) r ∧
      (Simple s → s2.isLazy = false ∧ Parses env k s2 q2 b r) := by
  have hk := pl_merge hu hm hn hna h
  have hna := sure_merge hm hna
  have key : ∀ {s2 : Ser} {q2 : Option PObj} {r : Parsed (List Val × Nat)}, Parses env k s2 q2 b r →
      Ag k (fun _ : Unit => True) (fun _ => DecIs) (fun _ n => dec env n upd s2 q2 (.buf b)) r :=
    fun h => Ag.comap (T := fun _ : Unit => True) (fun _ => upd) (fun _ _ => trivial) h
  have nil : ∀ {r1 rest : Parsed (List Val × Nat)}, (∀ vs n, r1 = .ok (vs, n) → rest = .ok ([], 0)) → (r1 >>= rest.behind) = r1 := by
    intro r1 rest h
    cases r1 with
    | ok x =>
      have := h x.1 x.2 rfl
      subst this
      simp [Bind.bind, Parsed.bind, Parsed.behind]
    | err => rfl
    | deep => rfl
    | odd => rfl
  rcases hs with hs | ⟨id, xs, rfl⟩
  · rcases parts_simple hs with ⟨hp, rfl⟩ | hp
    · rw [hp] at hk
      cases hk
      have : Parses env k .null none b (.ok ([], 0)) := .leaf (fun n u => rfl) ⟨rfl, rfl⟩
      exact .inr (.inr ⟨.null, none, rfl, key this, fun _ => ⟨rfl, this⟩⟩)
    · rw [hp] at hk hna
      rcases isStruct_dec s with ⟨st, rfl⟩ | hst
      · obtain ⟨rest, rfl, h2⟩ := hk
        rw [nil (fun vs n e => (h2 vs n e).elim fun p' h => h.2)]
        have := parses_struct (env := env) (k := k) (hna st (by simp)) (q := none) (b := b)
        exact .inr (.inr ⟨_, _, rfl, key this, fun _ => ⟨rfl, this⟩⟩)
      · rw [PL.part hst] at hk
        rcases hk with rfl | hk | ⟨s', q, r1, rest, e1, e2, e3, e4, rfl, e6⟩
        · exact .inl rfl
        · exact .inr (.inl hk)
        · rw [nil (fun vs n e => (e6 vs n e).elim fun p' h => h.2)]
          exact .inr (.inr ⟨s', q, e1, key e4, fun _ => ⟨e3, e4⟩⟩)
  · simp only [parts] at hk hap hna
    refine .inr (.inr ?_)
    by_cases hnp : needsPreprocess xs = true
    · refine ⟨.specialized id p xs, none, by simp [preU, pre, hnp], ?_, (by intro h; cases h)⟩
      have := pl_spec (b0 := b) (size := 0) hap hna (.inl rfl) hk
      have := (this.comap (T := fun _ : Unit => True) (fun _ => 0) (fun _ _ => trivial)).weaken (M' := fun _ => DecIs)
        (fun _ _ a x h => ⟨h.1, by rw [h.2, Nat.zero_add]⟩)
      exact this.step (fun _ _ => rfl) (fun _ _ n => rfl)
    · refine ⟨.compound id xs, none, by simp [preU, pre, hnp], ?_, (by intro h; cases h)⟩
      have := pl_loop (b0 := b) (size := 0) (fun x hx => Threads.needs_false hnp x hx) hap hna (.inl rfl) hk
      have := (this.comap (T := fun _ : Unit => True) (fun _ => 0) (fun _ _ => trivial)).weaken (M' := fun _ => DecIs)
        (fun _ _ a x h => ⟨h.1, by rw [h.2, Nat.zero_add]⟩)
      exact this.step (fun _ _ => rfl) (fun _ _ n => rfl)

/-! ### One value -/

/-- What is read of an object, before all of it has been read; `us` tells whether `Self` is used. -/
structure Begun (us : Bool) (p : PObj) : Prop where
  proxy : p.isProxy = true
  noCls : us = true → getAttr? p.attrs "cls" = none

theorem Begun.mono {us us' : Bool} {p : PObj} (h : Begun us p) (hs : us' = true → us = true) : Begun us' p :=
  ⟨h.proxy, fun h' => h.noCls (hs h')⟩

/-- One value is read as `R` says. -/
def Parses1 (env : Env) (k : Nat) (us : Bool) (s : Ser) (R : PObj → Bytes → Parsed (Val × Nat)) : Prop :=
  ∀ p, Begun us p → ∃ s2 q2, preU s p = .ok (s2, q2) ∧ s2.sized = true ∧ s2.isLazy = false ∧ ∀ b, Parses env k s2 q2 b (R p b).one

theorem Parses1.leaf {us : Bool} {s : Ser} {R : PObj → Bytes → Parsed (Val × Nat)} (hs : s.overridesPre = false) (hz : s.sized = true)
    (h : ∀ p, Begun us p → ∀ b, Parses env k s none b (R p b).one) : Parses1 env k us s R := by
  intro p hp
  refine ⟨s, none, preU_same (pre_overrides hs p), hz, ?_, h p hp⟩
  cases s <;> first | rfl | cases hs

theorem Parses1.same {us : Bool} {s : Ser} {R : PObj → Bytes → Parsed (Val × Nat)} (h : Parses1 env k us s R) (hs : s.overridesPre = false) {p : PObj}
    (hp : Begun us p) (b : Bytes) : Parses env k s none b (R p b).one := by
  obtain ⟨s2, q2, e, _, _, h1⟩ := h p hp
  rw [preU_same (pre_overrides hs p)] at e
  cases e
  exact h1 b

theorem Parses1.kept {us : Bool} {s : Ser} {R : PObj → Bytes → Parsed (Val × Nat)} (hs : ∀ p, pre s p = .ok (s, some p)) (hz : s.sized = true)
    (hl : s.isLazy = false) (h : ∀ p, Begun us p → ∀ b, Parses env k s (some p) b (R p b).one) : Parses1 env k us s R :=
  fun p hp => ⟨s, some p, preU_same (hs p), hz, hl, h p hp⟩

/-- A basic type. -/
theorem basic_parses {us : Bool} {f : Fmt} {s : Ser} {R : ClassId → Bytes → Parsed (Val × Nat)} (hb : f.basic.isSome) (hg : f.good bo = true) (h : f.Is cf bo s) :
    Parses1 env k us s (fun o b => f.read env.plat bo R o b) := by
  obtain ⟨st, rfl⟩ := is_basic_struct hb h
  obtain ⟨t, w, a, F, _, hi, hr⟩ := is_item (P := env.plat) hg h
  refine .leaf rfl rfl fun p _ b => ?_
  rw [hr, ← hi.readZero]
  exact parses_struct hi.sure

/-- Errors that depend on earlier use do not matter. -/
theorem Ag.guard {σ α β : Type} {S : σ → Prop} {M : σ → α → β → Prop} {D : σ → Nat → Out α} {r : Parsed β} (c : σ → Bool) (h : Ag k S M D r) :
    Ag k S M (fun s n => if c s = true then .stuck else D s n) r :=
  ⟨fun s hs n hn => by
    by_cases hc : c s = true
    · simp only [hc, if_true]; exact .inr trivial
    · simp only [hc]; exact h.low s hs n hn, fun hr => by
    obtain ⟨K, hK⟩ := h.high hr
    refine ⟨K, fun s hs n hn => ?_⟩
    by_cases hc : c s = true
    · simp only [hc, if_true]; trivial
    · simp only [hc]; exact hK s hs n hn⟩

theorem one_ok {r : Parsed (Val × Nat)} {vs : List Val} {n : Nat} (h : r.one = .ok (vs, n)) : ∃ v, vs = [v] ∧ r = .ok (v, n) := by
  cases r <;> cases h
  exact ⟨_, rfl, rfl⟩

/-- The items of an array. -/
theorem items_parse {s : Ser} {q : Option PObj} {f : Bytes → Parsed (Val × Nat)} {b0 : Bytes} (hs : s.sized = true)
    (h : ∀ b, Parses env k s q b (f b).one) : ∀ m size, Ag k (fun _ : Nat => True) (fun _ d x => d.vals = x.1 ∧ d.size = size + x.2)
      (fun pos n => decItems (dec env n noUpd) s q (.buf b0) size pos m) (readMany f m (b0.drop size))
  | 0, size => .const fun pos _ => ⟨rfl, rfl⟩
  | m + 1, size => by
    have e : readMany f (m + 1) (b0.drop size) = ((f (b0.drop size)).one >>= fun x => (readMany f m ((b0.drop size).drop x.2)).behind x) := by
      simp only [readMany]
      cases f (b0.drop size) with
      | ok x => rfl
      | err => rfl
      | deep => rfl
      | odd => rfl
    rw [e]
    have h1 : Ag k (fun _ : Nat => True) (fun _ => DecIs) (fun _ n => dec env n noUpd s q (.buf (b0.drop size))) (f (b0.drop size)).one :=
      (h (b0.drop size)).comap (T := fun _ : Nat => True) (fun _ => noUpd) (fun _ _ => trivial)
    refine Ag.congr (h1.bind (M' := fun _ d x => d.vals = x.1 ∧ d.size = size + x.2) (r' := fun x => (readMany f m ((b0.drop size).drop x.2)).behind x)
      (D' := fun _ a n => if s.keeper.any (a.touched.contains ·) = true then Out.stuck else
        decItems (dec env n noUpd) s q (.buf b0) (size + a.size) a.pos m >>= fun r =>
          Out.ok (Dec.mk (a.vals ++ r.vals) r.size r.pos (a.touched ++ r.touched))) ?_) ?_
    · rintro ⟨vs, j⟩ hr
      refine Ag.guard (fun x : Nat × Dec => s.keeper.any (x.2.touched.contains ·)) ?_
      have ih := items_parse (b0 := b0) hs h m (size + j)
      rw [← List.drop_drop] at ih
      have ih := ih.comap (T := fun x : Nat × Dec => True ∧ DecIs x.2 (vs, j)) (fun x => x.2.pos) (fun _ _ => trivial)
      refine Ag.congr (D := fun x n => decItems (dec env n noUpd) s q (.buf b0) (size + j) x.2.pos m >>= fun r =>
          Out.ok (Dec.mk (vs ++ r.vals) r.size r.pos (x.2.touched ++ r.touched))) (ih.then ?_) ?_
      · rintro x - d y ⟨g1, g2⟩
        exact ⟨by rw [g1], by rw [g2, Nat.add_assoc]⟩
      · rintro ⟨pos, d⟩ ⟨-, g1, g2⟩ n
        simp only at g1 g2
        simp only [g1, g2]
    · intro pos _ n
      simp only [decItems, PSrc.next, hs, not_true_eq_false, if_false]

/-- An array whose header has been read. -/
theorem array_parses {id : SerId} {hdr : Option StructSer} {item item' : Ser} {qi : Option PObj} {sl : Int} {p : PObj} {b : Bytes}
    {f : Bytes → Parsed (Val × Nat)} {hv : List Val} {count ds : Int} {pos : Nat} (hi : preU item p = .ok (item', qi)) (hs : item'.sized = true)
    (h : ∀ b, Parses env k item' qi b (f b).one) (h1 : structDecOpt env hdr (.buf b) = .ok (hv, pos)) (h2 : headerUnpackValues hdr sl hv = .ok (count, ds)) :
    Parses env k (.array id hdr item sl) (some p) b (readMany f count.toNat (b.drop (hdrSize hdr)) >>= fun x =>
      Parsed.ofE (checkDataSize ds x.2) >>= fun _ => .ok ([.list x.1], hdrSize hdr + x.2)) := by
  have h3 := (items_parse (b0 := b) hs h count.toNat (hdrSize hdr)).comap (T := fun _ : Upd => True) (fun _ => pos) (fun _ _ => trivial)
  refine Ag.step (D := fun _ n => decItems (dec env n noUpd) item' qi (.buf b) (hdrSize hdr) pos count.toNat >>= fun r =>
    Out.ofE (checkDataSize ds (r.size - hdrSize hdr)) >>= fun _ => Out.ok (Dec.mk [.list r.vals] r.size r.pos (touch item ++ r.touched)))
    (h3.then ?_) (fun _ _ => rfl) ?_
  · rintro u - d ⟨vs, m⟩ ⟨g1, g2⟩
    simp only at g1 g2
    rw [g2, Nat.add_sub_cancel_left]
    cases checkDataSize ds m with
    | ok => exact ⟨by rw [g1], rfl⟩
    | error => exact rfl
  · intro u _ n
    simp only [dec, h1, h2, hi, Out.ofE, Out.ok_bind]

/-- A header in a buffer. -/
theorem structDec_readAt {st : StructSer} (ha : Sure st) {b : Bytes} : (∃ vs, st.readAt env.plat 0 b = .ok (vs, st.size) ∧
    structDec env st (.buf b) = .ok (vs, 0)) ∨ (∃ e, st.readAt env.plat 0 b = .err e ∧ structDec env st (.buf b) = .error e) := by
  have hz : endOff st.byteOrder.isNative st.toks 0 - 0 = st.size := rfl
  simp only [structDec, struct_unpack ha, StructSer.readAt, hz]
  by_cases h : st.size ≤ b.length
  · rw [if_pos h, if_pos h]; exact .inl ⟨_, rfl, rfl⟩
  · rw [if_neg h, if_neg h]; exact .inr ⟨_, rfl, rfl⟩

theorem count_basic {w : Size} : BasicSer bo ⟨1, .int false w.wd⟩ (intSer bo (w.code false)) := by
  obtain ⟨_, t2, _, o2, f2, p2, s2⟩ := intSer_facts (w.mem false) bo
  have hsg : SingleItem (intSer bo (w.code false)).baseFormat := ⟨[], w.code false, by cases w <;> cases bo <;> rfl, by simp, by cases w <;> rfl⟩
  exact ⟨⟨f2, by simp [intSer]⟩, o2, hsg, by cases w <;> cases bo <;> rfl, rfl, by cases w <;> cases bo <;> rfl⟩

/-- An integer at the front. -/
theorem int_read {P : Platform} {s : Bool} {w : Size} {st : StructSer} (h : BasicSer bo ⟨1, .int s w.wd⟩ st) (o : Nat) (b : Bytes) :
    st.readAt P o b = (takes w.bytes (b.drop (gap bo o (some (w.bytes, w.bytes)))) (fun d => .int (intFrom P bo s d)) >>=
      fun x => .ok ([x.1], gap bo o (some (w.bytes, w.bytes)) + x.2)) := by
  obtain ⟨t, w', a, F, h1, hi, hr⟩ := is_item (f := .int s w) (cf := fun _ => false) (P := P) (bo := bo) (st := st) rfl ⟨st, rfl, h⟩
  cases h1
  have := hr (fun _ _ => .odd) ⟨0, true, []⟩ (b.drop (gap bo o (some (w.bytes, w.bytes))))
  rw [(hi.readAt o b).1, ← this]
  rfl

/-- The key that a union looks ahead for, at the front. -/
theorem ahead_read {P : Platform} {a : Ahead} {st : StructSer} (h : BasicSer bo a.tok st) (hg : Ahead.good (some a) = true) (b : Bytes) :
    st.readAt P 0 b = (takes a.bytes b (a.key P bo) >>= fun x => .ok ([x.1], x.2)) := by
  cases a with
  | int s w =>
    rw [int_read h, gap_zero, List.drop_zero]
    simp only [Nat.zero_add]
    rfl
  | chars n =>
    obtain ⟨t, w', a, F, h1, hi, hr⟩ := is_item (f := .chars n) (cf := fun _ => false) (P := P) (bo := bo) (st := st) hg ⟨st, rfl, h⟩
    cases h1
    have := hr (fun _ _ => .odd) ⟨0, true, []⟩ b
    rw [(hi.readAt 0 b).1, gap_zero, List.drop_zero, ← this]
    simp only [Nat.zero_add]
    rfl

theorem int_sure {s : Bool} {w : Size} {st : StructSer} (h : BasicSer bo ⟨1, .int s w.wd⟩ st) : Sure st := .of_none h.acts

theorem int_size {s : Bool} {w : Size} {st : StructSer} (h : BasicSer bo ⟨1, .int s w.wd⟩ st) : st.size = w.bytes := by
  simp only [StructSer.size, sizeToks, h.toks, endOff, h.order]
  cases s <;> cases w <;> cases bo <;> rfl

/-- A count in a buffer. -/
theorem count_dec {s : Bool} {w : Size} {st : StructSer} (h : BasicSer bo ⟨1, .int s w.wd⟩ st) (b : Bytes) :
    structDec env st (.buf b) = if w.bytes ≤ b.length then .ok ([.int (intFrom env.plat bo s (b.take w.bytes))], 0) else .error .structError := by
  have e := int_read (P := env.plat) h 0 b
  rw [gap_zero, List.drop_zero] at e
  rcases structDec_readAt (env := env) (int_sure h) (b := b) with ⟨vs, h1, h2⟩ | ⟨e', h1, h2⟩
  · rw [h2]
    rw [h1] at e
    unfold takes at e
    by_cases hc : w.bytes ≤ b.length
    · rw [if_pos hc] at e ⊢
      simp only [Bind.bind, Parsed.bind, Parsed.ok.injEq, Prod.mk.injEq] at e
      rw [e.1]
    · rw [if_neg hc] at e
      cases e
  · rw [h2]
    rw [h1] at e
    unfold takes at e
    by_cases hc : w.bytes ≤ b.length
    · rw [if_pos hc] at e
      cases e
    · rw [if_neg hc] at e ⊢
      cases e
      rfl

theorem needInt_int (i : Int) : needInt (.int i) = .ok i := rfl

/-- Both counts of a header. -/
theorem counts_dec {w w2 : Size} {h : StructSer} (ha : (intSer bo (w.code false)).add (intSer bo (w2.code false)) = .ok h) (b : Bytes) :
    h.size = w.bytes + gap bo w.bytes (some (w2.bytes, w2.bytes)) + w2.bytes ∧ h.numValues = 2 ∧
      structDec env h (.buf b) = if w.bytes + gap bo w.bytes (some (w2.bytes, w2.bytes)) + w2.bytes ≤ b.length then
        .ok ([.int (natFrom env.plat bo (b.take w.bytes)),
          .int (natFrom env.plat bo ((b.drop (w.bytes + gap bo w.bytes (some (w2.bytes, w2.bytes)))).take w2.bytes))], 0) else .error .structError := by
  have b1 : BasicSer bo ⟨1, .int false w.wd⟩ (intSer bo (w.code false)) := count_basic
  have b2 : BasicSer bo ⟨1, .int false w2.wd⟩ (intSer bo (w2.code false)) := count_basic
  have key : SumIn bo (intSer bo (w.code false)) (intSer bo (w2.code false)) h := ⟨ha, b1.valid, b2.valid, b1.order, b2.order, b2.single⟩
  have hn : Sure h := .sum key (int_sure b1) (int_sure b2)
  have hr : ∀ b, h.readAt env.plat 0 b = if w.bytes + gap bo w.bytes (some (w2.bytes, w2.bytes)) + w2.bytes ≤ b.length then
        .ok ([.int (natFrom env.plat bo (b.take w.bytes)),
          .int (natFrom env.plat bo ((b.drop (w.bytes + gap bo w.bytes (some (w2.bytes, w2.bytes)))).take w2.bytes))],
          w.bytes + gap bo w.bytes (some (w2.bytes, w2.bytes)) + w2.bytes) else .err .structError := by
    intro b
    rw [key.readAt (int_sure b1) (int_sure b2), int_read b1, gap_zero, List.drop_zero]
    unfold takes
    have hp2 : 0 < w2.bytes := by cases w2 <;> decide
    generalize hgp : gap bo w.bytes (some (w2.bytes, w2.bytes)) = g
    by_cases h1 : w.bytes ≤ b.length
    · rw [if_pos h1]
      simp only [Bind.bind, Parsed.bind, Nat.zero_add]
      rw [int_read b2, hgp]
      unfold takes
      simp only [List.drop_drop, List.length_drop, intFrom_nat]
      by_cases h2 : w.bytes + g + w2.bytes ≤ b.length
      · rw [if_pos h2, if_pos (by omega)]
        simp only [Parsed.behind, Bind.bind, Parsed.bind, List.singleton_append, Nat.add_assoc]
      · rw [if_neg h2, if_neg (by omega)]
        rfl
    · rw [if_neg h1, if_neg (by omega)]
      rfl
  have hz : h.size = w.bytes + gap bo w.bytes (some (w2.bytes, w2.bytes)) + w2.bytes := by
    have := hr (List.replicate (h.size + (w.bytes + gap bo w.bytes (some (w2.bytes, w2.bytes)) + w2.bytes)) 0)
    rw [if_pos (by rw [List.length_replicate]; omega)] at this
    rcases structDec_readAt (env := env) hn (b := List.replicate (h.size + (w.bytes + gap bo w.bytes (some (w2.bytes, w2.bytes)) + w2.bytes)) 0) with
      ⟨vs, h1, h2⟩ | ⟨e', h1, h2⟩
    · rw [h1] at this
      simp only [Parsed.ok.injEq, Prod.mk.injEq] at this
      exact this.2
    · rw [h1] at this
      cases this
  refine ⟨hz, ?_, ?_⟩
  · rw [key.numValues, b1.numValues rfl, b2.numValues rfl]
  · have e := hr b
    rcases structDec_readAt (env := env) hn (b := b) with ⟨vs, h1, h2⟩ | ⟨e', h1, h2⟩
    · rw [h2]
      rw [h1] at e
      by_cases hc : w.bytes + gap bo w.bytes (some (w2.bytes, w2.bytes)) + w2.bytes ≤ b.length
      · rw [if_pos hc] at e ⊢
        simp only [Parsed.ok.injEq, Prod.mk.injEq] at e
        rw [e.1]
      · rw [if_neg hc] at e
        cases e
    · rw [h2]
      rw [h1] at e
      by_cases hc : w.bytes + gap bo w.bytes (some (w2.bytes, w2.bytes)) + w2.bytes ≤ b.length
      · rw [if_pos hc] at e
        cases e
      · rw [if_neg hc] at e ⊢
        cases e
        rfl

/-! ### Strings -/

theorem findTerm_while {t : Byte} : ∀ {b : Bytes}, findTerm t b = if t ∈ b then some (b.takeWhile (· != t)).length else none
  | [] => rfl
  | x :: b => by
    simp only [findTerm]
    by_cases hx : x = t
    · subst hx; simp
    · rw [if_neg hx, findTerm_while (b := b)]
      by_cases hb : t ∈ b
      · simp [hb, hx]
      · have : ¬ t ∈ x :: b := by simp [hb, Ne.symm hx]
        simp [hb, this]

theorem take_while {q : Byte → Bool} : ∀ (b : Bytes), b.take (b.takeWhile q).length = b.takeWhile q
  | [] => rfl
  | x :: b => by
    simp only [List.takeWhile_cons]
    split
    · simp [take_while b]
    · rfl

theorem net_read (b : Bytes) : Hit DecIs (Out.ofE (netDec env (.buf b))) ((Fmt.net.read env.plat bo R o b).one) := by
  have s1 : BasicSer .default ⟨1, .int false Size.one.wd⟩ shortLen := basic_int false .one
  have s2 : BasicSer .default ⟨1, .int false Size.two.wd⟩ longLen := basic_int false .two
  have z1 : shortLen.size = 1 := int_size (w := .one) s1
  have z2 : longLen.size = 2 := int_size (w := .two) s2
  unfold netDec
  rw [count_dec (w := .one) s1]
  match b with
  | [] => exact rfl
  | c :: b =>
    have hc : intFrom env.plat .default false ((c :: b).take Size.one.bytes) = c.toNat := by
      rw [intFrom_nat]
      simp [Size.bytes, natFrom, bigFirst, natOf]
    rw [if_pos (by simp [Size.bytes]), hc]
    simp only [first, needInt_int, bind, Except.bind]
    by_cases h1 : c.toNat < 128
    · rw [if_neg (by omega)]
      simp only [z1, Fmt.read, h1, if_true]
      exact ⟨by simp, rfl⟩
    · rw [if_pos (by omega), count_dec (w := .two) s2]
      match b with
      | [] =>
        simp only [Fmt.read, h1, if_false]
        exact rfl
      | c' :: b =>
        simp only [Fmt.read, h1, if_false]
        cases hl : env.plat.le with
        | false => exact Hit.odd _
        | true =>
          have hn : natFrom env.plat .default ((c :: c' :: b).take Size.two.bytes) = c.toNat + 256 * c'.toNat := by
            simp [Size.bytes, natFrom, bigFirst, natOf, hl]; omega
          rw [if_pos (by simp [Size.bytes]), intFrom_nat, hn]
          have l1 := c.toNat_lt
          have l2 := c'.toNat_lt
          have e : (c.toNat + 256 * c'.toNat) % 128 + 128 * ((c.toNat + 256 * c'.toNat) / 256 % 512) = c.toNat - 128 + 128 * c'.toNat := by omega
          simp only [needInt_int, Int.toNat_natCast, netDecode_eq, e]
          rw [if_neg (by omega)]
          simp only [z2, if_true]
          exact ⟨by simp, rfl⟩

/-! ### Values one after the other -/

variable {R : ClassId → Bytes → Parsed (Val × Nat)}

/-- A value in front of others. -/
theorem pl_cons {f : Fmt} {x : Ser} {p : PObj} {done o : Nat} {ss : List Ser} {b : Bytes} {rest : Val → Nat → Parsed (List Val × Nat)} (hg : f.good bo = true)
    (h : f.Is cf bo x) (h1 : Parses1 env k f.usesSelf x (fun o b => f.read env.plat bo R o b)) (hp : Begun f.usesSelf p)
    (hr : ∀ v n, f.read env.plat bo R p (b.drop (gap bo o f.basic)) = .ok (v, n) → ∃ p', upd p done [v] = .ok p' ∧
      PL env k upd p' (done + 1) (after bo o f.basic) ss (b.drop (gap bo o f.basic + n)) (rest v n)) :
    PL env k upd p done o (x :: ss) b (f.read env.plat bo R p (b.drop (gap bo o f.basic)) >>= fun x => rest x.1 x.2 >>= fun y =>
      .ok (x.1 :: y.1, gap bo o f.basic + x.2 + y.2)) := by
  rcases isStruct_dec x with ⟨st, rfl⟩ | hx
  · obtain ⟨t, w, a, F, e1, hi, e2⟩ := is_item (P := env.plat) hg h
    obtain ⟨e3, e4⟩ := hi.readAt o b
    rw [e1] at hr ⊢
    rw [e2] at hr ⊢
    unfold takes at hr e3 ⊢
    by_cases hc : w ≤ (b.drop (gap bo o (some (w, a)))).length
    · rw [if_pos hc] at hr e3 ⊢
      obtain ⟨p', h2, h3⟩ := hr _ _ rfl
      refine ⟨rest (F ((b.drop (gap bo o (some (w, a)))).take w)) w, ?_, fun vs n hv => ?_⟩
      · rw [e3]
        rfl
      · rw [e3] at hv
        simp only [Bind.bind, Parsed.bind, Parsed.ok.injEq, Prod.mk.injEq] at hv
        obtain ⟨rfl, rfl⟩ := hv
        refine ⟨p', h2, ?_⟩
        rw [e4]
        exact h3
    · rw [if_neg hc] at e3 ⊢
      exact ⟨.odd, by rw [e3]; rfl, fun vs n hv => by rw [e3] at hv; cases hv⟩
  · have hb : f.basic = none := by
      cases hf : f.basic with
      | none => rfl
      | some y =>
        obtain ⟨st, rfl⟩ := is_basic_struct (by rw [hf]; rfl) h
        exact absurd rfl (hx st)
    rw [hb] at hr ⊢
    simp only [gap, after, List.drop_zero, Nat.zero_add] at hr ⊢
    rw [PL.part hx]
    obtain ⟨s2, q2, g1, g2, g3, g4⟩ := h1 p hp
    have g4 := g4 b
    simp only at g4
    cases hrd : f.read env.plat bo R p b with
    | ok y =>
      rw [hrd] at g4
      refine .inr (.inr ⟨s2, q2, _, rest y.1 y.2, g1, g2, g3, g4, rfl, fun vs n hv => ?_⟩)
      cases hv
      exact hr _ _ hrd
    | err e =>
      rw [hrd] at g4
      exact .inr (.inr ⟨s2, q2, _, .odd, g1, g2, g3, g4, rfl, fun vs n hv => by cases hv⟩)
    | deep =>
      rw [hrd] at g4
      exact .inr (.inr ⟨s2, q2, _, .odd, g1, g2, g3, g4, rfl, fun vs n hv => by cases hv⟩)
    | odd => exact .inl rfl

/-- Each serializer reads its format. -/
def AllP (env : Env) (k : Nat) (bo : ByteOrder) (R : ClassId → Bytes → Parsed (Val × Nat)) : List Fmt → List Ser → Prop
  | [], ss => ss = []
  | f :: fs, ss => ∃ x xs, ss = x :: xs ∧ Parses1 env k f.usesSelf x (fun o b => f.read env.plat bo R o b) ∧ AllP env k bo R fs xs

theorem reads_pl {p : PObj} : ∀ {fs : List Fmt} {ss : List Ser} {done o : Nat} {b : Bytes}, Begun (Fmt.anySelf fs) p → Fmt.goods bo fs = true →
    Fmt.IsL cf bo fs ss → AllP env k bo R fs ss → PL env k noUpd p done o ss b (Fmt.reads env.plat bo R p o fs b)
  | [], ss, done, o, b, _, _, _, h => by
    cases h
    exact rfl
  | f :: fs, ss, done, o, b, hp, hg, hi, h => by
    obtain ⟨x, xs, rfl, h1, h2⟩ := h
    obtain ⟨y, ys, e, i1, i2⟩ := hi
    cases e
    simp only [Fmt.goods, Bool.and_eq_true] at hg
    exact pl_cons (rest := fun v n => Fmt.reads env.plat bo R p (after bo o f.basic) fs (b.drop (gap bo o f.basic + n))) hg.1 i1 h1
      (hp.mono fun e => by simp [Fmt.anySelf, e])
      fun v n _ => ⟨p, rfl, reads_pl (hp.mono fun e => by simp [Fmt.anySelf, e]) hg.2 i2 h2⟩

theorem isL_sure {fs : List Fmt} {ss : List Ser} (h : Fmt.IsL cf bo fs ss) : ∀ st, .struct st ∈ ss → Sure st := by
  intro st hst
  obtain ⟨f, _, h1⟩ := isL_mem h _ hst
  exact is_sure h1

/-! ### Unions -/

theorem isL_length : ∀ {fs : List Fmt} {ss : List Ser}, Fmt.IsL cf bo fs ss → ss.length = fs.length
  | [], _, h => by cases h; rfl
  | f :: fs, _, h => by
    obtain ⟨x, xs, rfl, _, h2⟩ := h
    simp [isL_length h2]

/-- The chosen option. -/
theorem allP_at {p : PObj} : ∀ {fs : List Fmt} {ss : List Ser} {i : Nat}, AllP env k bo R fs ss → i < fs.length → ∃ (x : Ser) (f : Fmt), ss[i]? = some x ∧
    Parses1 env k f.usesSelf x (fun o b => f.read env.plat bo R o b) ∧ (f.usesSelf = true → Fmt.anySelf fs = true) ∧
    ∀ b, Fmt.readAt env.plat bo R p fs i b = f.read env.plat bo R p b
  | [], _, i, _, hi => absurd hi (Nat.not_lt_zero i)
  | f :: fs, _, 0, h, _ => by
    obtain ⟨x, xs, rfl, h1, _⟩ := h
    exact ⟨x, f, rfl, h1, (fun e => by simp [Fmt.anySelf, e]), fun b => rfl⟩
  | f :: fs, _, i + 1, h, hi => by
    obtain ⟨x, xs, rfl, _, h2⟩ := h
    obtain ⟨y, g, g1, g2, g3, g4⟩ := allP_at (p := p) h2 (Nat.lt_of_succ_lt_succ hi)
    exact ⟨y, g, by simpa using g1, g2, (fun e => by simp [Fmt.anySelf, g3 e]), fun b => g4 b⟩

theorem keyAt_lt {keys : List Val} {r : Val} {i : Nat} (h : keyAt keys r = some i) : i < keys.length := by
  unfold keyAt at h
  split at h
  · exact (List.findIdx?_eq_some_iff_findIdx_eq.1 h).1
  · cases h

theorem unionPick_unhashable {keys : List Val} {os : List Ser} {d : Ser} {r : Val} (h : ¬ r.hashable = true) : unionPick keys os d r = .error .typeError := by
  unfold unionPick
  rw [if_pos h]

theorem unionPick_null {keys : List Val} {os : List Ser} {r : Val} (hk : keyAt keys r = none) (hh : r.hashable = true) :
    unionPick keys os .null r = .error .valueError := by
  unfold keyAt at hk
  rw [if_pos hh, List.findIdx?_eq_none_iff] at hk
  exact unionPick_none hh fun x hx => by simpa using hk x hx

/-- What a union reads for the result of its decider. -/
def Spec.pickRead (P : Platform) (bo : ByteOrder) (R : ClassId → Bytes → Parsed (Val × Nat)) (o : PObj) (keys : List Val) (opts other : List Fmt) (b : Bytes)
    (r : Val) : Parsed (Val × Nat) :=
  if ¬ r.hashable then .err .typeError
  else match keyAt keys r with
    | some k => Fmt.readAt P bo R o opts k b
    | none => Fmt.readAt P bo R o other 0 b

theorem union_parses {keys : List Val} {opts other : List Fmt} {os ds : List Ser} {p : PObj} {r : Val} {b : Bytes} (hl : keys.length = opts.length)
    (h1 : AllP env k bo R opts os) (h2 : AllP env k bo R other ds) (hn : ∀ x ∈ ds, x ≠ .null) (hp1 : Begun (Fmt.anySelf opts) p) (hp2 : Begun (Fmt.anySelf other) p) :
    Ag k (fun _ : Unit => True) (fun _ => DecIs) (fun _ n => decUnion (dec env n noUpd) keys os (ds.headD .null) p r (.buf b))
      (pickRead env.plat bo R p keys opts other b r).one := by
  have key : ∀ {x : Ser} {f : Fmt} {q : Parsed (Val × Nat)}, unionPick keys os (ds.headD .null) r = .ok x →
      Parses1 env k f.usesSelf x (fun o b => f.read env.plat bo R o b) → Begun f.usesSelf p → q = f.read env.plat bo R p b →
      Ag k (fun _ : Unit => True) (fun _ => DecIs) (fun _ n => decUnion (dec env n noUpd) keys os (ds.headD .null) p r (.buf b)) q.one := by
    rintro x f q e1 e2 e3 rfl
    obtain ⟨s2, q2, g1, g2, g3, g4⟩ := e2 p e3
    have g4 := (g4 b).comap (T := fun _ : Unit => True) (fun _ => noUpd) (fun _ _ => trivial)
    have e : (f.read env.plat bo R p b).one = ((f.read env.plat bo R p b).one >>= Parsed.ok) := by
      cases f.read env.plat bo R p b <;> rfl
    rw [e]
    refine Ag.congr (D := fun _ n => dec env n noUpd s2 q2 (.buf b) >>= fun a => Out.ok (Dec.mk a.vals a.size a.pos (touch x ++ a.touched)))
      (g4.then ?_) ?_
    · rintro _ - d y ⟨i1, i2⟩
      exact ⟨i1, i2⟩
    · intro _ _ n
      simp only [decUnion, e1, g1, Out.ofE, Out.ok_bind, g3, g2, not_true_eq_false, if_false, Bool.false_eq_true]
  unfold pickRead
  by_cases hh : r.hashable = true
  · rw [if_neg (by simp [hh])]
    cases hk : keyAt keys r with
    | some i =>
      obtain ⟨x, f, i1, i2, i3, i4⟩ := allP_at (p := p) h1 (hl ▸ keyAt_lt hk)
      exact key (unionPick_key hk i1) i2 (hp1.mono i3) (i4 b)
    | none =>
      cases other with
      | nil =>
        cases h2
        refine Ag.congr (D := fun _ _ => .err .valueError) (.const fun _ _ => rfl) fun _ _ n => ?_
        have : ([] : List Ser).headD .null = .null := rfl
        simp only [decUnion, this, unionPick_null hk hh]
        rfl
      | cons f fs =>
        obtain ⟨x, xs, rfl, i1, _⟩ := h2
        exact key (unionPick_other hk hh (hn x (by simp))) i1 (hp2.mono fun e => by simp [Fmt.anySelf, e]) rfl
  · rw [if_pos hh]
    refine Ag.congr (D := fun _ _ => .err .typeError) (.const fun _ _ => rfl) fun _ _ n => ?_
    simp only [decUnion, unionPick_unhashable hh]
    rfl

/-! ### Every format -/

/-- The objects of each class are read as `R` says. -/
def ObjParses (env : Env) (k : Nat) (R : ClassId → Bytes → Parsed (Val × Nat)) : Prop := ∀ c id b, Parses env k (.structured id c) none b (R c b).one

theorem noWrites : ObjWrites env (fun _ _ => none) := fun c v b h => by cases h

theorem is_sized (env : Env) {f : Fmt} {s : Ser} (hg : f.good bo = true) (h : f.Is cf bo s) : s.sized = true ∨ ∃ id, s = .selfT id :=
  (is_writes (noWrites (env := env)) f bo s hg h).szd

mutual
theorem is_parses (hR : ObjParses env k R) : ∀ (f : Fmt) (bo : ByteOrder) (s : Ser), f.good bo = true → f.Is cf bo s →
    Parses1 env k f.usesSelf s (fun o b => f.read env.plat bo R o b)
  | .int _ _, bo, s, hg, h => basic_parses rfl hg h
  | .bool, bo, s, hg, h => basic_parses rfl hg h
  | .half, bo, s, hg, h => basic_parses rfl hg h
  | .single, bo, s, hg, h => basic_parses rfl hg h
  | .double, bo, s, hg, h => basic_parses rfl hg h
  | .chars _, bo, s, hg, h => basic_parses rfl hg h
  | .pascal _, bo, s, hg, h => basic_parses rfl hg h
  | .via _ f _ _ _, bo, s, hg, h => by
    have hb : f.basic.isSome = true := by
      simp only [Fmt.good, Bool.and_eq_true] at hg
      exact direct_basic hg.1
    exact basic_parses (by rw [Fmt.basic]; exact hb) hg h
  | .counted w, bo, s, _, h => by
    obtain ⟨id, rfl⟩ := h
    refine .leaf rfl rfl fun p _ b => .leaf (fun n u => rfl) ?_
    have hb : BasicSer bo ⟨1, .int false w.wd⟩ (intSer bo (w.code false)) := count_basic
    unfold dynCharDec
    rw [count_dec hb]
    simp only [Fmt.read]
    by_cases hc : w.bytes ≤ b.length
    · rw [if_pos hc, if_pos hc]
      simp only [bind, Except.bind, first, needInt_int, intFrom_nat, int_size hb, Int.toNat_natCast]
      exact ⟨rfl, by simp only [← Int.natCast_add, Int.toNat_natCast]⟩
    · rw [if_neg hc, if_neg hc]
      exact rfl
  | .until t, bo, s, _, h => by
    obtain ⟨id, rfl⟩ := h
    refine .leaf rfl rfl fun p _ b => .leaf (fun n u => rfl) ?_
    simp only [terminatedDec, findTerm_while, Fmt.read]
    by_cases hc : t ∈ b
    · rw [if_pos hc, if_pos hc]
      simp only [take_while]
      exact ⟨rfl, rfl⟩
    · rw [if_neg hc, if_neg hc]
      exact rfl
  | .rest, bo, s, _, h => by
    obtain ⟨id, rfl⟩ := h
    exact .leaf rfl rfl fun p _ b => .leaf (fun n u => rfl) ⟨rfl, rfl⟩
  | .net, bo, s, _, h => by
    obtain ⟨id, rfl⟩ := h
    exact .leaf rfl rfl fun p _ b => .leaf (fun n u => rfl) (net_read b)
  | .text f en de, bo, s, hg, h => by
    obtain ⟨y, rfl, h⟩ := h
    simp only [Fmt.good, Bool.and_eq_true, decide_eq_true_eq] at hg
    obtain ⟨⟨rfl, hbr⟩, hg⟩ := hg
    have ih := is_parses hR f .default y hg h
    have hk := plain_overrides (bracket_plain hbr) h
    have hz : y.sized = true := by
      rcases is_sized env hg h with h1 | ⟨id, rfl⟩
      · exact h1
      · cases hk
    refine .leaf rfl hz fun p hp b => ?_
    have ih := (ih.same hk hp b).comap (T := fun _ : Upd => True) (fun _ => noUpd) (fun _ _ => trivial)
    have e : ((Fmt.text f en de).read env.plat .default R p b).one = ((f.read env.plat .default R p b).one >>= fun x => match x.1 with
        | [.bytes d] => Parsed.ofE (de d) >>= fun s => .ok ([.str (dropNuls s)], x.2)
        | _ => .odd) := by
      simp only [Fmt.read]
      cases f.read env.plat .default R p b with
      | err => rfl
      | deep => rfl
      | odd => rfl
      | ok x =>
        obtain ⟨v, n⟩ := x
        cases v with
        | bytes d =>
          simp only [Bind.bind, Parsed.bind, Parsed.one]
          cases de d <;> rfl
        | _ => rfl
    show Parses env k _ none b ((Fmt.text f en de).read env.plat .default R p b).one
    rw [e]
    refine Ag.step (D := fun _ n => dec env n noUpd y none (.buf b) >>= fun r => Out.ofE (unicodeDecode de r.vals) >>= fun vs =>
      Out.ok (Dec.mk vs r.size r.pos r.touched)) (ih.then ?_) (fun _ _ => rfl) (fun _ _ n => rfl)
    rintro _ - d ⟨vs, m⟩ ⟨g1, g2⟩
    simp only at g1 g2
    rw [g1]
    split
    · rename_i c hv
      simp only at hv
      subst hv
      simp only [unicodeDecode, first, bind, Except.bind]
      cases de c with
      | ok str => exact ⟨rfl, g2⟩
      | error => exact rfl
    · exact Hit.odd _
  | .fixed m item, bo, s, hg, h => by
    simp only [Fmt.good] at hg
    rcases h with ⟨st, ser, rfl, hbs, hi, hm⟩ | ⟨id, y, rfl, _, hi⟩
    · obtain ⟨t, w, a, F, _, h1, h2⟩ := is_item (P := env.plat) hg hi
      refine .leaf rfl rfl fun p _ b => ?_
      have e : ((Fmt.fixed m item).read env.plat bo R p b).one = (readMany (takes w · F) m b >>= fun x => .ok ([.list x.1], x.2)) := by
        have : item.read env.plat bo R p = (takes w · F) := funext fun b => h2 R p b
        simp only [Fmt.read]
        rw [this]
        cases readMany (takes w · F) m b <;> rfl
      show Parses env k _ none b ((Fmt.fixed m item).read env.plat bo R p b).one
      rw [e]
      exact item_many h1 hm b
    · refine .kept (fun _ => rfl) rfl rfl fun p hp b => ?_
      obtain ⟨s2, q2, e1, e2, _, e4⟩ := is_parses hR item bo y hg hi p hp
      have := array_parses (id := id) (hdr := none) (sl := m) (b := b) e1 e2 e4 rfl
        (show headerUnpackValues none m [] = .ok ((m : Int), -1) by simp [headerUnpackValues, hdrNum])
      have e : ((Fmt.fixed m item).read env.plat bo R p b).one = (readMany (item.read env.plat bo R p) (m : Int).toNat (b.drop (hdrSize none)) >>= fun x =>
          Parsed.ofE (checkDataSize (-1) x.2) >>= fun _ => .ok ([.list x.1], hdrSize none + x.2)) := by
        simp only [Fmt.read, Int.toNat_natCast, hdrSize, Option.elim, List.drop_zero, Nat.zero_add]
        cases readMany (item.read env.plat bo R p) m b <;> rfl
      show Parses env k _ (some p) b ((Fmt.fixed m item).read env.plat bo R p b).one
      rw [e]
      exact this
  | .list w item, bo, s, hg, h => by
    simp only [Fmt.good, Bool.and_eq_true] at hg
    obtain ⟨id, y, rfl, hi⟩ := h
    have hb : BasicSer bo ⟨1, .int false w.wd⟩ (intSer bo (w.code false)) := count_basic
    have n1 : (intSer bo (w.code false)).numValues = 1 := hb.numValues rfl
    refine .kept (fun _ => rfl) rfl rfl fun p hp b => ?_
    obtain ⟨s2, q2, e1, e2, _, e4⟩ := is_parses hR item bo y hg.1 hi p hp
    show Parses env k _ (some p) b ((Fmt.list w item).read env.plat bo R p b).one
    by_cases hc : w.bytes ≤ b.length
    · have hd : structDecOpt env (some (intSer bo (w.code false))) (.buf b) = .ok ([.int (natFrom env.plat bo (b.take w.bytes))], 0) := by
        simp only [structDecOpt, count_dec hb, intFrom_nat]
        rw [if_pos hc]
      have := array_parses (id := id) (hdr := some (intSer bo (w.code false))) (sl := -1) (b := b) e1 e2 e4 hd
        (show headerUnpackValues (some (intSer bo (w.code false))) (-1) [.int (natFrom env.plat bo (b.take w.bytes))] =
          .ok ((natFrom env.plat bo (b.take w.bytes) : Int), -1) by
          simp only [headerUnpackValues, hdrNum, Option.elim, n1]
          rfl)
      have e : ((Fmt.list w item).read env.plat bo R p b).one = (readMany (item.read env.plat bo R p) (natFrom env.plat bo (b.take w.bytes) : Int).toNat
          (b.drop (hdrSize (some (intSer bo (w.code false))))) >>= fun x =>
          Parsed.ofE (checkDataSize (-1) x.2) >>= fun _ => .ok ([.list x.1], hdrSize (some (intSer bo (w.code false))) + x.2)) := by
        simp only [Fmt.read, Int.toNat_natCast, hdrSize, Option.elim, int_size hb]
        rw [if_pos hc]
        cases readMany (item.read env.plat bo R p) (natFrom env.plat bo (b.take w.bytes)) (b.drop w.bytes) <;> rfl
      rw [e]
      exact this
    · have e : ((Fmt.list w item).read env.plat bo R p b).one = .err .structError := by
        simp only [Fmt.read]
        rw [if_neg hc]
        rfl
      rw [e]
      refine .leaf (x := .err .structError) (fun n u => ?_) rfl
      simp only [dec, structDecOpt, count_dec hb]
      rw [if_neg hc]
      rfl
  | .sized w w2 item, bo, s, hg, h => by
    simp only [Fmt.good, Bool.and_eq_true] at hg
    obtain ⟨id, y, hd, rfl, ha, hi⟩ := h
    refine .kept (fun _ => rfl) rfl rfl fun p hp b => ?_
    obtain ⟨s2, q2, e1, e2, _, e4⟩ := is_parses hR item bo y hg.1 hi p hp
    obtain ⟨hz, n2, hdec⟩ := counts_dec (env := env) ha b
    show Parses env k _ (some p) b ((Fmt.sized w w2 item).read env.plat bo R p b).one
    simp only [Fmt.read]
    generalize gap bo w.bytes (some (w2.bytes, w2.bytes)) = g at hz hdec ⊢
    by_cases hc : w.bytes + g + w2.bytes ≤ b.length
    · rw [if_pos hc] at hdec ⊢
      generalize natFrom env.plat bo (b.take w.bytes) = count at hdec ⊢
      generalize natFrom env.plat bo ((b.drop (w.bytes + g)).take w2.bytes) = ds at hdec ⊢
      have := array_parses (id := id) (hdr := some hd) (sl := -1) (b := b) e1 e2 e4 hdec
        (show headerUnpackValues (some hd) (-1) [.int count, .int ds] = .ok ((count : Int), (ds : Int)) by
          simp only [headerUnpackValues, hdrNum, Option.elim, n2]
          rfl)
      refine Eq.mp ?_ this
      congr 1
      simp only [Int.toNat_natCast, hdrSize, Option.elim, hz]
      cases readMany (item.read env.plat bo R p) count (b.drop (w.bytes + g + w2.bytes)) with
      | err => rfl
      | deep => rfl
      | odd => rfl
      | ok x =>
        simp only [Bind.bind, Parsed.bind, checkDataSize]
        by_cases hx : x.2 = ds
        · rw [if_pos hx, if_neg (by omega)]
          rfl
        · rw [if_neg hx, if_pos (by omega)]
          rfl
    · rw [if_neg hc] at hdec ⊢
      refine .leaf (x := .err .structError) (fun n u => ?_) rfl
      simp only [dec, structDecOpt, hdec]
      rfl
  | .tup items, bo, s, hg, h => by
    have hsz := is_sized env hg h
    simp only [Fmt.good, Bool.and_eq_true, decide_eq_true_eq] at hg
    obtain ⟨⟨⟨rfl, hg⟩, _⟩, _⟩ := hg
    obtain ⟨id, id', inner, ss, rfl, hi, hsum⟩ := h
    have hz : (Ser.tuple id inner).sized = true := by
      rcases hsz with h1 | ⟨_, h1⟩
      · exact h1
      · cases h1
    have hall := isL_parses hR items .default ss hg hi
    have hf : ∀ x ∈ ss, FieldOf .default x := fun x hx => (isL_fieldOf hi x hx).1
    have hnn : ∀ x ∈ ss, x ≠ .null := fun x hx => (isL_fieldOf hi x hx).2
    obtain ⟨hm, hst⟩ := fields_sumIn hf hsum
    refine .kept (fun _ => rfl) hz rfl fun p hp b => ?_
    show Parses env k _ (some p) b ((Fmt.tup items).read env.plat .default R p b).one
    simp only [Fmt.read]
    by_cases hc : (items.all (·.basic.isSome) || items.length == 1) = true
    · rw [if_pos hc]
      have hsimple : Simple inner := by
        simp only [Bool.or_eq_true, beq_iff_eq, List.all_eq_true] at hc
        rcases hc with hc | hc
        · refine sum_structs ss .null inner (.inl rfl) (fun x hx => ?_) hsum
          obtain ⟨f, hf, h1⟩ := isL_mem hi x hx
          exact is_basic_struct (hc f hf) h1
        · match items, hc, hi with
          | [f], _, hi =>
            obtain ⟨x, xs, rfl, h1, h2⟩ := hi
            cases h2
            cases hsum
            exact (is_fieldOf h1).1.1
      have hpl : PL env k noUpd p 0 0 ss b (Fmt.reads env.plat .default R p 0 items b) := reads_pl hp hg hi hall
      have e : Parsed.one (do
          let (vs, k) ← Fmt.reads env.plat .default R p 0 items b
          .ok (.tup vs, k)) = (Fmt.reads env.plat .default R p 0 items b >>= fun x => .ok ([.tup x.1], x.2)) := by
        cases Fmt.reads env.plat .default R p 0 items b <;> rfl
      rw [e]
      rcases whole_parses hm hnn (isL_sure hi) (fields_apart hf hsum) (.inl hsimple) updSeq_noUpd hpl with
        h1 | ⟨e', h1, h2⟩ | ⟨s2, q2, h1, _, h2⟩
      · rw [h1]
        exact .odd
      · rw [h2]
        refine .leaf (x := .err e') (fun n u => ?_) rfl
        simp only [dec, h1]
        rfl
      · obtain ⟨h3, h4⟩ := h2 hsimple
        have h4 := h4.comap (T := fun _ : Upd => True) (fun _ => noUpd) (fun _ _ => trivial)
        refine Ag.step (D := fun _ n => dec env n noUpd s2 q2 (.buf b) >>= fun r => Out.ok (Dec.mk [.tup r.vals] r.size r.pos (touch inner ++ r.touched)))
          (h4.then ?_) (fun _ _ => rfl) ?_
        · rintro _ - d x ⟨g1, g2⟩
          exact ⟨by rw [g1], g2⟩
        · intro _ _ n
          simp only [dec, h1, Out.ofE, Out.ok_bind, h3, Bool.false_eq_true, if_false]
    · rw [if_neg hc]
      exact .odd
  | .obj c, bo, s, _, h => by
    obtain ⟨id, rfl⟩ := h
    exact .leaf rfl rfl fun p _ b => hR c id b
  | .me, bo, s, _, h => by
    obtain ⟨id, rfl⟩ := h
    intro p hp
    refine ⟨.structured id p.cls, none, ?_, rfl, rfl, fun b => hR p.cls id b⟩
    simp only [preU, clsOfPartial, hp.noCls rfl, hp.proxy, if_true]
    rfl
  | .choice cid args ahead decider keys opts other, bo, s, hg, h => by
    simp only [Fmt.good, Bool.and_eq_true, decide_eq_true_eq] at hg
    obtain ⟨⟨⟨⟨rfl, hg1⟩, hg2⟩, hl⟩, _, hga⟩ := hg
    obtain ⟨os, ds, h1, h2, h3⟩ := h
    have w1 := isL_parses hR opts .default os hg1 h1
    have w2 := isL_parses hR other .default ds hg2 h2
    have hnn : ∀ x ∈ ds, x ≠ .null := fun x hx => (isL_fieldOf h2 x hx).2
    have us1 : Fmt.anySelf opts = true → (Fmt.choice cid args ahead decider keys opts other).usesSelf = true := by
      intro e; simp [Fmt.usesSelf, e]
    have us2 : Fmt.anySelf other = true → (Fmt.choice cid args ahead decider keys opts other).usesSelf = true := by
      intro e; simp [Fmt.usesSelf, e]
    have key : ∀ {p : PObj} (r : Val) (b : Bytes), Begun (Fmt.choice cid args ahead decider keys opts other).usesSelf p →
        Ag k (fun _ : Upd => True) (fun _ => DecIs) (fun _ n => decUnion (dec env n noUpd) keys os (ds.headD .null) p r (.buf b))
          (pickRead env.plat .default R p keys opts other b r).one := fun r b hp =>
      (union_parses hl w1 w2 hnn (hp.mono us1) (hp.mono us2)).comap (T := fun _ : Upd => True) (fun _ => ()) (fun _ _ => trivial)
    rcases h3 with ⟨rfl, rfl⟩ | ⟨a, st, rfl, hst, rfl⟩
    · refine .kept (fun _ => rfl) rfl rfl fun p hp b => ?_
      show Parses env k _ (some p) b ((Fmt.choice cid args none decider keys opts other).read env.plat .default R p b).one
      cases hd : decider p with
      | error e =>
        have : ((Fmt.choice cid args none decider keys opts other).read env.plat .default R p b).one = .err e := by
          simp only [Fmt.read, hd]
          rfl
        rw [this]
        refine .leaf (x := .err e) (fun n u => ?_) rfl
        simp only [dec, hd]
        rfl
      | ok r =>
        have : (Fmt.choice cid args none decider keys opts other).read env.plat .default R p b = pickRead env.plat .default R p keys opts other b r := by
          simp only [Fmt.read, hd]
          rfl
        rw [this]
        refine (key r b hp).step (fun _ _ => rfl) fun _ _ n => ?_
        simp only [dec, hd, Out.ofE, Out.ok_bind]
    · refine .kept (fun _ => rfl) rfl rfl fun p hp b => ?_
      show Parses env k _ (some p) b ((Fmt.choice cid args (some a) decider keys opts other).read env.plat .default R p b).one
      have e : ((Fmt.choice cid args (some a) decider keys opts other).read env.plat .default R p b).one =
          (st.readAt env.plat 0 b >>= fun x => match x.1 with
            | [r] => (pickRead env.plat .default R p keys opts other b r).one
            | _ => .odd) := by
        rw [ahead_read hst hga]
        simp only [Fmt.read, takes]
        by_cases hc : a.bytes ≤ b.length
        · rw [if_pos hc, if_pos hc]
          rfl
        · rw [if_neg hc, if_neg hc]
          rfl
      rw [e]
      have h4 := (parses_struct (env := env) (k := k) (Sure.of_none hst.acts) (q := none) (b := b)).comap (T := fun _ : Upd => True) (fun _ => noUpd) (fun _ _ => trivial)
      refine Ag.step (D := fun _ n => dec env n noUpd (.struct st) none (.buf b) >>= fun hr => (Out.ofE (first hr.vals) >>= fun r =>
        if hr.touched.contains cid = true then .stuck else decUnion (dec env n noUpd) keys os (ds.headD .null) p r (.buf b) >>= fun a =>
          Out.ok (Dec.mk a.vals a.size a.pos (hr.touched ++ a.touched)))) (h4.bind (M' := fun _ => DecIs) (D' := fun _ hr n => (Out.ofE (first hr.vals) >>= fun r =>
        if hr.touched.contains cid = true then .stuck else decUnion (dec env n noUpd) keys os (ds.headD .null) p r (.buf b) >>= fun a =>
          Out.ok (Dec.mk a.vals a.size a.pos (hr.touched ++ a.touched)))) ?_) (fun _ _ => rfl) ?_
      · rintro ⟨vs, m⟩ hr
        match vs, hr with
        | [], _ => exact .odd
        | _ :: _ :: _, _ => exact .odd
        | [r], _ =>
          have h5 := (key r b hp).comap (T := fun x : Upd × Dec => True ∧ DecIs x.2 ([r], m)) (fun x => x.1) (fun _ _ => trivial)
          have e : (pickRead env.plat .default R p keys opts other b r).one = ((pickRead env.plat .default R p keys opts other b r).one >>= Parsed.ok) := by
            cases pickRead env.plat .default R p keys opts other b r <;> rfl
          show Ag _ _ _ _ (pickRead env.plat .default R p keys opts other b r).one
          rw [e]
          have h6 := Ag.guard (fun x : Upd × Dec => x.2.touched.contains cid) (h5.then (M' := fun _ => DecIs) (g := Parsed.ok)
            (f := fun x a => Out.ok (Dec.mk a.vals a.size a.pos (x.2.touched ++ a.touched))) (fun x _ a y h => ⟨h.1, h.2⟩))
          refine h6.congr ?_
          rintro ⟨u, d⟩ ⟨-, g1, g2⟩ n
          simp only at g1 g2
          simp only [g1, first, Out.ofE, Out.ok_bind]
      · intro _ _ n
        simp only [dec, PSrc.isIo, Bool.false_and, Bool.false_eq_true, if_false, PSrc.back]
theorem isL_parses (hR : ObjParses env k R) : ∀ (fs : List Fmt) (bo : ByteOrder) (ss : List Ser), Fmt.goods bo fs = true → Fmt.IsL cf bo fs ss →
    AllP env k bo R fs ss
  | [], bo, ss, _, h => h
  | f :: fs, bo, ss, hg, h => by
    obtain ⟨x, xs, rfl, h1, h2⟩ := h
    simp only [Fmt.goods, Bool.and_eq_true] at hg
    exact ⟨x, xs, rfl, is_parses hR f bo x hg.1 h1, isL_parses hR fs bo xs hg.2 h2⟩
end

end Verif
