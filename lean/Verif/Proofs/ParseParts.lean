import Verif.Proofs.ParseAgree
import Verif.Proofs.FormatRead
/-
Lemmas for the parser of documented formats: the parts of a compound one after the other.
-/
namespace Verif
open Spec Sem

variable {bo : ByteOrder} {cf : ClassId → Bool} {env : Env} {k : Nat} {upd : Upd}

/-- The values and the number of bytes. -/
def DecIs (d : Dec) (r : List Val × Nat) : Prop := d.vals = r.1 ∧ d.size = r.2

/-- Reading from a buffer is what the parser says. -/
def Parses (env : Env) (k : Nat) (s : Ser) (q : Option PObj) (b : Bytes) (r : Parsed (List Val × Nat)) : Prop :=
  Ag k (fun _ : Upd => True) (fun _ => DecIs) (fun u n => dec env n u s q (.buf b)) r

/-- A result of `dec` that does not use the recursion limit. -/
theorem Parses.leaf {s : Ser} {q : Option PObj} {b : Bytes} {r : Parsed (List Val × Nat)} {x : Out Dec} (hd : ∀ n u, dec env (n + 1) u s q (.buf b) = x)
    (h : Hit DecIs x r) : Parses env k s q b r :=
  Ag.step (D := fun _ _ => x) (.const fun _ _ => h) (fun _ _ => rfl) (fun u _ n => hd n u)

/-! ### Basic types -/

/-- The actions of the serializer do not raise. -/
def Sure (s : StructSer) : Prop := ∀ raw, raw.length = s.numValues → ∃ vs, s.applyActions raw = .ok vs

theorem Sure.of_none {s : StructSer} (h : s.actions = none) : Sure s := by
  intro raw _
  exact ⟨raw, by simp [StructSer.applyActions, h]⟩

/-- What the actions make of the values. -/
def StructSer.fin (s : StructSer) (raw : List Val) : List Val :=
  match s.applyActions raw with
  | .ok vs => vs
  | .error _ => []

theorem StructSer.fin_none {s : StructSer} (h : s.actions = none) (raw : List Val) : s.fin raw = raw := by
  simp [StructSer.fin, StructSer.applyActions, h]

theorem Sure.apply {s : StructSer} (h : Sure s) {raw : List Val} (hr : raw.length = s.numValues) : s.applyActions raw = .ok (s.fin raw) := by
  obtain ⟨vs, hv⟩ := h raw hr
  simp only [StructSer.fin, hv]

theorem Sure.sum {x y z : StructSer} (hs : SumIn bo x y z) (hx : Sure x) (hy : Sure y) : Sure z := by
  intro raw hr
  rw [hs.numValues] at hr
  rw [hs.facts.apply raw hr, applyBoth, hx.apply (by rw [List.length_take]; omega), hy.apply (by rw [List.length_drop]; omega)]
  exact ⟨_, rfl⟩

theorem fin_sum {x y z : StructSer} (hs : SumIn bo x y z) (hx : Sure x) (hy : Sure y) {a b : List Val} (ha : a.length = x.numValues)
    (hb : b.length = y.numValues) : z.fin (a ++ b) = x.fin a ++ y.fin b := by
  have hr : (a ++ b).length = x.numValues + y.numValues := by rw [List.length_append, ha, hb]
  have e1 : (a ++ b).take x.numValues = a := by rw [← ha, List.take_left]
  have e2 : (a ++ b).drop x.numValues = b := by rw [← ha, List.drop_left]
  rw [StructSer.fin, hs.facts.apply _ hr, applyBoth, e1, e2, hx.apply ha, hy.apply hb]
  rfl

/-- Reading as part of a run, `o` bytes behind its start. -/
def StructSer.readAt (s : StructSer) (P : Platform) (o : Nat) (b : Bytes) : Parsed (List Val × Nat) :=
  let z := endOff s.byteOrder.isNative s.toks o - o
  if z ≤ b.length then .ok (s.fin (unpackToks P s.byteOrder s.toks o b), z) else .err .structError

theorem struct_unpack {s : StructSer} (ha : Sure s) {P : Platform} {b : Bytes} :
    s.unpack P b = if s.size ≤ b.length then .ok (s.fin (unpackToks P s.byteOrder s.toks 0 b)) else .error .structError := by
  unfold StructSer.unpack structUnpack
  have hz : sizeToks s.byteOrder.isNative s.toks = s.size := rfl
  rw [List.length_take, hz]
  by_cases h : s.size ≤ b.length
  · rw [if_pos (by omega), if_pos h, unpackToks_take _ _ _ _ (by rw [← hz]; simp [sizeToks])]
    simp only [bind, Except.bind]
    exact ha.apply (unpackToks_length ..)
  · rw [if_neg (by omega), if_neg h]
    rfl

theorem parses_struct {s : StructSer} (ha : Sure s) {q : Option PObj} {b : Bytes} : Parses env k (.struct s) q b (s.readAt env.plat 0 b) := by
  refine .leaf (fun n u => rfl) ?_
  have hz : endOff s.byteOrder.isNative s.toks 0 - 0 = s.size := rfl
  simp only [structDec, struct_unpack ha, StructSer.readAt, hz]
  by_cases h : s.size ≤ b.length
  · rw [if_pos h, if_pos h]; exact ⟨rfl, rfl⟩
  · rw [if_neg h, if_neg h]; exact rfl

/-! ### The parts of a compound -/

/-- What is read behind these values. -/
def Spec.Parsed.behind (rest : Parsed (List Val × Nat)) (x : List Val × Nat) : Parsed (List Val × Nat) :=
  rest >>= fun y => .ok (x.1 ++ y.1, x.2 + y.2)

/-- The parts are read as the parser says, struct serializers each as part of its run. -/
def PL (env : Env) (k : Nat) (upd : Upd) : PObj → Nat → Nat → List Ser → Bytes → Parsed (List Val × Nat) → Prop
  | _, _, _, [], _, r => r = .ok ([], 0)
  | p, done, o, .struct st :: ss, b, r => ∃ rest, r = (st.readAt env.plat o b >>= rest.behind) ∧
      ∀ vs n, st.readAt env.plat o b = .ok (vs, n) → ∃ p', upd p done vs = .ok p' ∧ PL env k upd p' (done + vs.length) (o + n) ss (b.drop n) rest
  | p, done, _, s :: ss, b, r => r = .odd ∨ (∃ e, preU s p = .error e ∧ r = .err e) ∨ ∃ s' q r1 rest, preU s p = .ok (s', q) ∧ s'.sized = true ∧
      s'.isLazy = false ∧ Parses env k s' q b r1 ∧ r = (r1 >>= rest.behind) ∧
      ∀ vs n, r1 = .ok (vs, n) → ∃ p', upd p done vs = .ok p' ∧ PL env k upd p' (done + vs.length) 0 ss (b.drop n) rest

/-- A part that is not a struct serializer. -/
def PPart (env : Env) (k : Nat) (upd : Upd) (p : PObj) (done : Nat) (s : Ser) (ss : List Ser) (b : Bytes) (r : Parsed (List Val × Nat)) : Prop :=
  r = .odd ∨ (∃ e, preU s p = .error e ∧ r = .err e) ∨ ∃ s' q r1 rest, preU s p = .ok (s', q) ∧ s'.sized = true ∧
      s'.isLazy = false ∧ Parses env k s' q b r1 ∧ r = (r1 >>= rest.behind) ∧
      ∀ vs n, r1 = .ok (vs, n) → ∃ p', upd p done vs = .ok p' ∧ PL env k upd p' (done + vs.length) 0 ss (b.drop n) rest

theorem PL.part {p : PObj} {done o : Nat} {s : Ser} {ss : List Ser} {b : Bytes} {r : Parsed (List Val × Nat)} (hs : ∀ st, s ≠ .struct st) :
    PL env k upd p done o (s :: ss) b r ↔ PPart env k upd p done s ss b r := by
  cases s
  case struct st => exact absurd rfl (hs st)
  all_goals exact Iff.rfl

theorem pl_congr {xs ys : List Ser} (h : ∀ p done o b r, PL env k upd p done o xs b r → PL env k upd p done o ys b r) :
    ∀ (pr : List Ser) {p : PObj} {done o : Nat} {b : Bytes} {r : Parsed (List Val × Nat)}, PL env k upd p done o (pr ++ xs) b r →
      PL env k upd p done o (pr ++ ys) b r
  | [], p, done, o, b, r, hx => h p done o b r hx
  | s :: pr, p, done, o, b, r, hx => by
    rcases isStruct_dec s with ⟨st, rfl⟩ | hs
    · obtain ⟨rest, h1, h2⟩ := hx
      refine ⟨rest, h1, fun vs n hv => ?_⟩
      obtain ⟨p', h3, h4⟩ := h2 vs n hv
      exact ⟨p', h3, pl_congr h pr h4⟩
    · rw [List.cons_append, PL.part hs] at hx
      rw [List.cons_append, PL.part hs]
      rcases hx with hx | hx | ⟨s', q, r1, rest, h1, h2, h3, h4, h5, h6⟩
      · exact .inl hx
      · exact .inr (.inl hx)
      · refine .inr (.inr ⟨s', q, r1, rest, h1, h2, h3, h4, h5, fun vs n hv => ?_⟩)
        obtain ⟨p', h7, h8⟩ := h6 vs n hv
        exact ⟨p', h7, pl_congr h pr h8⟩

/-- Reading a sum reads the operands one after the other. -/
theorem SumIn.readAt {x y z : StructSer} (h : SumIn bo x y z) (hx : Sure x) (hy : Sure y) {P : Platform} {o : Nat} {b : Bytes} :
    z.readAt P o b = (x.readAt P o b >>= fun a => (y.readAt P (o + a.2) (b.drop a.2)).behind a) := by
  have hyo : y.byteOrder = x.byteOrder := h.ybo.trans h.xbo.symm
  unfold StructSer.readAt
  simp only [h.facts.byteOrder, h.facts.toks.off, h.facts.toks.unpack, endOff_append, unpackToks_append, hyo]
  rw [fin_sum h hx hy (unpackToks_length ..) (unpackToks_length ..)]
  have l1 := le_endOff x.byteOrder.isNative x.toks o
  have l2 := le_endOff x.byteOrder.isNative y.toks (endOff x.byteOrder.isNative x.toks o)
  have e : o + (endOff x.byteOrder.isNative x.toks o - o) = endOff x.byteOrder.isNative x.toks o := by omega
  by_cases h1 : endOff x.byteOrder.isNative x.toks o - o ≤ b.length
  · rw [if_pos h1]
    simp only [Bind.bind, Parsed.bind, Parsed.behind, List.length_drop, e]
    by_cases h2 : endOff x.byteOrder.isNative y.toks (endOff x.byteOrder.isNative x.toks o) - endOff x.byteOrder.isNative x.toks o ≤
        b.length - (endOff x.byteOrder.isNative x.toks o - o)
    · rw [if_pos h2, if_pos (by omega)]
      simp only [Parsed.ok.injEq, Prod.mk.injEq, true_and]
      omega
    · rw [if_neg h2, if_neg (by omega)]
  · rw [if_neg h1, if_neg (by omega)]
    rfl

theorem behind_behind {r : Parsed (List Val × Nat)} {x y : List Val × Nat} : (r.behind x).behind y = r.behind (y.1 ++ x.1, y.2 + x.2) := by
  cases r <;> simp [Parsed.behind, Bind.bind, Parsed.bind, Nat.add_assoc]

/-- The actions of sums do not raise if those of the operands do not. -/
theorem sure_merge {xs ys : List Ser} (hm : Merge (SumIn bo) xs ys) (h : ∀ st, .struct st ∈ xs → Sure st) : ∀ st, .struct st ∈ ys → Sure st := by
  induction hm with
  | refl => exact h
  | null _ ih =>
    refine ih fun st hst => h st ?_
    simp only [List.mem_append, List.mem_cons] at hst ⊢
    rcases hst with hst | hst
    · exact .inl hst
    · exact .inr (.inr hst)
  | @join pr post ys x y z hc _ ih =>
    refine ih fun st hst => ?_
    simp only [List.mem_append, List.mem_cons] at hst
    rcases hst with hst | hst | hst
    · exact h st (by simp [hst])
    · cases hst
      exact .sum hc (h x (by simp)) (h y (by simp))
    · exact h st (by simp [hst])

theorem pl_merge (hu : UpdSeq upd) {xs ys : List Ser} (hm : Merge (SumIn bo) xs ys) (hn : ∀ x ∈ xs, x ≠ .null)
    (hna : ∀ st, .struct st ∈ xs → Sure st) {p : PObj} {done o : Nat} {b : Bytes}
    {r : Parsed (List Val × Nat)} (h : PL env k upd p done o xs b r) : PL env k upd p done o ys b r := by
  induction hm generalizing p done o b r with
  | refl => exact h
  | null => exact absurd rfl (hn .null (by simp))
  | @join pr post ys x y z hc _ ih =>
    have hx := hna x (by simp)
    have hy := hna y (by simp)
    refine ih ?_ ?_ (pl_congr (xs := .struct x :: .struct y :: post) (ys := .struct z :: post) (fun p done o b r hk => ?_) pr h)
    · intro w hw
      simp only [List.mem_append, List.mem_cons] at hw
      rcases hw with hw | rfl | hw
      · exact hn w (by simp [hw])
      · nofun
      · exact hn w (by simp [hw])
    · intro st hst
      simp only [List.mem_append, List.mem_cons] at hst
      rcases hst with hst | hst | hst
      · exact hna st (by simp [hst])
      · cases hst
        exact .sum hc hx hy
      · exact hna st (by simp [hst])
    · obtain ⟨rest, rfl, h1⟩ := hk
      cases ex : x.readAt env.plat o b with
      | ok xv =>
        obtain ⟨vs, n⟩ := xv
        obtain ⟨p1, u1, rest2, rfl, h2⟩ := h1 vs n ex
        refine ⟨rest2, ?_, ?_⟩
        · rw [hc.readAt hx hy, ex]
          simp only [Bind.bind, Parsed.bind]
          cases y.readAt env.plat (o + n) (b.drop n) with
          | ok yv => simp only [Parsed.behind, Bind.bind, Parsed.bind]; cases rest2 <;> simp [Nat.add_assoc]
          | err => rfl
          | deep => rfl
          | odd => rfl
        · intro ws m hz
          rw [hc.readAt hx hy, ex] at hz
          simp only [Bind.bind, Parsed.bind] at hz
          cases ey : y.readAt env.plat (o + n) (b.drop n) with
          | ok yv =>
            obtain ⟨vs2, n2⟩ := yv
            rw [ey] at hz
            simp only [Parsed.behind, Bind.bind, Parsed.bind, Parsed.ok.injEq, Prod.mk.injEq] at hz
            obtain ⟨rfl, rfl⟩ := hz
            obtain ⟨p2, u2, h3⟩ := h2 vs2 n2 ey
            refine ⟨p2, (hu.append p done vs vs2 p2).2 ⟨p1, u1, u2⟩, ?_⟩
            rw [List.drop_drop] at h3
            rw [List.length_append, ← Nat.add_assoc, ← Nat.add_assoc]
            exact h3
          | err => rw [ey] at hz; cases hz
          | deep => rw [ey] at hz; cases hz
          | odd => rw [ey] at hz; cases hz
      | err e =>
        have hz : z.readAt env.plat o b = .err e := by rw [hc.readAt hx hy, ex]; rfl
        exact ⟨.odd, by rw [hz]; rfl, by intro vs n hv; rw [hz] at hv; cases hv⟩
      | deep => unfold StructSer.readAt at ex; simp only at ex; split at ex <;> cases ex
      | odd => unfold StructSer.readAt at ex; simp only at ex; split at ex <;> cases ex

/-- The parts of a compound whose parts see the object that is being read. -/
theorem pl_spec {b0 : Bytes} : ∀ {ss : List Ser} {p : PObj} {done o size : Nat} {r : Parsed (List Val × Nat)}, Apart ss →
    (∀ st, .struct st ∈ ss → Sure st) → (o = 0 ∨ ∀ st zs, ss ≠ .struct st :: zs) → PL env k upd p done o ss (b0.drop size) r →
    Ag k (fun _ : Nat => True) (fun _ d x => d.vals = x.1 ∧ d.size = size + x.2)
      (fun pos n => decLoopSpec (dec env n noUpd) upd (.buf b0) p done size pos ss) r
  | [], p, done, o, size, r, _, _, _, h => by
    cases h
    exact .const fun pos _ => ⟨rfl, rfl⟩
  | s :: ss, p, done, o, size, r, ha, hn, ho, h => by
    -- One part, then the others.
    have key : ∀ {s' : Ser} {q : Option PObj} {r1 rest : Parsed (List Val × Nat)} {o' : Nat}, preU s p = .ok (s', q) → s'.sized = true →
        Parses env k s' q (b0.drop size) r1 → (o' = 0 ∨ ∀ st zs, ss ≠ .struct st :: zs) →
        (∀ vs n, r1 = .ok (vs, n) → ∃ p' o', (o' = 0 ∨ ∀ st zs, ss ≠ .struct st :: zs) ∧ upd p done vs = .ok p' ∧
          PL env k upd p' (done + vs.length) o' ss ((b0.drop size).drop n) rest) →
        Ag k (fun _ : Nat => True) (fun _ d x => d.vals = x.1 ∧ d.size = size + x.2)
          (fun pos n => decLoopSpec (dec env n noUpd) upd (.buf b0) p done size pos (s :: ss)) (r1 >>= rest.behind) := by
      intro s' q r1 rest o' e1 e2 e3 e4 e5
      have h1 : Ag k (fun _ : Nat => True) (fun _ => DecIs) (fun _ n => dec env n noUpd s' q (.buf (b0.drop size))) r1 :=
        e3.comap (T := fun _ : Nat => True) (fun _ => noUpd) (fun _ _ => trivial)
      refine Ag.congr (D := fun pos n => dec env n noUpd s' q (.buf (b0.drop size)) >>= fun a => (Out.ofE (upd p done a.vals) >>= fun p' =>
        decLoopSpec (dec env n noUpd) upd (.buf b0) p' (done + a.vals.length) (size + a.size) a.pos ss >>= fun r =>
          Out.ok (Dec.mk (a.vals ++ r.vals) r.size r.pos (touch s ++ a.touched ++ r.touched)))) (h1.bind (M' := fun _ d x => d.vals = x.1 ∧ d.size = size + x.2) (r' := rest.behind) (D' := fun pos a n => (Out.ofE (upd p done a.vals) >>= fun p' =>
        decLoopSpec (dec env n noUpd) upd (.buf b0) p' (done + a.vals.length) (size + a.size) a.pos ss >>= fun r =>
          Out.ok (Dec.mk (a.vals ++ r.vals) r.size r.pos (touch s ++ a.touched ++ r.touched)))) ?_) ?_
      · rintro ⟨vs, m⟩ hr
        obtain ⟨p', o', h2, h3, h4⟩ := e5 vs m hr
        rw [List.drop_drop] at h4
        have ih := pl_spec ha.tail (fun st hst => hn st (by simp [hst])) h2 h4
        have ih := ih.comap (T := fun x : Nat × Dec => True ∧ DecIs x.2 (vs, m)) (fun x => x.2.pos) (fun _ _ => trivial)
        refine Ag.congr (D := fun x n => decLoopSpec (dec env n noUpd) upd (.buf b0) p' (done + vs.length) (size + m) x.2.pos ss >>= fun r =>
          Out.ok (Dec.mk (vs ++ r.vals) r.size r.pos (touch s ++ x.2.touched ++ r.touched))) (ih.then ?_) ?_
        · rintro x - d y ⟨g1, g2⟩
          exact ⟨by rw [g1], by rw [g2, Nat.add_assoc]⟩
        · rintro ⟨pos, d⟩ ⟨-, g1, g2⟩ n
          simp only at g1 g2
          simp only [g1, g2, h3]
          rfl
      · intro pos _ n
        simp only [decLoopSpec, e1, Out.ofE, Out.ok_bind, PSrc.next, e2, not_true_eq_false, if_false]
    rcases isStruct_dec s with ⟨st, rfl⟩ | hs
    · rcases ho with rfl | ho
      · obtain ⟨rest, rfl, h2⟩ := h
        refine key (o' := 0) (s' := .struct st) (q := none) rfl rfl (parses_struct (hn st (by simp))) (.inl rfl) fun vs n hv => ?_
        obtain ⟨p', h3, h4⟩ := h2 vs n hv
        exact ⟨p', 0 + n, .inr fun st' zs e => ha [] st st' zs (by rw [e]; rfl), h3, h4⟩
      · exact absurd rfl (ho st ss)
    · rw [PL.part hs] at h
      rcases h with rfl | ⟨e, h1, rfl⟩ | ⟨s', q, r1, rest, h1, h2, _, h4, rfl, h6⟩
      · exact .odd
      · refine Ag.congr (D := fun _ _ => .err e) (.const fun _ _ => rfl) fun pos _ n => ?_
        simp only [decLoopSpec, h1]
        rfl
      · refine key (o' := 0) h1 h2 h4 (.inl rfl) fun vs n hv => ?_
        obtain ⟨p', h7, h8⟩ := h6 vs n hv
        exact ⟨p', 0, .inl rfl, h7, h8⟩

/-- The parts of a compound whose parts do not. -/
theorem pl_loop {b0 : Bytes} : ∀ {ss : List Ser} {p : PObj} {done o size : Nat} {r : Parsed (List Val × Nat)}, (∀ s ∈ ss, s.overridesPre = false) → Apart ss →
    (∀ st, .struct st ∈ ss → Sure st) → (o = 0 ∨ ∀ st zs, ss ≠ .struct st :: zs) → PL env k upd p done o ss (b0.drop size) r →
    Ag k (fun _ : Nat => True) (fun _ d x => d.vals = x.1 ∧ d.size = size + x.2)
      (fun pos n => decLoop (dec env n noUpd) (.buf b0) size pos ss) r
  | [], p, done, o, size, r, _, _, _, _, h => by
    cases h
    exact .const fun pos _ => ⟨rfl, rfl⟩
  | s :: ss, p, done, o, size, r, hov, ha, hn, ho, h => by
    have key : ∀ {r1 rest : Parsed (List Val × Nat)}, s.sized = true → Parses env k s none (b0.drop size) r1 →
        (∀ vs n, r1 = .ok (vs, n) → ∃ p' o', (o' = 0 ∨ ∀ st zs, ss ≠ .struct st :: zs) ∧
          PL env k upd p' (done + vs.length) o' ss ((b0.drop size).drop n) rest) →
        Ag k (fun _ : Nat => True) (fun _ d x => d.vals = x.1 ∧ d.size = size + x.2)
          (fun pos n => decLoop (dec env n noUpd) (.buf b0) size pos (s :: ss)) (r1 >>= rest.behind) := by
      intro r1 rest e2 e3 e5
      have h1 : Ag k (fun _ : Nat => True) (fun _ => DecIs) (fun _ n => dec env n noUpd s none (.buf (b0.drop size))) r1 :=
        e3.comap (T := fun _ : Nat => True) (fun _ => noUpd) (fun _ _ => trivial)
      refine Ag.congr (D := fun pos n => dec env n noUpd s none (.buf (b0.drop size)) >>= fun a => (
        decLoop (dec env n noUpd) (.buf b0) (size + a.size) a.pos ss >>= fun r =>
          Out.ok (Dec.mk (a.vals ++ r.vals) r.size r.pos (a.touched ++ r.touched)))) (h1.bind (M' := fun _ d x => d.vals = x.1 ∧ d.size = size + x.2) (r' := rest.behind) (D' := fun pos a n => (
        decLoop (dec env n noUpd) (.buf b0) (size + a.size) a.pos ss >>= fun r =>
          Out.ok (Dec.mk (a.vals ++ r.vals) r.size r.pos (a.touched ++ r.touched)))) ?_) ?_
      · rintro ⟨vs, m⟩ hr
        obtain ⟨p', o', h2, h4⟩ := e5 vs m hr
        rw [List.drop_drop] at h4
        have ih := pl_loop (fun x hx => hov x (by simp [hx])) ha.tail (fun st hst => hn st (by simp [hst])) h2 h4
        have ih := ih.comap (T := fun x : Nat × Dec => True ∧ DecIs x.2 (vs, m)) (fun x => x.2.pos) (fun _ _ => trivial)
        refine Ag.congr (D := fun x n => decLoop (dec env n noUpd) (.buf b0) (size + m) x.2.pos ss >>= fun r =>
          Out.ok (Dec.mk (vs ++ r.vals) r.size r.pos (x.2.touched ++ r.touched))) (ih.then ?_) ?_
        · rintro x - d y ⟨g1, g2⟩
          exact ⟨by rw [g1], by rw [g2, Nat.add_assoc]⟩
        · rintro ⟨pos, d⟩ ⟨-, g1, g2⟩ n
          simp only at g1 g2
          simp only [g1, g2]
      · intro pos _ n
        simp only [decLoop, PSrc.next, e2, not_true_eq_false, if_false]
    rcases isStruct_dec s with ⟨st, rfl⟩ | hs
    · rcases ho with rfl | ho
      · obtain ⟨rest, rfl, h2⟩ := h
        refine key rfl (parses_struct (hn st (by simp))) fun vs n hv => ?_
        obtain ⟨p', _, h4⟩ := h2 vs n hv
        exact ⟨p', 0 + n, .inr fun st' zs e => ha [] st st' zs (by rw [e]; rfl), h4⟩
      · exact absurd rfl (ho st ss)
    · have hp := preU_same (pre_overrides (hov s (by simp)) p)
      rw [PL.part hs] at h
      rcases h with rfl | ⟨e, h1, rfl⟩ | ⟨s', q, r1, rest, h1, h2, _, h4, rfl, h6⟩
      · exact .odd
      · rw [hp] at h1; cases h1
      · rw [hp] at h1
        cases h1
        refine key h2 h4 fun vs n hv => ?_
        obtain ⟨p', _, h8⟩ := h6 vs n hv
        exact ⟨p', 0, .inl rfl, h8⟩

end Verif
