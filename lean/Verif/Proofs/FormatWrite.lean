import Verif.Proofs.FormatRuns
import Verif.Proofs.AddRun
import Verif.Proofs.ThreadPack
/-
Lemmas for the documented byte format: the serializers of a format write the bytes of the format.
-/
namespace Verif
open Spec Sem

variable {bo : ByteOrder} {cf : ClassId → Bool} {env : Env}

theorem Gives.inv {x : Out Enc} {c : Bytes} {f : Enc → Out Enc} (h : Gives (x >>= f) c) :
    x = .stuck ∨ ∃ b t, x = .ok ⟨b, t⟩ ∧ Gives (f ⟨b, t⟩) c := by
  cases x with
  | ok a => exact .inr ⟨a.bytes, a.touched, rfl, h⟩
  | err e => rcases h with h | ⟨t, h⟩ <;> cases h
  | stuck => exact .inl rfl

/-! ### The parts of a compound -/

variable {n : Nat}

theorem merge_mem {J : StructSer → StructSer → StructSer → Prop} {xs ys : List Ser} (h : Merge J xs ys) :
    ∀ y ∈ ys, y ∈ xs ∨ ∃ st, y = .struct st := by
  induction h with
  | refl xs => exact fun y hy => .inl hy
  | @null p post ys _ ih =>
    intro y hy
    rcases ih y hy with h | h
    · left; simp only [List.mem_append, List.mem_cons] at h ⊢; rcases h with h | h <;> simp [h]
    · exact .inr h
  | @join p post ys x y z _ _ ih =>
    intro w hw
    rcases ih w hw with h | h
    · simp only [List.mem_append, List.mem_cons] at h ⊢
      rcases h with h | h | h
      · exact .inl (.inl h)
      · exact .inr ⟨_, h⟩
      · exact .inl (.inr (.inr (.inr h)))
    · exact .inr h

theorem merge_keeps {J : StructSer → StructSer → StructSer → Prop} {xs ys : List Ser} (h : Merge J xs ys) :
    ∀ x ∈ xs, x ∈ ys ∨ x.keeper = Option.none := by
  induction h with
  | refl xs => exact fun y hy => .inl hy
  | @null p post ys _ ih =>
    intro y hy
    simp only [List.mem_append, List.mem_cons] at hy
    rcases hy with h | rfl | h
    · exact ih y (by simp [h])
    · exact .inr rfl
    · exact ih y (by simp [h])
  | @join p post ys x y z _ _ ih =>
    intro w hw
    simp only [List.mem_append, List.mem_cons] at hw
    rcases hw with h | rfl | rfl | h
    · exact ih w (by simp [h])
    · exact .inr rfl
    · exact .inr rfl
    · exact ih w (by simp [h])

theorem merge_numValues {xs ys : List Ser} (h : Merge (SumIn bo) xs ys) : (xs.map Ser.numValues).sum = (ys.map Ser.numValues).sum := by
  induction h with
  | refl xs => rfl
  | @null p post ys _ ih => rw [← ih]; simp [Ser.numValues]
  | @join p post ys x y z hc _ ih => rw [← ih]; simp [Ser.numValues, hc.numValues]; omega

theorem keeper_overrides {s : Ser} (h : s.overridesPre = false) : s.keeper = Option.none := by
  cases s <;> first | rfl | cases h

theorem pre_overrides {s : Ser} (h : s.overridesPre = false) (p : PObj) : pre s p = .ok (s, Option.none) := by
  cases s <;> first | rfl | cases h

theorem merge_lone {J : StructSer → StructSer → StructSer → Prop} {xs ys : List Ser} (h : Merge J xs ys) {s : Ser} (hy : ys = [s])
    (hs : ∀ st, s ≠ .struct st) (hn : ∀ x ∈ xs, x ≠ .null) : xs = [s] := by
  induction h with
  | refl xs => exact hy
  | null => exact absurd rfl (hn .null (by simp))
  | @join p post ys x y z _ _ ih =>
    have := ih hy (fun w hw => by
      simp only [List.mem_append, List.mem_cons] at hw
      rcases hw with hw | rfl | hw
      · exact hn w (by simp [hw])
      · nofun
      · exact hn w (by simp [hw]))
    have hz : Ser.struct z ∈ [s] := by rw [← this]; simp
    simp only [List.mem_singleton] at hz
    exact absurd hz.symm (hs z)

/-- Parts that need no partial object. -/
theorem encLoop_pure {encN : Ser → Option PObj → List Val → Out Enc} (p : PObj) : ∀ {ss : List Ser} {vs : List Val} {b : Bytes},
    (∀ s ∈ ss, s.overridesPre = false) → Gives (encLoop encN (fun s => pre s p) touch ss vs) b →
    Gives (encLoop encN (fun s => .ok (s, Option.none)) (fun _ => []) ss vs) b
  | [], _, _, _, h => h
  | s :: ss, vs, b, hn, h => by
    have ih : ∀ c, _ → _ := fun c => encLoop_pure (encN := encN) p (ss := ss) (vs := vs.drop s.numValues) (b := c) (fun x hx => hn x (by simp [hx]))
    simp only [encLoop, pre_overrides (hn s (by simp)), Out.ofE, Out.ok_bind] at h ⊢
    rcases h.inv with h1 | ⟨b1, t1, h1, h2⟩
    · rw [h1]; exact .inl rfl
    · rw [h1]
      simp only [Out.ok_bind]
      by_cases hs : s.sized = true
      · simp only [hs, not_true_eq_false, if_false] at h2 ⊢
        rcases h2.inv with h3 | ⟨b2, t2, h3, h4⟩
        · rcases ih [] (.inl h3) with h5 | ⟨t5, h5⟩
          · rw [h5]; exact .inl rfl
          · rcases ih [0] (.inl h3) with h6 | ⟨t6, h6⟩ <;> (rw [h5] at h6; cases h6)
        · rcases h4 with h4 | ⟨t4, h4⟩ <;> cases h4
          exact (ih b2 (.inr ⟨t2, h3⟩)).bind fun t => .ok
      · rw [if_pos hs] at h2
        rcases h2 with h2 | ⟨t, h2⟩ <;> cases h2

/-- A sum of fields writes what the fields write. -/
theorem whole_enc {s : Ser} {ss : List Ser} {vs : List Val} {b : Bytes} {K : Nat} {p : PObj} (hm : Merge (SumIn bo) ss (parts s))
    (ha : Apart (parts s)) (hnn : ∀ x ∈ ss, x ≠ .null) (hs : Simple s ∨ ∃ id xs, s = .compound id xs)
    (hl : vs.length = (ss.map Ser.numValues).sum) (h : ∀ n ≥ K, GL env n p 0 ss vs b) :
    ∃ s' q, pre s p = .ok (s', q) ∧ ∀ n ≥ K + 2, Gives (enc env n s' q vs) b := by
  have hg : ∀ n ≥ K, GL env n p 0 (parts s) vs b := fun n hn => gl_merge hm hnn (h n hn)
  have h' : ∀ n ≥ K + 1, Gives (encLoop (enc env n) (fun s => pre s p) touch (parts s) vs) b := by
    intro n hn
    obtain ⟨m, rfl⟩ : ∃ m, n = m + 1 := ⟨n - 1, by omega⟩
    exact gl_enc ha (.inl rfl) (hg (m + 1) (by omega))
  rcases hs with hs | ⟨id, xs, rfl⟩
  · rcases parts_simple hs with ⟨hp, rfl⟩ | hp
    · refine ⟨.null, none, rfl, fun n hn => ?_⟩
      obtain ⟨m, rfl⟩ : ∃ m, n = m + 1 := ⟨n - 1, by omega⟩
      have := h' (m + 1) (by omega)
      rw [hp] at this
      exact this
    · rw [hp] at h'
      have h0 := h' (K + 1) (Nat.le_refl _)
      simp only [encLoop] at h0 h'
      cases hq : pre s p with
      | error e =>
        rw [hq] at h0
        rcases h0 with h0 | ⟨t, h0⟩ <;> cases h0
      | ok sq =>
        obtain ⟨s', q⟩ := sq
        have hnk : s'.numValues = s.numValues := by
          rcases isStruct_dec s with ⟨st, rfl⟩ | hns
          · cases hq; rfl
          · have := hg K (Nat.le_refl _)
            rw [hp] at this
            obtain ⟨_, _, ⟨s2, q2, h1, _, h2, _⟩, _⟩ := GL.inv hns this
            rw [hq] at h1
            cases h1
            exact h2
        have hnv : vs.length = s'.numValues := by
          rw [hl, merge_numValues hm, hp, hnk]; simp
        refine ⟨s', q, rfl, fun n hn => ?_⟩
        have := h' n (by omega)
        simp only [hq, Out.ofE, Out.ok_bind] at this
        rw [List.take_of_length_le (by omega)] at this
        rcases this.inv with h1 | ⟨b1, t, h1, h2⟩
        · exact .inl h1
        · by_cases hsz : s'.sized = true
          · simp only [hsz, not_true_eq_false, if_false] at h2
            rcases h2 with h2 | ⟨t, h2⟩ <;> cases h2
            rw [h1, List.append_nil]
            exact .ok
          · rw [if_pos hsz] at h2
            rcases h2 with h2 | ⟨t, h2⟩ <;> cases h2
  · by_cases hnp : needsPreprocess xs = true
    · refine ⟨.specialized id p xs, none, by simp [pre, hnp], fun n hn => ?_⟩
      obtain ⟨m, rfl⟩ : ∃ m, n = m + 1 := ⟨n - 1, by omega⟩
      exact h' m (by omega)
    · refine ⟨.compound id xs, none, by simp [pre, hnp], fun n hn => ?_⟩
      obtain ⟨m, rfl⟩ : ∃ m, n = m + 1 := ⟨n - 1, by omega⟩
      exact encLoop_pure p (Threads.needs_false hnp) (h' m (by omega))

/-! ### Formats -/

/-- The serializer, with the partial object that it was given, writes one value as `w` says. -/
structure EncW (env : Env) (s : Ser) (q : Option PObj) (w : Val → Option Bytes) : Prop where
  one : s.numValues = 1
  sized : s.sized = true
  enc : ∀ v b, w v = some b → ∃ K, ∀ n ≥ K, Gives (Sem.enc env n s q [v]) b

/-- The serializer writes one value each time, as `w` says. -/
structure Writes1 (env : Env) (s : Ser) (w : PObj → Val → Option Bytes) : Prop where
  one : s.numValues = 1
  szd : s.sized = true ∨ ∃ id, s = .selfT id
  enc : ∀ p, ∃ s' q, pre s p = .ok (s', q) ∧ EncW env s' q (w p)

theorem Writes1.leaf {s : Ser} {w : PObj → Val → Option Bytes} (h1 : s.numValues = 1) (h2 : s.sized = true) (h3 : s.overridesPre = false)
    (h4 : ∀ p v b, w p v = some b → ∃ K, ∀ n ≥ K, Gives (Sem.enc env n s none [v]) b) : Writes1 env s w :=
  ⟨h1, .inl h2, fun p => ⟨s, none, pre_overrides h3 p, h1, h2, h4 p⟩⟩

theorem Writes1.same {s : Ser} {w : PObj → Val → Option Bytes} (h : Writes1 env s w) (hs : s.overridesPre = false) (p : PObj) :
    EncW env s none (w p) := by
  obtain ⟨s', q, h1, h2⟩ := h.enc p
  rw [pre_overrides hs] at h1
  cases h1
  exact h2

theorem Writes1.kept {s : Ser} {w : PObj → Val → Option Bytes} (h1 : s.numValues = 1) (h2 : s.sized = true)
    (h3 : ∀ p, pre s p = .ok (s, some p))
    (h4 : ∀ p v b, w p v = some b → ∃ K, ∀ n ≥ K, Gives (Sem.enc env n s (some p) [v]) b) : Writes1 env s w :=
  ⟨h1, .inl h2, fun p => ⟨s, some p, h3 p, h1, h2, h4 p⟩⟩

theorem items_enc {s : Ser} {q : Option PObj} {w : Val → Option Bytes} (hw : EncW env s q w) : ∀ (vs : List Val) (b : Bytes),
    gather w vs = some b → ∃ K, ∀ n ≥ K, Gives (encItems (enc env n) s q vs) b
  | [], b, h => by cases h; exact ⟨0, fun n _ => .ok⟩
  | v :: vs, b, h => by
    simp only [gather] at h
    split at h
    · rename_i b1 b2 h1 h2
      cases h
      obtain ⟨K1, h3⟩ := hw.enc v b1 h1
      obtain ⟨K2, h4⟩ := items_enc hw vs b2 h2
      refine ⟨max K1 K2, fun n hn => ?_⟩
      rw [encItems]
      refine (h3 n (by omega)).bind fun t => ?_
      simp only [hw.sized, not_true_eq_false, if_false]
      by_cases ht : s.keeper.any (t.contains ·) = true
      · rw [if_pos ht]; exact .inl rfl
      · rw [if_neg ht]
        exact (h4 n (by omega)).bind fun t' => .ok
    · cases h

theorem basic_writes {t : Tok} {s : Ser} {w : PObj → Val → Option Bytes} (h : IsItem bo t s) (ht : t.numVals = 1)
    (hw : ∀ p (st : StructSer) v b, st.toks = [t] → st.byteOrder = bo → w p v = some b → st.pack env.plat [v] = .ok b) : Writes1 env s w := by
  obtain ⟨st, rfl, h⟩ := h
  refine .leaf (h.numValues ht) rfl rfl fun p v b hb => ⟨1, fun n hn => ?_⟩
  obtain ⟨m, rfl⟩ : ∃ m, n = m + 1 := ⟨n - 1, by omega⟩
  exact .leaf (hw p st v b h.toks h.order hb)

theorem writes_pack {st : StructSer} {w : Val → Option Bytes} (h : EncW env (.struct st) none w) {v : Val} {b : Bytes} (hw : w v = some b) :
    st.pack env.plat [v] = .ok b := by
  obtain ⟨K, hK⟩ := h.enc v b hw
  rcases hK (K + 1) (by omega) with h3 | ⟨t, h3⟩
  · simp only [enc, encLeaf] at h3
    split at h3 <;> cases h3
  · simp only [enc] at h3
    exact (encLeaf_ok h3).1

theorem int_writes {s : Bool} {w : Size} {st : StructSer} {P : Platform} {i : Int} (ht : st.toks = [⟨1, .int s w.wd⟩]) (ho : st.byteOrder = bo)
    (hi : InRange s w.bytes i) : st.pack P [.int i] = .ok (intBytes P bo w.bytes i) := by
  rw [← intBytes_pack (w.mem s) P bo i hi, single_pack ht rfl, single_pack (c := .int s w.wd) _ rfl, ho]
  · congr 1
    cases s <;> cases w <;> cases bo <;> rfl
  · cases s <;> cases w <;> cases bo <;> rfl

theorem count_pack {w : Size} {P : Platform} {k : Nat} (hk : k < 256 ^ w.bytes) :
    (intSer bo (w.code false)).pack P [.int k] = .ok (intBytes P bo w.bytes k) :=
  intBytes_pack (w.mem false) P bo k (inRange_count.2 hk)

theorem prefixed_some {P : Platform} {w : Size} {k : Nat} {b d : Bytes} (h : prefixed P bo w k b = some d) :
    k < 256 ^ w.bytes ∧ d = intBytes P bo w.bytes k ++ b := by
  unfold prefixed at h
  split at h
  · cases h; exact ⟨by assumption, rfl⟩
  · cases h

/-- A header of two counts. -/
theorem sized_pack {w w2 : Size} {h : StructSer} (ha : (intSer bo (w.code false)).add (intSer bo (w2.code false)) = .ok h) :
    h.numValues = 2 ∧ ∀ (P : Platform) (j k : Nat), j < 256 ^ w.bytes → k < 256 ^ w2.bytes →
      h.pack P [.int j, .int k] = .ok (intBytes P bo w.bytes j ++ (List.replicate (gap bo w.bytes (some (w2.bytes, w2.bytes))) 0 ++
        intBytes P bo w2.bytes k)) := by
  obtain ⟨wd, t1, w1, o1, f1, p1, s1⟩ := intSer_facts (w.mem false) bo
  obtain ⟨wd2, t2, _, o2, f2, p2, s2⟩ := intSer_facts (w2.mem false) bo
  have hsg : SingleItem (intSer bo (w2.code false)).baseFormat := ⟨[], w2.code false, by cases w2 <;> cases bo <;> rfl, by simp, by cases w2 <;> rfl⟩
  have key : SumIn bo (intSer bo (w.code false)) (intSer bo (w2.code false)) h := ⟨ha, ⟨f1, by simp [intSer]⟩, ⟨f2, by simp [intSer]⟩, o1, o2, hsg⟩
  have n1 : ∀ w : Size, (intSer bo (w.code false)).numValues = 1 := by intro w; cases w <;> cases bo <;> rfl
  have hn : h.numValues = 2 := by rw [key.numValues, n1, n1]
  refine ⟨hn, fun P j k hj hk => ?_⟩
  have e1 := count_pack (bo := bo) (P := P) hj
  have e2 := count_pack (bo := bo) (P := P) hk
  have hb : BasicSer bo ⟨1, .int false w2.wd⟩ (intSer bo (w2.code false)) :=
    ⟨⟨f2, by simp [intSer]⟩, o2, hsg, by cases w2 <;> cases bo <;> rfl, rfl, by cases w2 <;> cases bo <;> rfl⟩
  have e3 := (item_packAt (k := w.bytes) (w := w2.bytes) (a := w2.bytes) hb.tok (fun nat => by cases nat <;> cases w2 <;> rfl) (by cases w2 <;> rfl)
    (by cases w2 <;> simp [Size.bytes]) e2).1
  have hl : (intBytes P bo w.bytes j).length = w.bytes := by rw [structSer_pack_length e1, s1]
  have := key.packAt (P := P) (o := 0) (vs := [.int j, .int k]) (b1 := intBytes P bo w.bytes j) (by rw [n1, packAt_zero]; exact e1)
    (b2 := List.replicate (gap bo w.bytes (some (w2.bytes, w2.bytes))) 0 ++ intBytes P bo w2.bytes k)
    (by rw [n1, n1, hl, Nat.zero_add]; exact e3)
  rw [hn, packAt_zero] at this
  exact this

theorem asBytes_bytes (b : Bytes) : (Val.bytes b).asBytes = some b := rfl

/-- Packing many fixed-size items. -/
theorem each_gather {st : StructSer} {w : Val → Option Bytes} (h : ∀ v b, w v = some b → st.pack env.plat [v] = .ok b) :
    ∀ (vs : List Val) (b : Bytes), gather w vs = some b → packEach env.plat st vs = .ok b
  | [], b, h1 => by cases h1; rfl
  | v :: vs, b, h1 => by
    simp only [gather] at h1
    split at h1
    · rename_i b1 b2 e1 e2
      cases h1
      simp only [packEach, h v b1 e1, each_gather h vs b2 e2]
      rfl
    · cases h1

theorem is_basic_toks {f : Fmt} {st : StructSer} (hf : f.basic.isSome) (hg : f.Is cf bo (.struct st)) : ∃ t, OneTok bo t st ∧ t.numVals = 1 := by
  by_cases hd : f.direct = true
  · obtain ⟨t, ⟨st', e, h⟩, ht⟩ := is_direct hd hg
    cases e
    exact ⟨t, h.tok, ht⟩
  · cases f <;> try exact absurd hf hd
    obtain ⟨st', e, h1, h2⟩ := hg
    cases e
    obtain ⟨t, ⟨_, e, h⟩, ht⟩ := is_direct h1 h2
    cases e
    exact ⟨t, h.tok.made ht _, ht⟩

/-- The objects of each class are written as `W` says. -/
def ObjWrites (env : Env) (W : ClassId → Val → Option Bytes) : Prop :=
  ∀ c v b, W c v = some b → ∃ K, ∀ n ≥ K, ∀ id c', Gives (enc env n (.structured id c') Option.none [v]) b

variable {W : ClassId → Val → Option Bytes}

/-- Each of the serializers writes its format. -/
def AllW (env : Env) (bo : ByteOrder) (W : ClassId → Val → Option Bytes) : List Fmt → List Ser → Prop
  | [], ss => ss = []
  | f :: fs, ss => ∃ x xs, ss = x :: xs ∧ Writes1 env x (fun o v => f.write env.plat bo W o v) ∧ AllW env bo W fs xs

theorem is_basic_none {f : Fmt} {s : Ser} (h : f.Is cf bo s) (hs : ∀ st, s ≠ .struct st) : f.basic = none := by
  cases hb : f.basic with
  | none => rfl
  | some x =>
    exfalso
    cases f <;> simp only [Fmt.basic] at hb <;> (try cases hb) <;> (simp only [Fmt.Is] at h; obtain ⟨st, rfl, _⟩ := h; exact hs _ rfl)

/-- A value as part of a run. -/
theorem value_gl {p : PObj} {f : Fmt} {x : Ser} {xs : List Ser} {v : Val} {vs : List Val} {b1 b2 : Bytes} {k K : Nat} (hi : f.Is cf bo x)
    (hw : Writes1 env x (fun o v => f.write env.plat bo W o v)) (e1 : f.write env.plat bo W p v = some b1)
    (h : ∀ n ≥ K, GL env n p (after bo k f.basic) xs vs b2) :
    ∃ K, ∀ n ≥ K, GL env n p k (x :: xs) (v :: vs) (List.replicate (gap bo k f.basic) 0 ++ b1 ++ b2) := by
  obtain ⟨s', q, hq, he⟩ := hw.enc p
  rcases isStruct_dec x with ⟨st, rfl⟩ | hns
  · cases hq
    have hn : st.numValues = 1 := hw.one
    obtain ⟨g1, g2⟩ := is_packAt (P := env.plat) k hi (writes_pack he e1)
    refine ⟨K, fun n hn' => ⟨_, b2, by rw [hn]; exact g1, ?_, rfl⟩⟩
    rw [g2, hn]
    exact h n hn'
  · rw [is_basic_none hi hns] at h ⊢
    obtain ⟨K1, hK1⟩ := he.enc v b1 e1
    refine ⟨max K1 K, fun n hn' => ?_⟩
    simp only [gap, List.replicate_zero, List.nil_append]
    refine GL.part k hns ⟨s', q, hq, he.sized, by rw [he.one, hw.one], ?_⟩ ?_
    · rw [hw.one]; exact hK1 n (by omega)
    · rw [hw.one]; exact h n (by omega)

theorem allW_loop (p : PObj) : ∀ {fs : List Fmt} {ss : List Ser} {vs : List Val} {b : Bytes} {k : Nat}, Fmt.IsL cf bo fs ss → AllW env bo W fs ss →
    Fmt.writes env.plat bo W p k fs vs = some b → vs.length = (ss.map Ser.numValues).sum ∧ ∃ K, ∀ n ≥ K, GL env n p k ss vs b
  | [], _, vs, b, k, _, h, hv => by
    cases h
    cases vs with
    | nil => cases hv; exact ⟨rfl, 0, fun n _ => rfl⟩
    | cons => cases hv
  | f :: fs, _, vs, b, k, hi, h, hv => by
    obtain ⟨x, xs, rfl, h1, h2⟩ := h
    obtain ⟨_, _, e, hi1, hi2⟩ := hi
    cases e
    cases vs with
    | nil => cases hv
    | cons v vs =>
      simp only [Fmt.writes] at hv
      split at hv
      · rename_i b1 b2 e1 e2
        cases hv
        obtain ⟨hl, K2, hK2⟩ := allW_loop p hi2 h2 e2
        exact ⟨by simp [hl, h1.one]; omega, value_gl hi1 h1 e1 hK2⟩
      · cases hv

theorem allW_at {p : PObj} : ∀ {fs : List Fmt} {ss : List Ser} {k : Nat} {v : Val} {b : Bytes}, AllW env bo W fs ss →
    Fmt.writeAt env.plat bo W p fs k v = some b → ∃ x f, ss[k]? = some x ∧ fs[k]? = some f ∧
      Writes1 env x (fun o v => f.write env.plat bo W o v) ∧ f.write env.plat bo W p v = some b
  | [], _, k, v, b, _, hv => by cases hv
  | f :: fs, _, 0, v, b, h, hv => by
    obtain ⟨x, xs, rfl, h1, h2⟩ := h
    exact ⟨x, f, rfl, rfl, h1, hv⟩
  | f :: fs, _, k + 1, v, b, h, hv => by
    obtain ⟨x, xs, rfl, h1, h2⟩ := h
    obtain ⟨y, g, i1, i2, i3⟩ := allW_at h2 (show Fmt.writeAt env.plat bo W p fs k v = some b from hv)
    exact ⟨y, g, by simpa using i1, by simpa using i2, i3⟩

/-- Which format a union takes. -/
theorem unionPick_key {keys : List Val} {os : List Ser} {d s : Ser} {r : Val} {k : Nat} (hk : keyAt keys r = some k) (hs : os[k]? = some s) :
    unionPick keys os d r = .ok s := by
  unfold keyAt at hk
  split at hk
  · rename_i hh
    have key : ∀ (keys : List Val) (os : List Ser) (k : Nat), keys.findIdx? (·.keyEq r) = some k → os[k]? = some s → lookupOpt keys os r = some s := by
      intro keys
      induction keys with
      | nil => intro os k h; cases h
      | cons a keys ih =>
        intro os k h ho
        rw [List.findIdx?_cons] at h
        cases os with
        | nil => simp at ho
        | cons o os =>
          by_cases ha : a.keyEq r = true
          · simp only [ha, if_true, Option.some.injEq] at h
            subst h
            simp only [List.getElem?_cons_zero, Option.some.injEq] at ho
            simp [lookupOpt, ha, ho]
          · simp only [ha, Bool.false_eq_true, if_false, Option.map_eq_some_iff] at h
            obtain ⟨j, h, rfl⟩ := h
            have := ih os j h (by simpa using ho)
            simpa [lookupOpt, ha] using this
    simp [unionPick, hh, key keys os k hk hs]
  · cases hk

theorem unionPick_other {keys : List Val} {os : List Ser} {d : Ser} {r : Val} (hk : keyAt keys r = none) (hh : r.hashable = true) (hd : d ≠ .null) :
    unionPick keys os d r = .ok d := by
  unfold keyAt at hk
  rw [if_pos hh, List.findIdx?_eq_none_iff] at hk
  have key : ∀ (keys : List Val) (os : List Ser), (∀ x ∈ keys, x.keyEq r = false) → lookupOpt keys os r = none := by
    intro keys os h
    unfold lookupOpt
    rw [Option.map_eq_none_iff, List.find?_eq_none]
    intro x hx
    have := (List.of_mem_zip (a := x.1) (b := x.2) hx).1
    simp [h x.1 this]
  simp only [unionPick, hh, not_true_eq_false, if_false, key keys os hk]

/-- A union writes what the format that was chosen writes. -/
theorem union_enc {p : PObj} {keys : List Val} {os : List Ser} {d x : Ser} {r v : Val} {b : Bytes} {w : PObj → Val → Option Bytes}
    (hp : unionPick keys os d r = .ok x) (hx : Writes1 env x w) (hv : w p v = some b) :
    ∃ K, ∀ n ≥ K, Gives (encUnion (enc env n) keys os d p r [v]) b := by
  obtain ⟨s', q, h1, h2⟩ := hx.enc p
  obtain ⟨K, hK⟩ := h2.enc v b hv
  refine ⟨K, fun n hn => ?_⟩
  simp only [encUnion, hp, h1, Out.ofE, Out.ok_bind]
  refine (hK n hn).bind fun t => ?_
  simp only [h2.sized, not_true_eq_false, if_false]
  exact .ok

theorem plain_overrides {f : Fmt} {s : Ser} (hf : f.plain = true) (h : f.Is cf bo s) : s.overridesPre = false := by
  cases f <;> simp only [Fmt.plain] at hf <;> (try cases hf) <;> simp only [Fmt.Is] at h
  case int => obtain ⟨_, rfl, _⟩ := h; rfl
  case bool => obtain ⟨_, rfl, _⟩ := h; rfl
  case half => obtain ⟨_, rfl, _⟩ := h; rfl
  case single => obtain ⟨_, rfl, _⟩ := h; rfl
  case double => obtain ⟨_, rfl, _⟩ := h; rfl
  case pascal => obtain ⟨_, rfl, _⟩ := h; rfl
  case chars => obtain ⟨_, rfl, _⟩ := h; rfl
  case via => obtain ⟨_, rfl, _⟩ := h; rfl
  case counted => obtain ⟨_, rfl⟩ := h; rfl
  case «until» => obtain ⟨_, rfl⟩ := h; rfl
  case rest => obtain ⟨_, rfl⟩ := h; rfl
  case net => obtain ⟨_, rfl⟩ := h; rfl
  case text => obtain ⟨_, rfl, _⟩ := h; rfl
  case obj => obtain ⟨_, rfl⟩ := h; rfl
  case fixed =>
    rcases h with ⟨_, _, rfl, _⟩ | ⟨_, _, _, hn, _⟩
    · rfl
    · rw [hn] at hf; cases hf

theorem bracket_plain {f : Fmt} (h : f.bracket.isSome = true) : f.plain = true := by
  cases f <;> first | rfl | cases h

theorem is_selfT {f : Fmt} {id : SerId} (h : f.Is cf bo (.selfT id)) : f = .me := by
  cases f <;> simp only [Fmt.Is] at h <;> first
    | rfl
    | (obtain ⟨_, h⟩ := h; cases h; done)
    | (obtain ⟨_, h, _⟩ := h; cases h; done)
    | (obtain ⟨_, _, h, _⟩ := h; cases h; done)
    | (obtain ⟨_, _, _, h, _⟩ := h; cases h; done)
    | (obtain ⟨_, _, _, _, h, _⟩ := h; cases h; done)
    | (rcases h with ⟨_, _, h, _⟩ | ⟨_, _, h, _⟩ <;> cases h; done)
    | (obtain ⟨_, _, _, _, ⟨_, h⟩ | ⟨_, _, _, _, _, h⟩⟩ := h <;> cases h)

theorem netLength_some {P : Platform} {k : Nat} {b : Bytes} (h : netLength P k = some b) : k ≤ 0x7FFF ∧ netHeader P k = b := by
  unfold netLength at h
  unfold netHeader
  by_cases h1 : k < 128
  · rw [if_pos h1] at h ⊢
    cases h
    exact ⟨by omega, rfl⟩
  · rw [if_neg h1] at h ⊢
    split at h
    · rename_i h2
      simp only [Bool.and_eq_true, decide_eq_true_eq] at h2
      cases h
      refine ⟨by omega, ?_⟩
      simp only [intBytes, h2.1, if_true]
      have e1 : (((128 + k % 128 + 256 * (k / 128) : Nat) : Int) % 256).toNat = 128 + k % 128 := by omega
      have e2 : (((128 + k % 128 + 256 * (k / 128) : Nat) : Int) / 256 % 256).toNat = k / 128 := by omega
      generalize (((128 + k % 128 + 256 * (k / 128) : Nat) : Int)) = m at e1 e2
      have r : List.range 2 = [0, 1] := rfl
      simp only [digitsLE, r, List.map_cons, List.map_nil, Int.pow_zero, Int.ediv_one, Int.pow_succ, Int.one_mul, e1, e2]
    · cases h

/-! ### Objects of types made from numbers or bytes -/

theorem meant_strip : ∀ v : Val, (meant v).strip = v.strip
  | .custom _ v => by rw [meant, Val.strip]; exact meant_strip v
  | .none | .int _ | .bool _ | .float _ | .bytes _ | .str _ | .list _ | .tup _ | .obj .. | .gen => rfl

theorem meant_truthy : ∀ v : Val, (meant v).truthy = v.truthy
  | .custom _ v => by rw [meant, Val.truthy]; exact meant_truthy v
  | .none | .int _ | .bool _ | .float _ | .bytes _ | .str _ | .list _ | .tup _ | .obj .. | .gen => rfl

theorem meant_index (v : Val) : (meant v).asIndex = v.asIndex := by unfold Val.asIndex; rw [meant_strip]
theorem meant_float (P : Platform) (v : Val) : (meant v).asFloat P = v.asFloat P := by unfold Val.asFloat; rw [meant_strip]
theorem meant_bytes (v : Val) : (meant v).asBytes = v.asBytes := by unfold Val.asBytes; rw [meant_strip]

theorem packOne_meant {P : Platform} {c : Code} (v : Val) : packOne P bo c (meant v) = packOne P bo c v := by
  simp only [packOne, tooLarge, meant_index, meant_float, meant_bytes, meant_truthy]

theorem pack_meant {P : Platform} {t : Tok} {st : StructSer} (h : st.toks = [t]) (ht : t.numVals = 1) (v : Val) :
    st.pack P [meant v] = st.pack P [v] := by
  obtain ⟨n, c⟩ := t
  by_cases h1 : c = .str
  · subst h1; rw [str_pack h, str_pack h, meant_bytes]
  · by_cases h2 : c = .pas
    · subst h2; rw [pas_pack h, pas_pack h, meant_bytes]
    · have hn : n = 1 ∧ c.isSingle = true := by
        cases c <;> simp only [Tok.numVals] at ht <;> first | exact ⟨ht, rfl⟩ | (cases ht; done) | exact absurd rfl h1 | exact absurd rfl h2
      obtain ⟨rfl, hc⟩ := hn
      rw [single_pack h hc, single_pack h hc, packOne_meant]

theorem stored_meant {P : Platform} {nat : Bool} (t : Tok) (v : Val) (ht : t.numVals = 1) : storedToks P nat [t] [meant v] = storedToks P nat [t] [v] := by
  obtain ⟨n, c⟩ := t
  simp only [storedToks, ht, List.take_succ_cons, List.take_zero, List.append_nil]
  cases c <;> simp only [storedTok, storedOne, List.map_cons, List.map_nil, meant_index, meant_float, meant_bytes, meant_truthy]

mutual
theorem is_writes (hW : ObjWrites env W) : ∀ (f : Fmt) (bo : ByteOrder) (s : Ser), f.good bo = true → f.Is cf bo s → Writes1 env s (fun o v => f.write env.plat bo W o v)
  | .int sg w, bo, s, _, h => by
    refine basic_writes h rfl fun p st v b h1 h2 hv => ?_
    simp only [Fmt.write] at hv
    split at hv
    · split at hv
      · cases hv; exact int_writes h1 h2 (by assumption)
      · cases hv
    · cases hv
  | .bool, bo, s, _, h => by
    refine basic_writes h rfl fun p st v b h1 h2 hv => ?_
    simp only [Fmt.write] at hv
    split at hv
    · cases hv; rw [single_pack h1 rfl]; rfl
    · cases hv
  | .half, bo, s, _, h => by
    refine basic_writes h rfl fun p st v b h1 h2 hv => ?_
    simp only [Fmt.write] at hv
    split at hv
    · obtain ⟨u, hu, rfl⟩ := Option.map_eq_some_iff.1 hv
      rw [single_pack h1 rfl, h2]
      simp only [packOne, Val.asFloat, Val.strip, hu]
      rw [orderBytes_little]
    · cases hv
  | .single, bo, s, _, h => by
    refine basic_writes h rfl fun p st v b h1 h2 hv => ?_
    simp only [Fmt.write] at hv
    split at hv
    · obtain ⟨u, hu, rfl⟩ := Option.map_eq_some_iff.1 hv
      rw [single_pack h1 rfl, h2]
      simp only [packOne, Val.asFloat, Val.strip, hu]
      rw [orderBytes_little]
    · cases hv
  | .pascal k, bo, s, _, h => by
    refine basic_writes h rfl fun p st v b h1 h2 hv => ?_
    simp only [Fmt.write] at hv
    split at hv
    · split at hv
      · rename_i d hd
        cases hv
        rw [pas_pack h1]
        simp only [asBytes_bytes]
        congr 1
        simp only [fitTo]
        rw [show min (min d.length (k - 1)) 255 = d.length by omega, List.take_of_length_le (l := d) (by omega),
          List.take_of_length_le (by simp; omega)]
        rw [List.length_cons, show k - (d.length + 1) = k - 1 - d.length by omega]
      · cases hv
    · cases hv
  | .via _ f _ _ make, bo, s, hg, h => by
    obtain ⟨st, rfl, hd, h⟩ := h
    simp only [Fmt.good, Bool.and_eq_true] at hg
    have ih := is_writes hW f bo _ hg.2 h
    obtain ⟨t, ⟨_, e, h1⟩, h2⟩ := is_direct hd h
    cases e
    refine .leaf (h1.numValues h2) rfl rfl fun p v b hb => ⟨1, fun n hn => ?_⟩
    obtain ⟨m, rfl⟩ : ∃ m, n = m + 1 := ⟨n - 1, by omega⟩
    simp only [Fmt.write] at hb
    have hp : st.pack env.plat [v] = .ok b := by
      rw [← pack_meant h1.toks h2]
      exact writes_pack (ih.same rfl p) hb
    exact .leaf (x := (st.made make).pack env.plat [v]) hp
  | .net, bo, s, _, h => by
    obtain ⟨id, rfl⟩ := h
    refine .leaf rfl rfl rfl fun p v b hb => ⟨1, fun n hn => ?_⟩
    obtain ⟨m, rfl⟩ : ∃ m, n = m + 1 := ⟨n - 1, by omega⟩
    simp only [Fmt.write] at hb
    split at hb
    · split at hb
      · cases hb
      · rename_i d hd
        obtain ⟨u, hu, rfl⟩ := Option.map_eq_some_iff.1 hb
        obtain ⟨h1, h2⟩ := netLength_some hu
        rw [net_enc (asBytes_bytes _) hd h1, netHeader_pack _ _ h1, h2]
        exact .ok
    · cases hb
  | .double, bo, s, _, h => by
    refine basic_writes h rfl fun p st v b h1 h2 hv => ?_
    simp only [Fmt.write] at hv
    split at hv
    · cases hv
      rw [single_pack h1 rfl, h2]
      simp only [packOne, Val.asFloat, Val.strip]
      rw [orderBytes_little]
    · cases hv
  | .chars k, bo, s, _, h => by
    refine basic_writes h rfl fun p st v b h1 h2 hv => ?_
    simp only [Fmt.write] at hv
    split at hv
    · split at hv
      · rename_i d hd
        cases hv
        rw [str_pack h1]
        simp only [asBytes_bytes]
        congr 1
        simp only [fitTo]
        rw [List.take_of_length_le (by omega)]
      · cases hv
    · cases hv
  | .counted w, bo, s, hg, h => by
    obtain ⟨id, rfl⟩ := h
    simp only [Fmt.good, decide_eq_true_eq] at hg
    subst hg
    refine .leaf rfl rfl rfl fun p v b hb => ⟨1, fun n hn => ?_⟩
    obtain ⟨m, rfl⟩ : ∃ m, n = m + 1 := ⟨n - 1, by omega⟩
    · simp only [Fmt.write] at hb
      split at hb
      · split at hb
        · cases hb
        · rename_i d hd
          obtain ⟨h1, rfl⟩ := prefixed_some hb
          rw [dynChar_enc (intSer_isCount (w.mem false) .default) (by cases w <;> rfl) (asBytes_bytes d) hd, count_pack h1]
          exact .ok
      · cases hb
  | .until t, bo, s, _, h => by
    obtain ⟨id, rfl⟩ := h
    refine .leaf rfl rfl rfl fun p v b hb => ⟨1, fun n hn => ?_⟩
    obtain ⟨m, rfl⟩ : ∃ m, n = m + 1 := ⟨n - 1, by omega⟩
    · simp only [Fmt.write] at hb
      split at hb
      · split at hb
        · cases hb
        · cases hb
          rw [term_enc (asBytes_bytes _)]
          exact .ok
      · cases hb
  | .rest, bo, s, _, h => by
    obtain ⟨id, rfl⟩ := h
    refine .leaf rfl rfl rfl fun p v b hb => ⟨1, fun n hn => ?_⟩
    obtain ⟨m, rfl⟩ : ∃ m, n = m + 1 := ⟨n - 1, by omega⟩
    simp only [Fmt.write] at hb
    split at hb
    · cases hb
      exact .leaf rfl
    · cases hb
  | .text f en de, bo, s, hg, h => by
    obtain ⟨y, rfl, h⟩ := h
    simp only [Fmt.good, Bool.and_eq_true, decide_eq_true_eq] at hg
    obtain ⟨⟨rfl, hbr⟩, hg⟩ := hg
    have ih := is_writes hW f .default y hg h
    have hk := plain_overrides (bracket_plain hbr) h
    have iw := ih.same hk
    refine .leaf rfl (iw ⟨0, false, []⟩).sized rfl fun p v b hb => ?_
    simp only [Fmt.write] at hb
    split at hb
    · rename_i d hd
      obtain ⟨K, h1⟩ := (iw p).enc _ _ hb
      refine ⟨K + 1, fun n hn => ?_⟩
      obtain ⟨m, rfl⟩ : ∃ m, n = m + 1 := ⟨n - 1, by omega⟩
      simp only [enc, first, bind, Except.bind, hd, Out.ofE]
      exact h1 m (by omega)
    · cases hb
  | .fixed k item, bo, s, hg, h => by
    simp only [Fmt.good] at hg
    rcases h with ⟨st, ser, rfl, hb, hi, hm⟩ | ⟨id, y, rfl, _, hi⟩
    · have ih := is_writes hW item bo (.struct st) hg hi
      refine .leaf rfl rfl rfl fun p v b hv => ⟨1, fun n hn => ?_⟩
      obtain ⟨m, rfl⟩ : ∃ m, n = m + 1 := ⟨n - 1, by omega⟩
      simp only [Fmt.write] at hv
      split at hv
      · rename_i vs
        split at hv
        · rename_i hl
          subst hl
          obtain ⟨t, h1, h2⟩ := is_basic_toks hb hi
          refine .leaf ?_
          simp only [staticArrPrep, first, pyLen, Val.strip, bind, Except.bind, ne_eq, not_true_eq_false, if_false, pyIter]
          rw [mul_pack_each h1.toks h2 h1.single hm]
          exact each_gather (fun v b hv => writes_pack (ih.same rfl p) hv) vs b hv
        · cases hv
      · cases hv
    · have ih := is_writes hW item bo y hg hi
      refine .kept rfl rfl (fun p => rfl) fun p v b hv => ?_
      obtain ⟨y', qy, hpy, iy⟩ := ih.enc p
      simp only [Fmt.write] at hv
      split at hv
      · rename_i vs
        split at hv
        · rename_i hl
          obtain ⟨K, hK⟩ := items_enc iy vs b hv
          refine ⟨K + 1, fun n hn => ?_⟩
          obtain ⟨m, rfl⟩ : ∃ m, n = m + 1 := ⟨n - 1, by omega⟩
          simp only [enc, hpy, Out.ofE, Out.ok_bind, first, pyIter, Val.strip]
          refine (hK m (by omega)).bind fun t => ?_
          simp only [headerPackValues, hdrNum, Option.elim, hl, Int.natCast_nonneg, if_true, ne_eq, not_true_eq_false, if_false, Out.ok_bind, packOpt]
          exact .ok
        · cases hv
      · cases hv
  | .list w item, bo, s, hg, h => by
    simp only [Fmt.good, Bool.and_eq_true] at hg
    obtain ⟨id, y, rfl, hi⟩ := h
    have ih := is_writes hW item bo y hg.1 hi
    refine .kept rfl rfl (fun p => rfl) fun p v b hv => ?_
    obtain ⟨y', qy, hpy, iy⟩ := ih.enc p
    simp only [Fmt.write] at hv
    split at hv
    · rename_i vs
      split at hv
      · rename_i d hd
        obtain ⟨hl, rfl⟩ := prefixed_some hv
        obtain ⟨K, hK⟩ := items_enc iy vs d hd
        refine ⟨K + 1, fun n hn => ?_⟩
        obtain ⟨m, rfl⟩ : ∃ m, n = m + 1 := ⟨n - 1, by omega⟩
        have n1 : (intSer bo (w.code false)).numValues = 1 := by cases w <;> cases bo <;> rfl
        simp only [enc, hpy, Out.ofE, Out.ok_bind, first, pyIter, Val.strip]
        refine (hK m (by omega)).bind fun t => ?_
        simp only [headerPackValues, hdrNum, Option.elim, n1]
        simp only [show ¬ (0 : Int) ≤ -1 by decide, if_false, show ¬ (1 : Nat) = 2 by decide, Out.ok_bind, packOpt, count_pack hl]
        exact .ok
      · cases hv
    · cases hv
  | .sized w w2 item, bo, s, hg, h => by
    simp only [Fmt.good, Bool.and_eq_true] at hg
    obtain ⟨hg, _⟩ := hg
    obtain ⟨id, y, hd, rfl, ha, hi⟩ := h
    have ih := is_writes hW item bo y hg hi
    obtain ⟨n2, hp⟩ := sized_pack ha
    refine .kept rfl rfl (fun p => rfl) fun p v b hv => ?_
    obtain ⟨y', qy, hpy, iy⟩ := ih.enc p
    simp only [Fmt.write] at hv
    split at hv
    · rename_i vs
      split at hv
      · rename_i d hd'
        split at hv
        · rename_i d2 hd2
          obtain ⟨hl, rfl⟩ := prefixed_some hv
          obtain ⟨hl2, rfl⟩ := prefixed_some hd2
          obtain ⟨K, hK⟩ := items_enc iy vs d hd'
          refine ⟨K + 1, fun n hn => ?_⟩
          obtain ⟨m, rfl⟩ : ∃ m, n = m + 1 := ⟨n - 1, by omega⟩
          simp only [enc, hpy, Out.ofE, Out.ok_bind, first, pyIter, Val.strip]
          refine (hK m (by omega)).bind fun t => ?_
          simp only [headerPackValues, hdrNum, Option.elim, n2]
          simp only [show ¬ (0 : Int) ≤ -1 by decide, if_false, if_true, Out.ok_bind, packOpt, hp env.plat _ _ hl hl2,
            List.append_assoc]
          exact .ok
        · cases hv
      · cases hv
    · cases hv
  | .tup items, bo, s, hg, h => by
    simp only [Fmt.good, Bool.and_eq_true, decide_eq_true_eq] at hg
    obtain ⟨⟨⟨rfl, hg⟩, _⟩, hme⟩ := hg
    obtain ⟨id, id', inner, ss, rfl, hi, hsum⟩ := h
    have hall := isL_writes hW items .default ss hg hi
    have hf : ∀ x ∈ ss, FieldOf .default x := fun x hx => (isL_fieldOf hi x hx).1
    have hnn : ∀ x ∈ ss, x ≠ .null := fun x hx => (isL_fieldOf hi x hx).2
    obtain ⟨hm, hst⟩ := fields_sumIn hf hsum
    have hsz : inner.sized = true := by
      rcases hst.flat.notSpecial with hs | ⟨_, _, rfl⟩
      · rcases parts_simple hs with ⟨_, rfl⟩ | hps
        · rfl
        · rcases merge_mem hm inner (by rw [hps]; simp) with h1 | ⟨st, rfl⟩
          · by_cases hstr : ∃ st, inner = .struct st
            · obtain ⟨st, rfl⟩ := hstr; rfl
            · have := merge_lone hm hps (fun st e => hstr ⟨st, e⟩) hnn
              subst this
              match items, hall, hi, hme with
              | [], hall, _, _ => cases hall
              | f :: fs, hall, hi, hme =>
                obtain ⟨x, xs, e, h2, h3⟩ := hall
                cases e
                rcases h2.szd with h4 | ⟨id, rfl⟩
                · exact h4
                · obtain ⟨x, xs, e, h5, h6⟩ := hi
                  cases e
                  have : f = .me := is_selfT h5
                  subst this
                  cases fs with
                  | nil => cases hme
                  | cons => obtain ⟨_, _, e, _⟩ := h6; cases e
          · rfl
      · rfl
    refine .kept rfl hsz (fun p => rfl) fun p v b hv => ?_
    simp only [Fmt.write] at hv
    split at hv
    · rename_i vs
      obtain ⟨hl, K, hK⟩ := allW_loop p hi hall hv
      obtain ⟨s', q', h1, h2⟩ := whole_enc hm (fields_apart hf hsum) hnn hst.flat.notSpecial hl hK
      refine ⟨K + 3, fun n hn => ?_⟩
      obtain ⟨m, rfl⟩ : ∃ m, n = m + 1 := ⟨n - 1, by omega⟩
      simp only [enc, h1, Out.ofE, Out.ok_bind, pyIter, Val.strip]
      exact (h2 m (by omega)).bind fun t => .ok
    · cases hv
  | .obj c, bo, s, _, h => by
    obtain ⟨id, rfl⟩ := h
    refine .leaf rfl rfl rfl fun p v b hv => ?_
    obtain ⟨K, hK⟩ := hW c v b hv
    exact ⟨K, fun n hn => hK n hn id c⟩
  | .me, bo, s, _, h => by
    obtain ⟨id, rfl⟩ := h
    refine ⟨rfl, .inr ⟨id, rfl⟩, fun p => ⟨.structured id p.cls, none, rfl, rfl, rfl, fun v b hv => ?_⟩⟩
    obtain ⟨K, hK⟩ := hW p.cls v b hv
    exact ⟨K, fun n hn => hK n hn id p.cls⟩
  | .choice cid args ahead decider keys opts other, bo, s, hg, h => by
    simp only [Fmt.good, Bool.and_eq_true, decide_eq_true_eq] at hg
    obtain ⟨⟨⟨⟨rfl, hg1⟩, hg2⟩, _⟩, _⟩ := hg
    obtain ⟨os, ds, h1, h2, h3⟩ := h
    have w1 := isL_writes hW opts .default os hg1 h1
    have w2 := isL_writes hW other .default ds hg2 h2
    have key : ∀ p v b, (Fmt.choice cid args ahead decider keys opts other).write env.plat .default W p v = some b →
        ∃ r, decider p = .ok r ∧ ∃ K, ∀ n ≥ K, Gives (encUnion (enc env n) keys os (ds.headD .null) p r [v]) b := by
      intro p v b hv
      simp only [Fmt.write] at hv
      split at hv
      · rename_i r hr
        refine ⟨r, hr, ?_⟩
        split at hv
        · rename_i k hk
          obtain ⟨x, f, h4, _, h5, h6⟩ := allW_at w1 hv
          exact union_enc (unionPick_key hk h4) h5 h6
        · rename_i hk
          split at hv
          · rename_i hh
            obtain ⟨x, f, h4, _, h5, h6⟩ := allW_at w2 hv
            have hd : ds.headD .null = x := by cases ds <;> simp_all
            have hx : x ≠ .null := by rintro rfl; exact absurd h5.one (by decide)
            rw [hd]
            exact union_enc (unionPick_other hk hh hx) h5 h6
          · cases hv
      · cases hv
    rcases h3 with ⟨_, rfl⟩ | ⟨_, st, _, _, rfl⟩
    all_goals
      refine .kept rfl rfl (fun p => rfl) fun p v b hv => ?_
      obtain ⟨r, hr, K, hK⟩ := key p v b hv
      refine ⟨K + 1, fun n hn => ?_⟩
      obtain ⟨m, rfl⟩ : ∃ m, n = m + 1 := ⟨n - 1, by omega⟩
      simp only [enc, hr, Out.ofE, Out.ok_bind]
      exact hK m (by omega)
theorem isL_writes (hW : ObjWrites env W) : ∀ (fs : List Fmt) (bo : ByteOrder) (ss : List Ser), Fmt.goods bo fs = true → Fmt.IsL cf bo fs ss →
    AllW env bo W fs ss
  | [], bo, ss, _, h => h
  | f :: fs, bo, ss, hg, h => by
    obtain ⟨x, xs, rfl, h1, h2⟩ := h
    simp only [Fmt.goods, Bool.and_eq_true] at hg
    exact ⟨x, xs, rfl, is_writes hW f bo x hg.1 h1, isL_writes hW fs bo xs hg.2 h2⟩
end

end Verif
