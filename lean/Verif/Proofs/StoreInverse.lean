import Verif.Proofs.StoreBytes
/-
Lemmas on what packing accepts: whatever can be packed has the bytes of its format.
-/
namespace Verif
open Spec Sem

variable {bo : ByteOrder} {cf : ClassId → Bool} {env : Env} {N : Nat} {W : ClassId → Val → Option Bytes}

theorem ofE_inv {α : Type} {e : Except Err α} {a : α} (h : Out.ofE e = .ok a) : e = .ok a := by
  cases e <;> cases h
  rfl

/-! ### Runs of basic types -/

theorem SumIn.packAt_inv {x y z : StructSer} (h : SumIn bo x y z) {P : Platform} {o : Nat} {vs : List Val} {b : Bytes}
    (hz : z.packAt P o (vs.take z.numValues) = .ok b) :
    ∃ b1 b2, x.packAt P o (vs.take x.numValues) = .ok b1 ∧ y.packAt P (o + b1.length) ((vs.drop x.numValues).take y.numValues) = .ok b2 ∧ b = b1 ++ b2 := by
  unfold StructSer.packAt at hz ⊢
  split at hz
  · rename_i hl
    rw [h.numValues, List.length_take] at hl
    have l1 : (vs.take x.numValues).length = x.numValues := by rw [List.length_take]; omega
    have l2 : ((vs.drop x.numValues).take y.numValues).length = y.numValues := by rw [List.length_take, List.length_drop]; omega
    have hv : vs.take z.numValues = vs.take x.numValues ++ (vs.drop x.numValues).take y.numValues := by rw [h.numValues, List.take_add]
    rw [hv, h.facts.byteOrder, h.facts.toks.pack, packToks_append, packToks_take P _ _ _ _ _ (by rw [l1]; exact Nat.le_refl _)] at hz
    have hd : List.drop (numVals x.toks) (vs.take x.numValues ++ (vs.drop x.numValues).take y.numValues) = (vs.drop x.numValues).take y.numValues :=
      List.drop_left' l1
    obtain ⟨b1, e1, hz⟩ := Except.bind_ok' hz
    obtain ⟨b2, e2, hz⟩ := Except.bind_ok' hz
    cases hz
    rw [hd] at e2
    refine ⟨b1, b2, by rw [if_pos l1]; exact e1, ?_, rfl⟩
    rw [if_pos l2, h.ybo, ← h.xbo]
    exact e2
  · cases hz

theorem packAt_pack {t : Tok} {st : StructSer} {k : Nat} {vs : List Val} {P : Platform} {c : Bytes} (h : OneTok bo t st)
    (hp : st.packAt P k vs = .ok c) : vs.length = st.numValues ∧ ∃ b, st.pack P vs = .ok b := by
  rw [← packAt_zero]
  unfold StructSer.packAt at hp ⊢
  split at hp
  · rename_i hv
    refine ⟨hv, ?_⟩
    rw [if_pos hv]
    rw [h.toks, h.order] at hp ⊢
    simp only [packToks] at hp ⊢
    cases hq : packTok P bo t vs with
    | error e => rw [hq] at hp; cases hp
    | ok r =>
      obtain ⟨d, rest⟩ := r
      exact ⟨_, rfl⟩
  · cases hp

/-! ### The parts of a compound -/

/-- The parts were packed to these bytes, struct serializers each as part of its run. -/
def GLo (env : Env) (N : Nat) (p : PObj) : Nat → List Ser → List Val → Bytes → Prop
  | _, [], _, b => b = []
  | o, .struct st :: ss, vs, b => ∃ b1 b2, st.packAt env.plat o (vs.take st.numValues) = .ok b1 ∧
      GLo env N p (o + b1.length) ss (vs.drop st.numValues) b2 ∧ b = b1 ++ b2
  | _, s :: ss, vs, b => ∃ b1 b2 s' q n t us, pre s p = .ok (s', q) ∧ n ≤ N ∧ (us = vs ∨ us = vs.take s'.numValues) ∧
      enc env n s' q us = .ok ⟨b1, t⟩ ∧ GLo env N p 0 ss (vs.drop s'.numValues) b2 ∧ b = b1 ++ b2

variable {p : PObj}

/-- A part that is not a struct serializer. -/
def PartO (env : Env) (N : Nat) (p : PObj) (s : Ser) (ss : List Ser) (vs : List Val) (b : Bytes) : Prop :=
  ∃ b1 b2 s' q n t us, pre s p = .ok (s', q) ∧ n ≤ N ∧ (us = vs ∨ us = vs.take s'.numValues) ∧
    enc env n s' q us = .ok ⟨b1, t⟩ ∧ GLo env N p 0 ss (vs.drop s'.numValues) b2 ∧ b = b1 ++ b2

theorem glo_part {s : Ser} {ss : List Ser} {vs : List Val} {b : Bytes} {o : Nat} (hs : ∀ st, s ≠ .struct st) :
    GLo env N p o (s :: ss) vs b ↔ PartO env N p s ss vs b := by
  cases s
  case struct st => exact absurd rfl (hs st)
  all_goals exact Iff.rfl

theorem glo_congr {xs ys : List Ser} (h : ∀ o vs b, GLo env N p o xs vs b → GLo env N p o ys vs b) :
    ∀ (pr : List Ser) {o : Nat} {vs : List Val} {b : Bytes}, GLo env N p o (pr ++ xs) vs b → GLo env N p o (pr ++ ys) vs b
  | [], o, vs, b, hx => h o vs b hx
  | s :: pr, o, vs, b, hx => by
    rcases isStruct_dec s with ⟨st, rfl⟩ | hs
    · obtain ⟨b1, b2, h1, h2, rfl⟩ := hx
      exact ⟨b1, b2, h1, glo_congr h pr h2, rfl⟩
    · obtain ⟨b1, b2, s', q, n, t, us, h1, h2, h3, h4, h5, rfl⟩ := (glo_part (ss := pr ++ xs) hs).1 hx
      exact (glo_part (ss := pr ++ ys) hs).2 ⟨b1, b2, s', q, n, t, us, h1, h2, h3, h4, glo_congr h pr h5, rfl⟩

/-- Joining neighbours changes nothing. -/
theorem glo_merge {xs ys : List Ser} (h : Merge (SumIn bo) xs ys) (hn : ∀ x ∈ xs, x ≠ .null) {o : Nat} {vs : List Val} {b : Bytes}
    (hy : GLo env N p o ys vs b) : GLo env N p o xs vs b := by
  induction h generalizing o vs b with
  | refl => exact hy
  | null => exact absurd rfl (hn .null (by simp))
  | @join pr post ys x y z hj _ ih =>
    have := ih (fun w hw => by
      simp only [List.mem_append, List.mem_cons] at hw
      rcases hw with hw | rfl | hw
      · exact hn w (by simp [hw])
      · nofun
      · exact hn w (by simp [hw])) hy
    refine glo_congr (xs := .struct z :: post) (ys := .struct x :: .struct y :: post) (fun o vs b hx => ?_) pr this
    obtain ⟨b12, b3, h1, h3, rfl⟩ := hx
    obtain ⟨b1, b2, h0, h2, rfl⟩ := hj.packAt_inv h1
    refine ⟨b1, b2 ++ b3, h0, ⟨b2, b3, h2, ?_, rfl⟩, by simp⟩
    rw [hj.numValues, List.length_append, ← Nat.add_assoc, ← List.drop_drop] at h3
    exact h3

/-- Without neighbouring struct serializers each part is packed alone. -/
theorem enc_glo {n : Nat} (hn : n ≤ N) {pf : Ser → Except Err (Ser × Option PObj)} {tc : Ser → List SerId} :
    ∀ {ys : List Ser} {o : Nat} {vs : List Val} {b : Bytes} {t : List SerId}, Apart ys → (o = 0 ∨ ∀ st zs, ys ≠ .struct st :: zs) →
    (∀ s ∈ ys, ∀ r, pf s = .ok r → pre s p = .ok r) →
    encLoop (enc env n) pf tc ys vs = .ok ⟨b, t⟩ → GLo env N p o ys vs b
  | [], o, vs, b, t, _, _, _, h => by cases h; rfl
  | s :: ys, o, vs, b, t, ha, ho, hpf, h => by
    simp only [encLoop] at h
    obtain ⟨⟨s', q⟩, h1, h⟩ := Out.bind_ok' h
    obtain ⟨⟨b1, t1⟩, h2, h⟩ := Out.bind_ok' h
    have hq := hpf s (by simp) (s', q) (ofE_inv h1)
    dsimp only at h h2
    split at h
    · cases h
    · obtain ⟨⟨b2, t2⟩, h3, h⟩ := Out.bind_ok' h
      cases h
      rcases isStruct_dec s with ⟨st, rfl⟩ | hs
      · cases hq
        rcases ho with rfl | ho
        · cases n with
          | zero => cases h2
          | succ n =>
            simp only [enc, Ser.numValues] at h2
            have h2 := (encLeaf_ok h2).1
            refine ⟨b1, b2, h2, ?_, rfl⟩
            exact enc_glo hn ha.tail (.inr fun st' zs e => ha [] st st' zs (by rw [e]; rfl)) (fun s hs => hpf s (by simp [hs])) h3
        · exact absurd rfl (ho st ys)
      · exact (glo_part hs).2 ⟨b1, b2, s', q, n, t1, _, hq, hn, .inr rfl, h2,
          enc_glo hn ha.tail (.inl rfl) (fun s hs => hpf s (by simp [hs])) h3, rfl⟩

/-- A sum of fields writes what the fields write. -/
theorem whole_inv {n : Nat} {s s' : Ser} {q : Option PObj} {ss : List Ser} {vs : List Val} {b : Bytes} {t : List SerId} (hn : n ≤ N)
    (hm : Merge (SumIn bo) ss (parts s)) (ha : Apart (parts s)) (hnn : ∀ x ∈ ss, x ≠ .null) (hs : Simple s ∨ ∃ id xs, s = .compound id xs)
    (hq : pre s p = .ok (s', q)) (h : enc env n s' q vs = .ok ⟨b, t⟩) : GLo env N p 0 ss vs b := by
  refine glo_merge hm hnn ?_
  cases n with
  | zero => cases h
  | succ n =>
    rcases hs with hs | ⟨id, xs, rfl⟩
    · rcases parts_simple hs with ⟨hp, rfl⟩ | hp
      · cases hq
        cases h
        rw [hp]; rfl
      · rw [hp]
        rcases isStruct_dec s with ⟨st, rfl⟩ | hns
        · cases hq
          simp only [enc] at h
          have h := (encLeaf_ok h).1
          have hl : vs.length = st.numValues := by
            unfold StructSer.pack structPack at h
            split at h
            · assumption
            · cases h
          exact ⟨b, [], by rw [List.take_of_length_le (by omega)]; exact h, rfl, by simp⟩
        · exact (glo_part hns).2 ⟨b, [], s', q, n + 1, t, vs, hq, hn, .inl rfl, h, rfl, by simp⟩
    · by_cases hnp : needsPreprocess xs = true
      · simp only [pre, hnp, if_true] at hq
        cases hq
        exact enc_glo (by omega) ha (.inl rfl) (fun _ _ _ h => h) h
      · simp only [pre, hnp, Bool.false_eq_true, if_false] at hq
        cases hq
        refine enc_glo (by omega) ha (.inl rfl) (fun x hx r hr => ?_) h
        rw [pre_overrides (Threads.needs_false hnp x hx)]
        exact hr

/-! ### Formats -/

/-- Whatever the serializer packs begins with a value whose bytes are as `w` says. -/
def InvW (env : Env) (N : Nat) (s : Ser) (q : Option PObj) (w : Val → Option Bytes) : Prop :=
  ∀ n ≤ N, ∀ vs b t, enc env n s q vs = .ok ⟨b, t⟩ → ∃ v vs', vs = v :: vs' ∧ w v = some b

/-- The serializer writes one value each time, as `w` says. -/
structure Inv1 (env : Env) (N : Nat) (s : Ser) (w : PObj → Val → Option Bytes) : Prop where
  one : s.numValues = 1
  enc : ∀ p s' q, pre s p = .ok (s', q) → s'.numValues = 1 ∧ InvW env N s' q (w p)

theorem Inv1.leaf {s : Ser} {w : PObj → Val → Option Bytes} (h1 : s.numValues = 1) (h3 : s.overridesPre = false)
    (h4 : ∀ p n vs b t, n + 1 ≤ N → Sem.enc env (n + 1) s none vs = .ok ⟨b, t⟩ → ∃ v vs', vs = v :: vs' ∧ w p v = some b) : Inv1 env N s w := by
  refine ⟨h1, fun p s' q hq => ?_⟩
  rw [pre_overrides h3] at hq
  cases hq
  refine ⟨h1, fun n hn vs b t h => ?_⟩
  cases n with
  | zero => cases h
  | succ n => exact h4 p n vs b t hn h

theorem Inv1.kept {s : Ser} {w : PObj → Val → Option Bytes} (h1 : s.numValues = 1) (h3 : ∀ p, pre s p = .ok (s, some p))
    (h4 : ∀ p n vs b t, n + 1 ≤ N → Sem.enc env (n + 1) s (some p) vs = .ok ⟨b, t⟩ → ∃ v vs', vs = v :: vs' ∧ w p v = some b) : Inv1 env N s w := by
  refine ⟨h1, fun p s' q hq => ?_⟩
  rw [h3] at hq
  cases hq
  refine ⟨h1, fun n hn vs b t h => ?_⟩
  cases n with
  | zero => cases h
  | succ n => exact h4 p n vs b t hn h

theorem Inv1.same {s : Ser} {w : PObj → Val → Option Bytes} (h : Inv1 env N s w) (hs : s.overridesPre = false) (p : PObj) :
    InvW env N s none (w p) := (h.enc p s none (pre_overrides hs p)).2

theorem InvW.mono {s : Ser} {q : Option PObj} {w : Val → Option Bytes} {N' : Nat} (h : InvW env N s q w) (hn : N' ≤ N) : InvW env N' s q w :=
  fun n hn' => h n (by omega)

theorem items_inv {s : Ser} {q : Option PObj} {w : Val → Option Bytes} (hw : InvW env N s q w) {n : Nat} (hn : n ≤ N) :
    ∀ (vs : List Val) (b : Bytes) (t : List SerId), encItems (enc env n) s q vs = .ok ⟨b, t⟩ → gather w vs = some b
  | [], b, t, h => by cases h; rfl
  | v :: vs, b, t, h => by
    rw [encItems] at h
    obtain ⟨⟨b1, t1⟩, h1, h⟩ := Out.bind_ok' h
    dsimp only at h
    split at h
    · cases h
    · split at h
      · cases h
      · obtain ⟨⟨b2, t2⟩, h2, h⟩ := Out.bind_ok' h
        cases h
        obtain ⟨_, _, e, h3⟩ := hw n hn _ _ _ h1
        cases e
        simp only [gather, h3, items_inv hw hn vs b2 t2 h2]

/-- What can be packed for the objects of each class is as `W` says. -/
def ObjInv (env : Env) (N : Nat) (W : ClassId → Val → Option Bytes) : Prop :=
  ∀ n ≤ N, ∀ id c v b t, enc env n (.structured id c) none [v] = .ok ⟨b, t⟩ → ∀ c', W c' v = some b

/-- Each of the serializers writes its format. -/
def AllI (env : Env) (N : Nat) (bo : ByteOrder) (W : ClassId → Val → Option Bytes) : List Fmt → List Ser → Prop
  | [], ss => ss = []
  | f :: fs, ss => ∃ x xs, ss = x :: xs ∧ Inv1 env N x (fun o v => f.store false env.plat bo W o v) ∧ AllI env N bo W fs xs

theorem structured_inv (hW : ObjInv env N W) {n : Nat} (hn : n ≤ N) {id : SerId} {c c' : ClassId} {vs : List Val} {b : Bytes} {t : List SerId}
    (h : enc env n (.structured id c) none vs = .ok ⟨b, t⟩) : ∃ v vs', vs = v :: vs' ∧ W c' v = some b := by
  cases n with
  | zero => cases h
  | succ n =>
    match vs, h with
    | [v], h => exact ⟨v, [], rfl, hW (n + 1) hn id c v b t h c'⟩
    | [], h => cases h
    | _ :: _ :: _, h => cases h

/-- A value as part of a run. -/
theorem value_inv {f : Fmt} {x : Ser} {xs : List Ser} {vs : List Val} {b : Bytes} {k : Nat} (hi : f.Is cf bo x)
    (hw : Inv1 env N x (fun o v => f.store false env.plat bo W o v)) (h : GLo env N p k (x :: xs) vs b) :
    ∃ v vs' b1 b2, vs = v :: vs' ∧ f.store false env.plat bo W p v = some b1 ∧ GLo env N p (after bo k f.basic) xs vs' b2 ∧
      b = List.replicate (gap bo k f.basic) 0 ++ b1 ++ b2 := by
  rcases isStruct_dec x with ⟨st, rfl⟩ | hns
  · obtain ⟨c, b2, h1, h2, rfl⟩ := h
    have hn : st.numValues = 1 := hw.one
    obtain ⟨t, ht, _⟩ := is_basic_toks (is_struct hi) hi
    obtain ⟨hl, b1, h3⟩ := packAt_pack ht h1
    rw [hn] at hl h1 h2 h3
    cases vs with
    | nil => cases hl
    | cons v vs =>
      obtain ⟨g1, g2⟩ := is_packAt (P := env.plat) k hi h3
      have h1' : st.packAt env.plat k [v] = .ok c := h1
      rw [g1] at h1'
      cases h1'
      rw [g2] at h2
      exact ⟨v, vs, b1, b2, rfl, (basic_store hi).1 h3, h2, rfl⟩
  · obtain ⟨b1, b2, s', q, n, t, us, h1, h2, h3, h4, h5, rfl⟩ := (glo_part hns).1 h
    obtain ⟨hn, hv⟩ := hw.enc p s' q h1
    obtain ⟨v, vs', e, h6⟩ := hv n h2 us b1 t h4
    rw [is_basic_none hi hns]
    rw [hn] at h3 h5
    cases vs with
    | nil => rcases h3 with rfl | rfl <;> cases e
    | cons v0 vs =>
      have : v = v0 := by rcases h3 with rfl | rfl <;> (cases e; rfl)
      subst this
      exact ⟨v, vs, b1, b2, rfl, h6, h5, by simp [gap]⟩

theorem allI_loop : ∀ {fs : List Fmt} {ss : List Ser} {vs : List Val} {b : Bytes} {k : Nat}, Fmt.IsL cf bo fs ss → AllI env N bo W fs ss →
    GLo env N p k ss vs b → Fmt.stores false env.plat bo W p k fs vs = some b
  | [], _, vs, b, k, _, h, hv => by
    cases h
    cases hv
    rfl
  | f :: fs, _, vs, b, k, hi, h, hv => by
    obtain ⟨x, xs, rfl, h1, h2⟩ := h
    obtain ⟨_, _, e, hi1, hi2⟩ := hi
    cases e
    obtain ⟨v, vs', b1, b2, rfl, h3, h4, rfl⟩ := value_inv hi1 h1 hv
    simp only [Fmt.stores, h3, allI_loop hi2 h2 h4]

theorem allI_at {v : Val} {b : Bytes} {o : PObj} : ∀ {fs : List Fmt} {ss : List Ser} {k : Nat} {x : Ser}, AllI env N .default W fs ss → ss[k]? = some x →
    (∀ w : PObj → Val → Option Bytes, Inv1 env N x w → w o v = some b) → Fmt.storeAt false env.plat W o fs k v = some b
  | [], _, k, x, h, hx, _ => by cases h; cases hx
  | f :: fs, _, 0, x, h, hx, hv => by
    obtain ⟨x, xs, rfl, h1, h2⟩ := h
    cases hx
    exact hv _ h1
  | f :: fs, _, k + 1, x, h, hx, hv => by
    obtain ⟨_, xs, rfl, h1, h2⟩ := h
    rw [Fmt.storeAt]
    exact allI_at h2 (by simpa using hx) hv

/-- Which format a union takes. -/
theorem unionPick_inv {keys : List Val} {os : List Ser} {d s : Ser} {r : Val} (hl : keys.length = os.length) (h : unionPick keys os d r = .ok s) :
    r.hashable = true ∧ ((∃ k, keyAt keys r = some k ∧ os[k]? = some s) ∨ (keyAt keys r = none ∧ s = d ∧ d ≠ .null)) := by
  unfold unionPick at h
  by_cases hh : r.hashable = true
  · refine ⟨hh, ?_⟩
    simp only [hh, not_true_eq_false, if_false] at h
    have key : ∀ (keys : List Val) (os : List Ser), keys.length = os.length →
        (match lookupOpt keys os r with
          | some s => ∃ k, keys.findIdx? (·.keyEq r) = some k ∧ os[k]? = some s
          | none => keys.findIdx? (·.keyEq r) = none) := by
      intro keys
      induction keys with
      | nil => intro os _; rfl
      | cons a keys ih =>
        intro os hl
        cases os with
        | nil => cases hl
        | cons o os =>
          by_cases ha : a.keyEq r = true
          · have : lookupOpt (a :: keys) (o :: os) r = some o := by simp [lookupOpt, ha]
            rw [this]
            exact ⟨0, by simp [List.findIdx?_cons, ha], rfl⟩
          · have : lookupOpt (a :: keys) (o :: os) r = lookupOpt keys os r := by simp [lookupOpt, ha]
            rw [this]
            have := ih os (by simpa using hl)
            rw [List.findIdx?_cons]
            simp only [ha, Bool.false_eq_true, if_false]
            revert this
            cases lookupOpt keys os r with
            | some s =>
              intro this
              obtain ⟨k, h1, h2⟩ := this
              exact ⟨k + 1, by simp [h1], by simpa using h2⟩
            | none => intro this; simp only at this ⊢; rw [this]; rfl
    have hk := key keys os hl
    unfold keyAt
    rw [if_pos hh]
    cases hlk : lookupOpt keys os r with
    | some s' =>
      rw [hlk] at h hk
      cases h
      exact .inl hk
    | none =>
      rw [hlk] at h hk
      right
      cases d <;> cases h <;> exact ⟨hk, rfl, by nofun⟩
  · simp [hh] at h

theorem isL_count : ∀ {fs : List Fmt} {ss : List Ser}, Fmt.IsL cf bo fs ss → ss.length = fs.length
  | [], _, h => by cases h; rfl
  | _ :: _, _, h => by
    obtain ⟨x, xs, rfl, _, h2⟩ := h
    simp [isL_count h2]

theorem each_inv {st : StructSer} {P : Platform} {w : Val → Option Bytes} (h : ∀ v b, st.pack P [v] = .ok b → w v = some b) :
    ∀ (vs : List Val) (b : Bytes), packEach P st vs = .ok b → gather w vs = some b
  | [], b, h1 => by cases h1; rfl
  | v :: vs, b, h1 => by
    simp only [packEach] at h1
    obtain ⟨b1, e1, h1⟩ := Except.bind_ok' h1
    obtain ⟨b2, e2, h1⟩ := Except.bind_ok' h1
    cases h1
    simp only [gather, h v b1 e1, each_inv h vs b2 e2]

theorem count_inv_pack {w : Size} {P : Platform} {k : Nat} {x : Bytes} (h : (intSer bo (w.code false)).pack P [.int k] = .ok x) (b : Bytes) :
    prefixed P bo w k b = some (x ++ b) := by
  have ht : (intSer bo (w.code false)).toks = [⟨1, .int false w.wd⟩] := by cases w <;> cases bo <;> rfl
  have ho : (intSer bo (w.code false)).byteOrder = bo := by cases w <;> cases bo <;> rfl
  obtain ⟨i, h1, h2, rfl⟩ := (int_pack ht ho).1 h
  cases h1
  have : k < 256 ^ w.bytes := inRange_count.1 h2
  simp [prefixed, this]

theorem sized_inv_pack {w w2 : Size} {h : StructSer} (ha : (intSer bo (w.code false)).add (intSer bo (w2.code false)) = .ok h) {P : Platform} {j k : Nat}
    {x : Bytes} (hp : h.pack P [.int j, .int k] = .ok x) (b : Bytes) :
    ∃ b', prefixed P bo w2 k b = some b' ∧
      prefixed P bo w j (List.replicate (gap bo w.bytes (some (w2.bytes, w2.bytes))) 0 ++ b') = some (x ++ b) := by
  obtain ⟨wd, t1, w1, o1, f1, p1, s1⟩ := intSer_facts (w.mem false) bo
  obtain ⟨wd2, t2, _, o2, f2, p2, s2⟩ := intSer_facts (w2.mem false) bo
  have hsg : SingleItem (intSer bo (w2.code false)).baseFormat := ⟨[], w2.code false, by cases w2 <;> cases bo <;> rfl, by simp, by cases w2 <;> rfl⟩
  have key : SumIn bo (intSer bo (w.code false)) (intSer bo (w2.code false)) h := ⟨ha, ⟨f1, by simp [intSer]⟩, ⟨f2, by simp [intSer]⟩, o1, o2, hsg⟩
  have n1 : ∀ w : Size, (intSer bo (w.code false)).numValues = 1 := by intro w; cases w <;> cases bo <;> rfl
  obtain ⟨hn, hsp⟩ := sized_pack ha
  rw [← packAt_zero] at hp
  obtain ⟨b1, b2, h1, h2, rfl⟩ := key.packAt_inv (vs := [.int j, .int k]) (by rw [hn]; exact hp)
  rw [n1, packAt_zero] at h1
  rw [n1, n1] at h2
  have hb : OneTok bo ⟨1, .int false w2.wd⟩ (intSer bo (w2.code false)) :=
    ⟨⟨f2, by simp [intSer]⟩, o2, hsg, by cases w2 <;> cases bo <;> rfl⟩
  obtain ⟨_, b3, h3⟩ := packAt_pack hb h2
  have hj := count_inv_pack (b := []) (show (intSer bo (w.code false)).pack P [.int j] = .ok b1 from h1)
  have hk := count_inv_pack (b := []) (show (intSer bo (w2.code false)).pack P [.int k] = .ok b3 from h3)
  obtain ⟨hj, _⟩ := prefixed_some hj
  obtain ⟨hk, _⟩ := prefixed_some hk
  have := hsp P j k hj hk
  rw [← packAt_zero, hp] at this
  rw [Except.ok.inj this]
  exact ⟨_, by rw [prefixed, if_pos hk], by rw [prefixed, if_pos hj]; simp⟩

theorem basic_inv {f : Fmt} {s : Ser} (hf : f.basic.isSome = true) (h : f.Is cf bo s) : Inv1 env N s (fun o v => f.store false env.plat bo W o v) := by
  rcases isStruct_dec s with ⟨st, rfl⟩ | hs
  · obtain ⟨t, h1, h2⟩ := is_basic_toks hf h
    refine .leaf (h1.numValues h2) rfl fun p n vs b t _ he => ?_
    simp only [enc] at he
    have he := (encLeaf_ok he).1
    have hl : vs.length = 1 := by
      rw [← h1.numValues h2]
      unfold StructSer.pack structPack at he
      split at he
      · assumption
      · cases he
    match vs, hl with
    | [v], _ => exact ⟨v, [], rfl, (basic_store h).1 he⟩
  · rw [is_basic_none h hs] at hf
    cases hf

/-- An array: its items, then the header. -/
theorem array_inv {y : Ser} {w : PObj → Val → Option Bytes} (ih : Inv1 env N y w) {n : Nat} {id : SerId} {hdr : Option StructSer} {sl : Int}
    {p : PObj} {vs : List Val} {b : Bytes} {t : List SerId} (hn : n + 1 ≤ N) (h : enc env (n + 1) (.array id hdr y sl) (some p) vs = .ok ⟨b, t⟩) :
    ∃ v vs' items d x, vs = v :: vs' ∧ elements v = some items ∧ gather (w p) items = some d ∧
      (∃ hv, headerPackValues hdr sl items.length d.length = .ok hv ∧ packOpt env.plat hdr hv = .ok x) ∧ b = x ++ d := by
  simp only [enc] at h
  obtain ⟨⟨y', qi⟩, h1, h⟩ := Out.bind_ok' h
  obtain ⟨v, h2, h⟩ := Out.bind_ok' h
  obtain ⟨items, h3, h⟩ := Out.bind_ok' h
  obtain ⟨⟨d, td⟩, h4, h⟩ := Out.bind_ok' h
  obtain ⟨hv, h5, h⟩ := Out.bind_ok' h
  obtain ⟨x, h6, h⟩ := Out.bind_ok' h
  cases h
  cases vs with
  | nil => cases h2
  | cons v0 vs =>
    have h2 := ofE_inv h2
    cases h2
    exact ⟨v, vs, items, d, x, rfl, elements_eq.2 (ofE_inv h3), items_inv (ih.enc p y' qi (ofE_inv h1)).2 (by omega) items d td h4,
      ⟨hv, ofE_inv h5, ofE_inv h6⟩, rfl⟩

mutual
theorem is_inv (hW : ObjInv env N W) : ∀ (f : Fmt) (bo : ByteOrder) (s : Ser), f.good .default = true → f.Is cf bo s →
    Inv1 env N s (fun o v => f.store false env.plat bo W o v)
  | .int sg w, bo, s, _, h => basic_inv (f := .int sg w) rfl h
  | .bool, bo, s, _, h => basic_inv (f := .bool) rfl h
  | .half, bo, s, _, h => basic_inv (f := .half) rfl h
  | .single, bo, s, _, h => basic_inv (f := .single) rfl h
  | .double, bo, s, _, h => basic_inv (f := .double) rfl h
  | .chars k, bo, s, _, h => basic_inv (f := .chars k) rfl h
  | .pascal k, bo, s, _, h => basic_inv (f := .pascal k) rfl h
  | .via i f nm own make, bo, s, hg, h => by
    have hd : f.direct = true := by
      simp only [Fmt.good, Bool.and_eq_true] at hg
      exact hg.1
    refine basic_inv (f := .via i f nm own make) ?_ h
    simp only [Fmt.basic]
    cases f <;> first | rfl | cases hd
  | .counted w, bo, s, _, h => by
    obtain ⟨id, rfl⟩ := h
    refine .leaf rfl rfl fun p n vs b t _ he => ?_
    obtain ⟨v, vs', d, x, rfl, hbo, hd, hne, hx, rfl⟩ := dynChar_inv (intSer_isCount (w.mem false) bo) he
    refine ⟨v, vs', rfl, ?_⟩
    have ho : (intSer bo (w.code false)).byteOrder = bo := by cases w <;> cases bo <;> rfl
    rw [ho] at hbo
    subst hbo
    simp only [Fmt.store, octets_eq, hd]
    rw [if_neg (by simp [hne])]
    exact count_inv_pack hx d
  | .until tm, bo, s, _, h => by
    obtain ⟨id, rfl⟩ := h
    refine .leaf rfl rfl fun p n vs b t _ he => ?_
    obtain ⟨v, vs', d, rfl, hd, rfl⟩ := term_inv he
    exact ⟨v, vs', rfl, by simp [Fmt.store, octets_eq, hd]⟩
  | .rest, bo, s, _, h => by
    obtain ⟨id, rfl⟩ := h
    refine .leaf rfl rfl fun p n vs b t _ he => ?_
    obtain ⟨v, vs', rfl, hd⟩ := consuming_inv he
    exact ⟨v, vs', rfl, by simp [Fmt.store, octets_eq, hd]⟩
  | .net, bo, s, _, h => by
    obtain ⟨id, rfl⟩ := h
    refine .leaf rfl rfl fun p n vs b t _ he => ?_
    obtain ⟨v, vs', d, rfl, hd, hne, hl, rfl⟩ := net_inv he
    refine ⟨v, vs', rfl, ?_⟩
    simp only [Fmt.store, octets_eq, hd, hne, if_false, netPrefix_eq.2 ⟨hl, rfl⟩, Option.map_some]
  | .text f en de, bo, s, hg, h => by
    obtain ⟨y, rfl, h⟩ := h
    simp only [Fmt.good, Bool.and_eq_true, decide_eq_true_eq] at hg
    obtain ⟨⟨_, hbr⟩, hg⟩ := hg
    have ih := is_inv hW f .default y hg h
    have iw := ih.same (plain_overrides (bracket_plain hbr) h)
    refine .leaf rfl rfl fun p n vs b t hn he => ?_
    simp only [enc] at he
    obtain ⟨d, h1, he'⟩ := Out.bind_ok' he
    have h1 := ofE_inv h1
    cases vs with
    | nil => cases h1
    | cons v vs =>
      have h1 : en v = .ok d := h1
      obtain ⟨_, _, e, h2⟩ := iw p n (by omega) _ _ _ he'
      cases e
      exact ⟨v, vs, rfl, by simp only [Fmt.store, h1]; exact h2⟩
  | .fixed k item, bo, s, hg, h => by
    simp only [Fmt.good] at hg
    rcases h with ⟨st, ser, rfl, hb, hi, hm⟩ | ⟨id, y, rfl, _, hi⟩
    · refine .leaf rfl rfl fun p n vs b t _ he => ?_
      simp only [enc] at he
      have he := (encLeaf_ok he).1
      obtain ⟨items, h1, h2⟩ := Except.bind_ok' he
      unfold staticArrPrep at h1
      cases vs with
      | nil => cases h1
      | cons v vs =>
        obtain ⟨v', e, h1⟩ := Except.bind_ok' h1
        cases e
        obtain ⟨len, e1, h1⟩ := Except.bind_ok' h1
        split at h1
        · cases h1
        · rename_i hl
          have hel := elements_eq.2 h1
          rw [elements_len hel] at e1
          cases e1
          have hl : items.length = k := by omega
          subst hl
          obtain ⟨tk, h3, h4⟩ := is_basic_toks hb hi
          rw [mul_pack_each h3.toks h4 h3.single hm] at h2
          refine ⟨v, vs, rfl, ?_⟩
          simp only [Fmt.store]
          rw [hel]
          simp only [if_true]
          exact each_inv (fun v b hv => (basic_store hi).1 hv) items _ h2
    · have ih := is_inv hW item bo y hg hi
      refine .kept rfl (fun p => rfl) fun p n vs b t hn he => ?_
      obtain ⟨v, vs', items, d, x, rfl, h1, h2, h3, h4⟩ := array_inv ih hn he
      obtain ⟨hv, h5, h3⟩ := h3
      refine ⟨v, vs', rfl, ?_⟩
      simp only [headerPackValues, Int.natCast_nonneg, if_true] at h5
      split at h5
      · cases h5
      · rename_i hl
        have hl : items.length = k := by omega
        cases h3
        simp only [Fmt.store, h1, hl, if_true, h2, h4, List.nil_append]
  | .list w item, bo, s, hg, h => by
    simp only [Fmt.good, Bool.and_eq_true] at hg
    obtain ⟨id, y, rfl, hi⟩ := h
    have ih := is_inv hW item bo y hg.1 hi
    refine .kept rfl (fun p => rfl) fun p n vs b t hn he => ?_
    obtain ⟨v, vs', items, d, x, rfl, h1, h2, ⟨hv, h5, h3⟩, h4⟩ := array_inv ih hn he
    refine ⟨v, vs', rfl, ?_⟩
    have n1 : (intSer bo (w.code false)).numValues = 1 := by cases w <;> cases bo <;> rfl
    simp only [headerPackValues, hdrNum, Option.elim, n1] at h5
    simp only [show ¬ (0 : Int) ≤ -1 by decide, if_false, show ¬ (1 : Nat) = 2 by decide] at h5
    cases h5
    simp only [Fmt.store, h1, h2, h4]
    exact count_inv_pack h3 d
  | .sized w w2 item, bo, s, hg, h => by
    simp only [Fmt.good, Bool.and_eq_true] at hg
    obtain ⟨id, y, hd, rfl, ha, hi⟩ := h
    have ih := is_inv hW item bo y hg.1 hi
    refine .kept rfl (fun p => rfl) fun p n vs b t hn he => ?_
    obtain ⟨v, vs', items, d, x, rfl, h1, h2, ⟨hv, h5, h3⟩, h4⟩ := array_inv ih hn he
    refine ⟨v, vs', rfl, ?_⟩
    obtain ⟨n2, _⟩ := sized_pack ha
    simp only [headerPackValues, hdrNum, Option.elim, n2] at h5
    simp only [show ¬ (0 : Int) ≤ -1 by decide, if_false, if_true] at h5
    cases h5
    obtain ⟨b', h6, h7⟩ := sized_inv_pack ha h3 d
    simp only [Fmt.store, h1, h2, h4, h6, h7]
  | .tup items, bo, s, hg, h => by
    simp only [Fmt.good, Bool.and_eq_true, decide_eq_true_eq] at hg
    obtain ⟨⟨⟨_, hg⟩, _⟩, _⟩ := hg
    obtain ⟨id, id', inner, ss, rfl, hi, hsum⟩ := h
    have hall := isL_inv hW items .default ss hg hi
    have hf : ∀ x ∈ ss, FieldOf .default x := fun x hx => (isL_fieldOf hi x hx).1
    have hnn : ∀ x ∈ ss, x ≠ .null := fun x hx => (isL_fieldOf hi x hx).2
    obtain ⟨hm, hst⟩ := fields_sumIn hf hsum
    refine .kept rfl (fun p => rfl) fun p n vs b t hn he => ?_
    simp only [enc] at he
    match vs, he with
    | [], he => cases he
    | _ :: _ :: _, he => cases he
    | [v], he =>
      obtain ⟨⟨s', q⟩, h1, he⟩ := Out.bind_ok' he
      obtain ⟨vals, h2, he⟩ := Out.bind_ok' he
      obtain ⟨⟨b', t'⟩, h3, he⟩ := Out.bind_ok' he
      cases he
      have := whole_inv (N := N) (by omega) hm (fields_apart hf hsum) hnn hst.flat.notSpecial (ofE_inv h1) h3
      refine ⟨v, [], rfl, ?_⟩
      simp only [Fmt.store, elements_eq.2 (ofE_inv h2), Bool.false_and, Bool.false_eq_true, if_false]
      exact allI_loop hi hall this
  | .obj c, bo, s, _, h => by
    obtain ⟨id, rfl⟩ := h
    exact .leaf rfl rfl fun p n vs b t hn he => structured_inv hW hn he
  | .me, bo, s, _, h => by
    obtain ⟨id, rfl⟩ := h
    refine ⟨rfl, fun p s' q hq => ?_⟩
    cases hq
    exact ⟨rfl, fun n hn vs b t he => structured_inv hW hn he⟩
  | .choice cid args ahead decider keys opts other, bo, s, hg, h => by
    simp only [Fmt.good, Bool.and_eq_true, decide_eq_true_eq] at hg
    obtain ⟨⟨⟨⟨_, hg1⟩, hg2⟩, hlen⟩, _⟩ := hg
    obtain ⟨os, ds, h1, h2, h3⟩ := h
    have w1 := isL_inv hW opts .default os hg1 h1
    have w2 := isL_inv hW other .default ds hg2 h2
    have key : ∀ p n vs b t, n + 1 ≤ N → (do
        let r ← Out.ofE (decider p)
        encUnion (enc env n) keys os (ds.headD .null) p r vs) = .ok ⟨b, t⟩ →
        ∃ v vs', vs = v :: vs' ∧ (Fmt.choice cid args ahead decider keys opts other).store false env.plat bo W p v = some b := by
      intro p n vs b t hn he
      obtain ⟨r, hr, he⟩ := Out.bind_ok' he
      have hr := ofE_inv hr
      unfold encUnion at he
      obtain ⟨x, hx, he⟩ := Out.bind_ok' he
      obtain ⟨⟨s', q⟩, hq, he⟩ := Out.bind_ok' he
      obtain ⟨⟨b', t'⟩, h4, he⟩ := Out.bind_ok' he
      dsimp only at he
      split at he
      · cases he
      · have e : b' = b := by cases he; rfl
        clear he
        subst e
        have hI : ∀ w : PObj → Val → Option Bytes, Inv1 env N x w → ∃ v vs', vs = v :: vs' ∧ w p v = some b' := fun w hw =>
          (hw.enc p s' q (ofE_inv hq)).2 n (by omega) vs b' t' h4
        obtain ⟨hh, h5⟩ := unionPick_inv (by rw [hlen, isL_count h1]) (ofE_inv hx)
        cases vs with
        | nil =>
          exfalso
          have : ∀ {fs : List Fmt} {ss : List Ser} {k : Nat}, AllI env N .default W fs ss → ss[k]? = some x → False := by
            intro fs
            induction fs with
            | nil => intro ss k h hx; cases h; cases hx
            | cons f fs ih =>
              intro ss k h hx
              obtain ⟨y, ys, rfl, h1, h2⟩ := h
              cases k with
              | zero => cases hx; obtain ⟨_, _, e, _⟩ := hI _ h1; cases e
              | succ k => exact ih h2 (by simpa using hx)
          rcases h5 with ⟨k, _, h6⟩ | ⟨_, rfl, hd⟩
          · exact this w1 h6
          · cases ds with
            | nil => exact hd rfl
            | cons d ds => exact this (k := 0) w2 rfl
        | cons v vs =>
          have hI' : ∀ w : PObj → Val → Option Bytes, Inv1 env N x w → w p v = some b' := fun w hw => by
            obtain ⟨_, _, e, h⟩ := hI w hw
            cases e
            exact h
          refine ⟨v, vs, rfl, ?_⟩
          simp only [Fmt.store, hr]
          rcases h5 with ⟨k, h6, h7⟩ | ⟨h6, rfl, hd⟩
          · simp only [h6]
            exact allI_at w1 h7 hI'
          · simp only [h6, hh, if_true]
            cases ds with
            | nil => exact absurd rfl hd
            | cons d ds => exact allI_at (k := 0) w2 rfl hI'
    rcases h3 with ⟨_, rfl⟩ | ⟨a, st, _, _, rfl⟩
    · exact .kept rfl (fun p => rfl) fun p n vs b t hn he => key p n vs b t hn he
    · exact .kept rfl (fun p => rfl) fun p n vs b t hn he => key p n vs b t hn he
theorem isL_inv (hW : ObjInv env N W) : ∀ (fs : List Fmt) (bo : ByteOrder) (ss : List Ser), Fmt.goods .default fs = true → Fmt.IsL cf bo fs ss →
    AllI env N bo W fs ss
  | [], bo, ss, _, h => h
  | f :: fs, bo, ss, hg, h => by
    simp only [Fmt.goods, Bool.and_eq_true] at hg
    obtain ⟨x, xs, rfl, h1, h2⟩ := h
    exact ⟨x, xs, rfl, is_inv hW f bo x hg.1 h1, isL_inv hW fs bo xs hg.2 h2⟩
end

end Verif
