import Verif.Proofs.PutFew
import Verif.Proofs.AnyOrder
/-
Lemmas on what packing comes to: formats.
-/
namespace Verif
open Spec Sem

variable {bo : ByteOrder} {cf : ClassId → Bool} {env : Env} {W : ClassId → Val → Parsed Bytes} {p : PObj}

theorem Comes.stuck {r : Parsed Bytes} : Comes .stuck r := by
  cases r with
  | ok => exact .inl rfl
  | err => exact .inl rfl
  | deep => trivial
  | odd => trivial

theorem Comes.ok {b : Bytes} {t : List SerId} : Comes (.ok ⟨b, t⟩) (.ok b) := .inr ⟨t, rfl⟩

/-- The serializer, with the partial object that it was given, comes to what `w` says. -/
structure EncP (env : Env) (s : Ser) (q : Option PObj) (w : Val → Parsed Bytes) : Prop where
  one : s.numValues = 1
  sized : s.sized = true
  enc : ∀ v, ∃ K, ∀ n ≥ K, Comes (Sem.enc env n s q [v]) (w v)

/-- The serializer comes to what `w` says each time. -/
structure Puts1 (env : Env) (s : Ser) (w : PObj → Val → Parsed Bytes) : Prop where
  one : s.numValues = 1
  enc : ∀ p, ∃ s' q, pre s p = .ok (s', q) ∧ EncP env s' q (w p)

theorem Puts1.leaf {s : Ser} {w : PObj → Val → Parsed Bytes} (h1 : s.numValues = 1) (h2 : s.sized = true) (h3 : s.overridesPre = false)
    (h4 : ∀ p v, ∃ K, ∀ n ≥ K, Comes (Sem.enc env n s none [v]) (w p v)) : Puts1 env s w :=
  ⟨h1, fun p => ⟨s, none, pre_overrides h3 p, h1, h2, h4 p⟩⟩

theorem Puts1.leaf1 {s : Ser} {w : PObj → Val → Parsed Bytes} (h1 : s.numValues = 1) (h2 : s.sized = true) (h3 : s.overridesPre = false)
    (h4 : ∀ p v n, Comes (Sem.enc env (n + 1) s none [v]) (w p v)) : Puts1 env s w :=
  .leaf h1 h2 h3 fun p v => ⟨1, fun n hn => by
    obtain ⟨m, rfl⟩ : ∃ m, n = m + 1 := ⟨n - 1, by omega⟩
    exact h4 p v m⟩

theorem Puts1.same {s : Ser} {w : PObj → Val → Parsed Bytes} (h : Puts1 env s w) (hs : s.overridesPre = false) (p : PObj) :
    EncP env s none (w p) := by
  obtain ⟨s', q, h1, h2⟩ := h.enc p
  rw [pre_overrides hs] at h1
  cases h1
  exact h2

theorem Puts1.kept {s : Ser} {w : PObj → Val → Parsed Bytes} (h1 : s.numValues = 1) (h2 : s.sized = true)
    (h3 : ∀ p, pre s p = .ok (s, some p))
    (h4 : ∀ p v, ∃ K, ∀ n ≥ K, Comes (Sem.enc env n s (some p) [v]) (w p v)) : Puts1 env s w :=
  ⟨h1, fun p => ⟨s, some p, h3 p, h1, h2, h4 p⟩⟩

theorem items_put {s : Ser} {q : Option PObj} {w : Val → Parsed Bytes} (hw : EncP env s q w) : ∀ (vs : List Val),
    ∃ K, ∀ n ≥ K, Comes (encItems (enc env n) s q vs) (putAll w vs)
  | [] => ⟨0, fun n _ => .ok⟩
  | v :: vs => by
    obtain ⟨K1, h3⟩ := hw.enc v
    obtain ⟨K2, h4⟩ := items_put hw vs
    refine ⟨max K1 K2, fun n hn => ?_⟩
    rw [encItems, putAll]
    refine (h3 n (by omega)).bind fun b t _ => ?_
    simp only [hw.sized, not_true_eq_false, if_false]
    by_cases ht : s.keeper.any (t.contains ·) = true
    · rw [if_pos ht]; exact .stuck
    · rw [if_neg ht]
      exact (h4 n (by omega)).bind fun b' t' _ => .ok

theorem each_put {P : Platform} {st : StructSer} {w : Val → Parsed Bytes} (h : ∀ v, w v = .ofE (st.pack P [v])) :
    ∀ (vs : List Val), putAll w vs = .ofE (packEach P st vs)
  | [] => rfl
  | v :: vs => by
    rw [putAll, packEach, h v, each_put h vs]
    cases st.pack P [v] with
    | error e => rfl
    | ok b => cases packEach P st vs <;> rfl

/-- Each of the serializers comes to what its format says. -/
def AllPut (env : Env) (bo : ByteOrder) (W : ClassId → Val → Parsed Bytes) : List Fmt → List Ser → Prop
  | [], ss => ss = []
  | f :: fs, ss => ∃ x xs, ss = x :: xs ∧ Puts1 env x (fun o v => f.put env.plat bo W o v) ∧ AllPut env bo W fs xs

theorem value_put {f : Fmt} {x : Ser} {xs : List Ser} {v : Val} {vs : List Val} {k : Nat} {r : Parsed Bytes} (hi : f.Is cf bo x)
    (hw : Puts1 env x (fun o v => f.put env.plat bo W o v)) (h : GO env p (after bo k f.basic) xs vs r) :
    GO env p k (x :: xs) (v :: vs) (do
      let b ← f.put env.plat bo W p v
      let bs ← r
      .ok (List.replicate (gap bo k f.basic) 0 ++ b ++ bs)) := by
  obtain ⟨s', q, hq, he⟩ := hw.enc p
  rcases isStruct_dec x with ⟨st, rfl⟩ | hns
  · have hn : st.numValues = 1 := hw.one
    have hb : f.basic.isSome = true := by
      have := is_struct hi
      cases f <;> first | rfl | (cases this; done) | skip
      obtain ⟨_, _, h1, _⟩ := hi
      rename_i g _ _ _ _ _ _
      simp only [Fmt.basic]
      cases g <;> first | rfl | cases h1
    obtain ⟨t, h1, _⟩ := is_basic_toks hb hi
    rw [basic_put hi]
    cases hp : st.pack env.plat [v] with
    | error e => exact ⟨0, fun n _ => .inl (by rw [hn]; exact packAt_error h1.toks hp)⟩
    | ok b1 =>
      obtain ⟨g1, g2⟩ := is_packAt (P := env.plat) k hi hp
      cases r with
      | ok b2 =>
        obtain ⟨K, h⟩ := h
        refine ⟨K, fun n hn' => ⟨_, b2, by rw [hn]; exact g1, ?_, rfl⟩⟩
        rw [g2, hn]
        exact h n hn'
      | err e =>
        obtain ⟨K, h⟩ := h
        refine ⟨K, fun n hn' => .inr ⟨_, by rw [hn]; exact g1, ?_⟩⟩
        rw [g2, hn]
        exact h n hn'
      | deep => trivial
      | odd => trivial
  · rw [is_basic_none hi hns] at h ⊢
    obtain ⟨K1, hK1⟩ := he.enc v
    simp only [gap, List.replicate_zero, List.nil_append]
    have hnv : s'.numValues = x.numValues := by rw [he.one, hw.one]
    have htk : (v :: vs).take x.numValues = [v] := by rw [hw.one]; rfl
    have hdr : (v :: vs).drop x.numValues = vs := by rw [hw.one]; rfl
    have hK1 : ∀ n ≥ K1, Comes (enc env n s' q [v]) (f.put env.plat bo W p v) := hK1
    cases hr : f.put env.plat bo W p v with
    | deep => trivial
    | odd => trivial
    | err e =>
      rw [hr] at hK1
      refine ⟨K1, fun n hn => (ge_part hns).2 (.inl (.inr ⟨s', q, hq, hnv, ?_⟩))⟩
      rw [htk]
      exact hK1 n hn
    | ok b1 =>
      rw [hr] at hK1
      have hg : ∀ n ≥ K1, GivesPart env n p x (v :: vs) b1 := fun n hn => ⟨s', q, hq, he.sized, hnv, by rw [htk]; exact hK1 n hn⟩
      cases r with
      | ok b2 =>
        obtain ⟨K, h⟩ := h
        refine ⟨max K1 K, fun n hn => GL.part k hns (hg n (by omega)) ?_⟩
        rw [hdr]
        exact h n (by omega)
      | err e =>
        obtain ⟨K, h⟩ := h
        refine ⟨max K1 K, fun n hn => (ge_part hns).2 (.inr ⟨b1, hg n (by omega), ?_⟩)⟩
        rw [hdr]
        exact h n (by omega)
      | deep => trivial
      | odd => trivial

theorem front_le : ∀ fs : List Fmt, front fs ≤ fs.length
  | [] => Nat.le_refl _
  | f :: fs => by
    have := front_le fs
    simp only [front, List.length_cons]
    split <;> omega

theorem allPut_loop (p : PObj) : ∀ {fs : List Fmt} {ss : List Ser} {vs : List Val} {k : Nat}, Fmt.IsL cf bo fs ss → AllPut env bo W fs ss →
    vs.length = fs.length → vs.length = (ss.map Ser.numValues).sum ∧ GO env p k ss vs (Fmt.puts env.plat bo W p k fs vs)
  | [], _, vs, k, _, h, hl => by
    cases h
    cases vs with
    | nil => exact ⟨rfl, 0, fun n _ => rfl⟩
    | cons => cases hl
  | f :: fs, _, vs, k, hi, h, hl => by
    obtain ⟨x, xs, rfl, h1, h2⟩ := h
    obtain ⟨_, _, e, hi1, hi2⟩ := hi
    cases e
    cases vs with
    | nil => cases hl
    | cons v vs =>
      have hfr : ¬ vs.length + 1 < front (f :: fs) := by
        have := front_le (f :: fs)
        simp only [List.length_cons] at hl this
        omega
      obtain ⟨hl, hg⟩ := allPut_loop p (k := after bo k f.basic) hi2 h2 (by simpa using hl)
      refine ⟨by simp [hl, h1.one]; omega, ?_⟩
      rw [Fmt.puts, if_neg hfr]
      exact value_put hi1 h1 hg

theorem allPut_at : ∀ {fs : List Fmt} {ss : List Ser} {k : Nat}, AllPut env .default W fs ss → k < fs.length →
    ∃ (x : Ser) (f : Fmt), ss[k]? = some x ∧ Puts1 env x (fun o v => f.put env.plat .default W o v) ∧
      ∀ v, Fmt.putAt env.plat W p fs k v = f.put env.plat .default W p v
  | [], _, k, _, hk => by cases hk
  | f :: fs, _, 0, h, _ => by
    obtain ⟨x, xs, rfl, h1, h2⟩ := h
    exact ⟨x, f, rfl, h1, fun v => rfl⟩
  | f :: fs, _, k + 1, h, hk => by
    obtain ⟨x, xs, rfl, h1, h2⟩ := h
    obtain ⟨y, g, i1, i2, i3⟩ := allPut_at h2 (Nat.lt_of_succ_lt_succ hk)
    exact ⟨y, g, by simpa using i1, i2, i3⟩

/-- Objects come to this, wherever they are. -/
def ObjPuts (env : Env) (W : ClassId → Val → Parsed Bytes) : Prop :=
  ∀ c v, ∃ K, ∀ n ≥ K, ∀ id c', Comes (enc env n (.structured id c') Option.none [v]) (W c v)

theorem basic_puts {f : Fmt} {s : Ser} (hf : f.basic.isSome = true) (h : f.Is cf bo s) : Puts1 env s (fun o v => f.put env.plat bo W o v) := by
  rcases isStruct_dec s with ⟨st, rfl⟩ | hs
  · obtain ⟨t, h1, h2⟩ := is_basic_toks hf h
    refine .leaf1 (h1.numValues h2) rfl rfl fun p v n => ?_
    rw [basic_put h]
    exact .leaf
  · rw [is_basic_none h hs] at hf
    cases hf

/-- A documented tuple has a size. -/
theorem tup_sized (env : Env) {items : List Fmt} {id' : SerId} {inner : Ser} {ss : List Ser} (hg : Fmt.goods .default items = true)
    (hme : Fmt.onlyMe items = false) (hi : Fmt.IsL cf .default items ss) (hsum : sumSers cf id' ss = .ok inner) : inner.sized = true := by
  have hall := isL_stores (env := env) noObj items .default ss hg hi
  have hf : ∀ x ∈ ss, FieldOf .default x := fun x hx => (isL_fieldOf hi x hx).1
  have hnn : ∀ x ∈ ss, x ≠ .null := fun x hx => (isL_fieldOf hi x hx).2
  obtain ⟨hm, hst⟩ := fields_sumIn hf hsum
  rcases hst.flat.notSpecial with hs | ⟨_, _, rfl⟩
  · rcases parts_simple hs with ⟨_, rfl⟩ | hps
    · rfl
    · rcases merge_mem hm inner (by rw [hps]; simp) with h1 | ⟨st, rfl⟩
      · by_cases hstr : ∃ st, inner = .struct st
        · obtain ⟨st, rfl⟩ := hstr; rfl
        · have := merge_lone hm hps (fun st e => hstr ⟨st, e⟩) hnn
          subst this
          match items, hall, hi, hme with
          | [], hall, _, _ => cases hall
          | f :: fs, hall, hi, hme =>
            obtain ⟨x, xs, e, h2, h3⟩ := hall
            cases e
            rcases h2.szd with h4 | ⟨id, rfl⟩
            · exact h4
            · obtain ⟨x, xs, e, h5, h6⟩ := hi
              cases e
              have : f = .me := is_selfT h5
              subst this
              cases fs with
              | nil => cases hme
              | cons => obtain ⟨_, _, e, _⟩ := h6; cases e
      · rfl
  · rfl

/-- A header of two counts. -/
theorem sized_put {w w2 : Size} {h : StructSer} (ha : (intSer bo (w.code false)).add (intSer bo (w2.code false)) = .ok h) {P : Platform} {j k : Nat}
    (b : Bytes) : (do
      let b' ← fits (prefixed P bo w2 k b)
      fits (prefixed P bo w j (List.replicate (gap bo w.bytes (some (w2.bytes, w2.bytes))) 0 ++ b'))) =
      (Parsed.ofE (h.pack P [.int j, .int k]) >>= fun x => .ok (x ++ b)) := by
  cases hp : h.pack P [.int j, .int k] with
  | ok x =>
    obtain ⟨b', h1, h2⟩ := sized_inv_pack ha hp b
    rw [h1]
    show fits (prefixed P bo w j (List.replicate (gap bo w.bytes (some (w2.bytes, w2.bytes))) 0 ++ b')) = _
    rw [h2]; rfl
  | error e =>
    have he : e = .structError := by
      obtain ⟨wd, t1, w1, o1, f1, p1, s1⟩ := intSer_facts (w.mem false) bo
      obtain ⟨wd2, t2, _, o2, f2, p2, s2⟩ := intSer_facts (w2.mem false) bo
      have hsg : SingleItem (intSer bo (w2.code false)).baseFormat := ⟨[], w2.code false, by cases w2 <;> cases bo <;> rfl, by simp, by cases w2 <;> rfl⟩
      have key : SumIn bo (intSer bo (w.code false)) (intSer bo (w2.code false)) h := ⟨ha, ⟨f1, by simp [intSer]⟩, ⟨f2, by simp [intSer]⟩, o1, o2, hsg⟩
      have ht : ∀ w : Size, (intSer bo (w.code false)).toks = [⟨1, .int false w.wd⟩] := by intro w; cases w <;> cases bo <;> rfl
      refine pack_error key.facts.toks (fun t h => ?_) hp
      rw [ht, ht] at h
      simp only [List.cons_append, List.nil_append, List.mem_cons, List.not_mem_nil, or_false] at h
      rcases h with rfl | rfl <;> exact .inr ⟨_, _, rfl⟩
    subst he
    cases h1 : prefixed P bo w2 k b with
    | none => rfl
    | some b' =>
      show fits (prefixed P bo w j (List.replicate (gap bo w.bytes (some (w2.bytes, w2.bytes))) 0 ++ b')) = _
      cases h2 : prefixed P bo w j (List.replicate (gap bo w.bytes (some (w2.bytes, w2.bytes))) 0 ++ b') with
      | none => rfl
      | some d =>
        have := (sized_pack ha).2 P j k (prefixed_some h2).1 (prefixed_some h1).1
        rw [hp] at this
        cases this

theorem union_put {keys : List Val} {os : List Ser} {d x : Ser} {r v : Val} {w : PObj → Val → Parsed Bytes} (hs : unionPick keys os d r = .ok x)
    (hw : Puts1 env x w) : ∃ K, ∀ n ≥ K, Comes (encUnion (enc env n) keys os d p r [v]) (w p v) := by
  obtain ⟨s', q, hq, he⟩ := hw.enc p
  obtain ⟨K, hK⟩ := he.enc v
  refine ⟨K, fun n hn => ?_⟩
  simp only [encUnion, hs, Out.ofE, Out.ok_bind, hq, he.sized, not_true_eq_false, if_false]
  have : w p v = (w p v >>= fun b => .ok b) := by cases w p v <;> rfl
  rw [this]
  exact (hK n hn).bind fun b t _ => .ok

theorem allPut_pre : ∀ {fs : List Fmt} {ss : List Ser}, AllPut env bo W fs ss → ∀ x ∈ ss, ∃ s' q, pre x p = .ok (s', q)
  | [], _, h, x, hx => by cases h; cases hx
  | f :: fs, _, h, x, hx => by
    obtain ⟨y, ys, rfl, h1, h2⟩ := h
    rcases List.mem_cons.1 hx with rfl | hx
    · obtain ⟨s', q, h, _⟩ := h1.enc p
      exact ⟨s', q, h⟩
    · exact allPut_pre h2 x hx

theorem inner_pre {s : Ser} {ss : List Ser} (hm : Merge (SumIn bo) ss (parts s)) (hnn : ∀ x ∈ ss, x ≠ .null)
    (hs : Simple s ∨ ∃ id xs, s = .compound id xs) (h : ∀ x ∈ ss, ∃ s' q, pre x p = .ok (s', q)) : ∃ s' q, pre s p = .ok (s', q) := by
  rcases hs with hs | ⟨id, xs, rfl⟩
  · rcases parts_simple hs with ⟨_, rfl⟩ | hp
    · exact ⟨_, _, rfl⟩
    · rcases isStruct_dec s with ⟨st, rfl⟩ | hns
      · exact ⟨_, _, rfl⟩
      · have := merge_lone hm hp hns hnn
        subst this
        exact h s (by simp)
  · exact ⟨_, _, rfl⟩

/-! ### Another number of values than one -/

/-- What a serializer does with no value, and with several. -/
structure Lone (env : Env) (s : Ser) (q : Option PObj) (e : Err) : Prop where
  no : ∃ K, ∀ n ≥ K, Fails (Sem.enc env n s q []) e
  same : e = .indexError → ∀ n v vs, Sem.enc env n s q (v :: vs) = Sem.enc env n s q [v]
  other : e ≠ .indexError → ∀ v w vs, ∃ K, ∀ n ≥ K, Fails (Sem.enc env n s q (v :: w :: vs)) e

theorem is_pre {f : Fmt} {s : Ser} (h : f.Is cf bo s) (p : PObj) : ∃ s' q, pre s p = .ok (s', q) := by
  have : ∀ y c d, s ≠ .cond y c d := by
    rintro y c d rfl
    cases f <;> simp only [Fmt.Is, IsItem] at h <;> first
      | (obtain ⟨_, h⟩ := h; cases h; done)
      | (obtain ⟨_, h, _⟩ := h; cases h; done)
      | (obtain ⟨_, _, h, _⟩ := h; cases h; done)
      | (obtain ⟨_, _, _, h, _⟩ := h; cases h; done)
      | (obtain ⟨_, _, _, _, h, _⟩ := h; cases h; done)
      | (rcases h with ⟨_, _, h, _⟩ | ⟨_, _, h, _⟩ <;> cases h; done)
      | (obtain ⟨_, _, _, _, ⟨_, h⟩ | ⟨_, _, _, _, h⟩⟩ := h <;> cases h)
  cases s
  case cond y c d => exact absurd rfl (this y c d)
  all_goals exact ⟨_, _, rfl⟩

/-- Basic types count. -/
theorem struct_lone {st : StructSer} {q : Option PObj} (h : st.numValues = 1) : Lone env (.struct st) q .structError := by
  refine ⟨⟨1, fun n hn => ?_⟩, nofun, fun _ v w vs => ⟨1, fun n hn => ?_⟩⟩ <;> obtain ⟨m, rfl⟩ : ∃ m, n = m + 1 := ⟨n - 1, by omega⟩
  · rw [enc, pack_count (by rw [h]; simp)]; exact .inr rfl
  · rw [enc, pack_count (by rw [h]; simp)]; exact .inr rfl

/-- Strings and arrays take the first value. -/
theorem first_lone {s : Ser} {q : Option PObj} (h : ∀ n, Fails (Sem.enc env (n + 1) s q []) .indexError)
    (h2 : ∀ n v vs, Sem.enc env n s q (v :: vs) = Sem.enc env n s q [v]) : Lone env s q .indexError :=
  ⟨⟨1, fun n hn => by obtain ⟨m, rfl⟩ : ∃ m, n = m + 1 := ⟨n - 1, by omega⟩; exact h m⟩, fun _ => h2, fun h => absurd rfl h⟩

/-- Tuples and classes take one. -/
theorem one_lone {s : Ser} {q : Option PObj} (h : ∀ n vs, vs.length ≠ 1 → Fails (Sem.enc env (n + 1) s q vs) .typeError) : Lone env s q .typeError :=
  ⟨⟨1, fun n hn => by obtain ⟨m, rfl⟩ : ∃ m, n = m + 1 := ⟨n - 1, by omega⟩; exact h m [] (by simp)⟩, nofun,
    fun _ v w vs => ⟨1, fun n hn => by obtain ⟨m, rfl⟩ : ∃ m, n = m + 1 := ⟨n - 1, by omega⟩; exact h m _ (by simp)⟩⟩

theorem structured_lone {c : ClassId} {id : SerId} {q : Option PObj} : Lone env (.structured id c) q .typeError :=
  one_lone fun n vs hv => by
    match vs, hv with
    | [], _ => exact .inr rfl
    | [_], hv => exact absurd rfl hv
    | _ :: _ :: _, _ => exact .inr rfl

theorem array_lone {id : SerId} {hdr : Option StructSer} {y : Ser} {k : Int} (hp : ∃ y' q, pre y p = .ok (y', q)) :
    Lone env (.array id hdr y k) (some p) .indexError := by
  obtain ⟨y', q, hp⟩ := hp
  refine first_lone (fun n => ?_) fun n v vs => ?_
  · simp only [enc, hp, Out.ofE, Out.ok_bind, first]
    exact .inr rfl
  · cases n <;> rfl

/-- A union hands the values on. -/
theorem union_lone {s x : Ser} {keys : List Val} {os : List Ser} {d : Ser} {r : Val} {e : Err}
    (hs : ∀ n vs, enc env (n + 1) s (some p) vs = encUnion (enc env n) keys os d p r vs) (hu : unionPick keys os d r = .ok x)
    (hx : ∃ x' q, pre x p = .ok (x', q) ∧ Lone env x' q e) : Lone env s (some p) e := by
  obtain ⟨x', q, h1, h2⟩ := hx
  refine ⟨?_, fun he n v vs => ?_, fun he v w vs => ?_⟩
  · obtain ⟨K, h⟩ := h2.no
    refine ⟨K + 1, fun n hn => ?_⟩
    obtain ⟨m, rfl⟩ : ∃ m, n = m + 1 := ⟨n - 1, by omega⟩
    simp only [hs, encUnion, hu, h1, Out.ofE, Out.ok_bind]
    exact (h m (by omega)).bind
  · cases n with
    | zero => rfl
    | succ n => simp only [hs, encUnion, hu, h1, Out.ofE, Out.ok_bind, h2.same he n v vs]
  · obtain ⟨K, h⟩ := h2.other he v w vs
    refine ⟨K + 1, fun n hn => ?_⟩
    obtain ⟨m, rfl⟩ : ∃ m, n = m + 1 := ⟨n - 1, by omega⟩
    simp only [hs, encUnion, hu, h1, Out.ofE, Out.ok_bind]
    exact (h m (by omega)).bind

/-- So does a union that raises an exception. -/
theorem error_lone {s : Ser} {q : Option PObj} {e : Err} (h : ∀ n vs, enc env (n + 1) s q vs = .err e) : Lone env s q e := by
  have : ∀ n ≥ 1, ∀ vs, enc env n s q vs = .err e := fun n hn vs => by
    obtain ⟨m, rfl⟩ : ∃ m, n = m + 1 := ⟨n - 1, by omega⟩
    exact h m vs
  refine ⟨⟨1, fun n hn => .inr (this n hn _)⟩, fun _ n v vs => ?_, fun _ v w vs => ⟨1, fun n hn => .inr (this n hn _)⟩⟩
  cases n with
  | zero => rfl
  | succ n => rw [h, h]

theorem basic_bare {f : Fmt} (h : f.basic.isSome = true) (o : PObj) : f.bare o = .structError := by
  cases f <;> first | rfl | cases h

theorem basic_lone {f : Fmt} {s : Ser} (hf : f.basic.isSome = true) (h : f.Is cf bo s) : ∃ s' q, pre s p = .ok (s', q) ∧ Lone env s' q (f.bare p) := by
  rcases isStruct_dec s with ⟨st, rfl⟩ | hs
  · obtain ⟨t, h1, h2⟩ := is_basic_toks hf h
    exact ⟨_, _, rfl, by rw [basic_bare hf]; exact struct_lone (h1.numValues h2)⟩
  · rw [is_basic_none h hs] at hf
    cases hf

mutual
theorem is_lone (env : Env) (p : PObj) : ∀ (f : Fmt) (bo : ByteOrder) (s : Ser), f.good .default = true → f.Is cf bo s →
    ∃ s' q, pre s p = .ok (s', q) ∧ Lone env s' q (f.bare p)
  | .int sg w, bo, s, _, h => basic_lone (f := .int sg w) rfl h
  | .bool, bo, s, _, h => basic_lone (f := .bool) rfl h
  | .half, bo, s, _, h => basic_lone (f := .half) rfl h
  | .single, bo, s, _, h => basic_lone (f := .single) rfl h
  | .double, bo, s, _, h => basic_lone (f := .double) rfl h
  | .chars k, bo, s, _, h => basic_lone (f := .chars k) rfl h
  | .pascal k, bo, s, _, h => basic_lone (f := .pascal k) rfl h
  | .via i f nm own make, bo, s, hg, h => by
    have hd : f.direct = true := by
      simp only [Fmt.good, Bool.and_eq_true] at hg
      exact hg.1
    refine basic_lone (f := .via i f nm own make) ?_ h
    simp only [Fmt.basic]
    cases f <;> first | rfl | cases hd
  | .net, bo, s, _, h => by
    obtain ⟨id, rfl⟩ := h
    exact ⟨_, _, rfl, first_lone (fun n => .inr rfl) fun n v vs => by cases n <;> rfl⟩
  | .counted w, bo, s, _, h => by
    obtain ⟨id, rfl⟩ := h
    exact ⟨_, _, rfl, first_lone (fun n => .inr rfl) fun n v vs => by cases n <;> rfl⟩
  | .until t, bo, s, _, h => by
    obtain ⟨id, rfl⟩ := h
    exact ⟨_, _, rfl, first_lone (fun n => .inr rfl) fun n v vs => by cases n <;> rfl⟩
  | .rest, bo, s, _, h => by
    obtain ⟨id, rfl⟩ := h
    exact ⟨_, _, rfl, first_lone (fun n => .inr rfl) fun n v vs => by cases n <;> rfl⟩
  | .text f en de, bo, s, hg, h => by
    obtain ⟨y, rfl, h⟩ := h
    exact ⟨_, _, rfl, first_lone (fun n => .inr rfl) fun n v vs => by cases n <;> rfl⟩
  | .fixed k item, bo, s, hg, h => by
    rcases h with ⟨st, ser, rfl, hb, hi, hm⟩ | ⟨id, y, rfl, hb, hi⟩
    · exact ⟨_, _, rfl, first_lone (fun n => .inr rfl) fun n v vs => by cases n <;> rfl⟩
    · exact ⟨_, _, rfl, array_lone (is_pre hi p)⟩
  | .list w item, bo, s, hg, h => by
    obtain ⟨id, y, rfl, hi⟩ := h
    exact ⟨_, _, rfl, array_lone (is_pre hi p)⟩
  | .sized w w2 item, bo, s, hg, h => by
    obtain ⟨id, y, hd, rfl, ha, hi⟩ := h
    exact ⟨_, _, rfl, array_lone (is_pre hi p)⟩
  | .tup items, bo, s, hg, h => by
    obtain ⟨id, id', inner, ss, rfl, hi, hsum⟩ := h
    refine ⟨_, _, rfl, one_lone fun n vs hv => ?_⟩
    match vs, hv with
    | [], _ => exact .inr rfl
    | [_], hv => exact absurd rfl hv
    | _ :: _ :: _, _ => exact .inr rfl
  | .obj c, bo, s, _, h => by
    obtain ⟨id, rfl⟩ := h
    exact ⟨_, _, rfl, structured_lone⟩
  | .me, bo, s, _, h => by
    obtain ⟨id, rfl⟩ := h
    exact ⟨_, _, rfl, structured_lone⟩
  | .choice cid args ahead decider keys opts other, bo, s, hg, h => by
    simp only [Fmt.good, Bool.and_eq_true, decide_eq_true_eq] at hg
    obtain ⟨⟨⟨⟨_, hg1⟩, hg2⟩, hkl⟩, _⟩ := hg
    obtain ⟨os, ds, h1, h2, h3⟩ := h
    have hpre : pre s p = .ok (s, some p) := by rcases h3 with ⟨_, rfl⟩ | ⟨_, st, _, _, rfl⟩ <;> rfl
    have henc : ∀ n vs, enc env (n + 1) s (some p) vs = (do
        let r ← .ofE (decider p)
        encUnion (enc env n) keys os (ds.headD .null) p r vs) := by
      rcases h3 with ⟨_, rfl⟩ | ⟨_, st, _, _, rfl⟩ <;> exact fun n vs => rfl
    refine ⟨s, some p, hpre, ?_⟩
    simp only [Fmt.bare]
    cases hdec : decider p with
    | error e => exact error_lone fun n vs => by rw [henc, hdec]; rfl
    | ok r =>
      simp only [hdec, Out.ofE, Out.ok_bind] at henc
      by_cases hh : r.hashable = true
      · simp only [hh, not_true_eq_false, if_false]
        cases hk : keyAt keys r with
        | some k =>
          have hlt : k < opts.length := by
            simp only [keyAt, hh, if_true] at hk
            have := List.findIdx?_eq_some_iff_findIdx_eq.1 hk
            omega
          obtain ⟨x, h4, h5⟩ := isL_lone env p opts .default os k hg1 h1 hlt
          exact union_lone henc (unionPick_key hk h4) h5
        | none =>
          match other, ds, hg2, h2, henc with
          | [], _, _, h2, henc =>
            cases h2
            have hl : lookupOpt keys os r = none := by
              simp only [lookupOpt, Option.map_eq_none_iff, List.find?_eq_none]
              simp only [keyAt, hh, if_true, List.findIdx?_eq_none_iff] at hk
              intro x hx
              rw [hk x.1 (List.of_mem_zip hx).1]
              decide
            refine error_lone fun n vs => ?_
            rw [henc]
            simp only [encUnion, unionPick, hh, hl, List.headD, not_true_eq_false, if_false]
            rfl
          | g :: gs, _, hg2, h2, henc =>
            obtain ⟨x, h4, h5⟩ := isL_lone env p (g :: gs) .default _ 0 hg2 h2 (by simp)
            obtain ⟨y, ys, rfl, h6, _⟩ := h2
            have h4 : y = x := by simpa using h4
            subst h4
            have hx : y ≠ .null := (isL_fieldOf (fs := [g]) (ss := [y]) ⟨y, [], rfl, h6, rfl⟩ y (by simp)).2
            exact union_lone henc (unionPick_other hk hh hx) h5
      · simp only [hh, Bool.false_eq_true, not_false_eq_true, if_true]
        refine error_lone fun n vs => ?_
        rw [henc]
        simp only [encUnion, unionPick, hh]
        rfl
theorem isL_lone (env : Env) (p : PObj) : ∀ (fs : List Fmt) (bo : ByteOrder) (ss : List Ser) (k : Nat), Fmt.goods .default fs = true → Fmt.IsL cf bo fs ss →
    k < fs.length → ∃ x, ss[k]? = some x ∧ ∃ s' q, pre x p = .ok (s', q) ∧ Lone env s' q (Fmt.bareAt p fs k)
  | [], _, _, _, _, _, hk => by cases hk
  | f :: fs, bo, ss, 0, hg, h, _ => by
    obtain ⟨x, xs, rfl, h1, h2⟩ := h
    simp only [Fmt.goods, Bool.and_eq_true] at hg
    exact ⟨x, rfl, is_lone env p f bo x hg.1 h1⟩
  | f :: fs, bo, ss, k + 1, hg, h, hk => by
    obtain ⟨x, xs, rfl, h1, h2⟩ := h
    simp only [Fmt.goods, Bool.and_eq_true] at hg
    obtain ⟨y, h3, h4⟩ := isL_lone env p fs bo xs k hg.2 h2 (Nat.lt_of_succ_lt_succ hk)
    exact ⟨y, by simpa using h3, h4⟩
end

/-! ### Tuples with too few or too many items -/

theorem allPut_num : ∀ {fs : List Fmt} {ss : List Ser}, AllPut env bo W fs ss → (ss.map Ser.numValues).sum = fs.length
  | [], _, h => by cases h; rfl
  | f :: fs, _, h => by
    obtain ⟨x, xs, rfl, h1, h2⟩ := h
    simp only [List.map_cons, List.sum_cons, h1.one, allPut_num h2, List.length_cons]
    omega

theorem lead_front : ∀ {fs : List Fmt} {ss : List Ser}, Fmt.IsL cf bo fs ss → AllPut env bo W fs ss → lead ss = front fs
  | [], _, _, h => by cases h; rfl
  | f :: fs, _, hi, h => by
    obtain ⟨x, xs, rfl, h1, h2⟩ := h
    obtain ⟨_, _, e, hi1, hi2⟩ := hi
    cases e
    rcases isStruct_dec x with ⟨st, rfl⟩ | hs
    · have : st.numValues = 1 := h1.one
      simp only [lead, front, is_struct hi1, if_true, lead_front hi2 h2, this]
      omega
    · simp only [front, is_basic_none hi1 hs]
      cases x
      case struct st => exact absurd rfl (hs st)
      all_goals rfl

/-- Too few values are never packed. -/
def Falls (env : Env) (p : PObj) (k : Nat) (ss : List Ser) (vs : List Val) : Parsed Bytes → Prop
  | .ok _ => False
  | .err e => ∃ K, ∀ n ≥ K, GF env n p k ss vs e
  | .deep | .odd => True

theorem value_few {f : Fmt} {x : Ser} {xs : List Ser} {v : Val} {vs : List Val} {k : Nat} {r : Parsed Bytes} (hi : f.Is cf bo x)
    (hw : Puts1 env x (fun o v => f.put env.plat bo W o v)) (hl : lead (x :: xs) ≤ vs.length + 1) (h : Falls env p (after bo k f.basic) xs vs r) :
    Falls env p k (x :: xs) (v :: vs) (do
      let b ← f.put env.plat bo W p v
      let bs ← r
      .ok (List.replicate (gap bo k f.basic) 0 ++ b ++ bs)) := by
  obtain ⟨s', q, hq, he⟩ := hw.enc p
  rcases isStruct_dec x with ⟨st, rfl⟩ | hns
  · have hn : st.numValues = 1 := hw.one
    obtain ⟨t, h1, _⟩ := is_basic_toks (is_struct hi) hi
    rw [basic_put hi]
    cases hp : st.pack env.plat [v] with
    | error e => exact ⟨0, fun n _ => .inr ⟨hl, .inl (by rw [hn]; exact packAt_error h1.toks hp)⟩⟩
    | ok b1 =>
      obtain ⟨g1, g2⟩ := is_packAt (P := env.plat) k hi hp
      cases r with
      | ok b2 => exact h.elim
      | err e =>
        obtain ⟨K, h⟩ := h
        refine ⟨K, fun n hn' => .inr ⟨hl, .inr ⟨_, by rw [hn]; exact g1, ?_⟩⟩⟩
        rw [g2, hn]
        exact h n hn'
      | deep => trivial
      | odd => trivial
  · rw [is_basic_none hi hns] at h ⊢
    obtain ⟨K1, hK1⟩ := he.enc v
    simp only [gap, List.replicate_zero, List.nil_append]
    have hnv : s'.numValues = x.numValues := by rw [he.one, hw.one]
    have htk : (v :: vs).take x.numValues = [v] := by rw [hw.one]; rfl
    have hdr : (v :: vs).drop x.numValues = vs := by rw [hw.one]; rfl
    have hK1 : ∀ n ≥ K1, Comes (enc env n s' q [v]) (f.put env.plat bo W p v) := hK1
    cases hr : f.put env.plat bo W p v with
    | deep => trivial
    | odd => trivial
    | err e =>
      rw [hr] at hK1
      refine ⟨K1, fun n hn => (gf_part hns).2 (.inl (.inr ⟨s', q, hq, hnv, ?_⟩))⟩
      rw [htk]
      exact hK1 n hn
    | ok b1 =>
      rw [hr] at hK1
      have hg : ∀ n ≥ K1, GivesPart env n p x (v :: vs) b1 := fun n hn => ⟨s', q, hq, he.sized, hnv, by rw [htk]; exact hK1 n hn⟩
      cases r with
      | ok b2 => exact h.elim
      | err e =>
        obtain ⟨K, h⟩ := h
        refine ⟨max K1 K, fun n hn => (gf_part hns).2 (.inr ⟨b1, hg n (by omega), ?_⟩)⟩
        rw [hdr]
        exact h n (by omega)
      | deep => trivial
      | odd => trivial

theorem allPut_few (p : PObj) : ∀ {fs : List Fmt} {ss : List Ser} {vs : List Val} {k : Nat}, Fmt.goods .default fs = true → Fmt.IsL cf bo fs ss →
    AllPut env bo W fs ss → vs.length < fs.length → Falls env p k ss vs (Fmt.puts env.plat bo W p k fs vs)
  | [], _, vs, k, _, _, h, hl => by cases hl
  | f :: fs, _, vs, k, hg, hi, h, hl => by
    have hlf := lead_front hi h
    obtain ⟨x, xs, rfl, h1, h2⟩ := h
    obtain ⟨_, _, e, hi1, hi2⟩ := hi
    cases e
    simp only [Fmt.goods, Bool.and_eq_true] at hg
    cases vs with
    | nil =>
      rw [Fmt.puts]
      rcases isStruct_dec x with ⟨st, rfl⟩ | hs
      · have hn : st.numValues = 1 := h1.one
        exact ⟨0, fun n _ => .inl ⟨by rw [hn]; exact Nat.lt_of_lt_of_le Nat.zero_lt_one (Nat.le_add_right _ _), basic_bare (is_struct hi1) p⟩⟩
      · obtain ⟨s', q, h3, h4⟩ := is_lone env p f bo x hg.1 hi1
        obtain ⟨s2, q2, h5, h6⟩ := h1.enc p
        rw [h3] at h5
        cases h5
        obtain ⟨K, h4⟩ := h4.no
        exact ⟨K, fun n hn => (gf_part hs).2 (.inl (.inr ⟨s', q, h3, by rw [h6.one, h1.one], by rw [List.take_nil]; exact h4 n hn⟩))⟩
    | cons v vs =>
      rw [Fmt.puts]
      by_cases hfr : vs.length + 1 < front (f :: fs)
      · rw [if_pos hfr]
        rcases isStruct_dec x with ⟨st, rfl⟩ | hs
        · exact ⟨0, fun n _ => .inl ⟨by rw [← hlf] at hfr; exact hfr, rfl⟩⟩
        · simp only [front, is_basic_none hi1 hs] at hfr
          exact absurd hfr (by simp)
      · rw [if_neg hfr]
        exact value_few hi1 h1 (by omega) (allPut_few p hg.2 hi2 h2 (by simpa using hl))

theorem puts_more {P : Platform} {us : List Val} : ∀ {fs : List Fmt} {vs : List Val} {k : Nat}, vs.length = fs.length →
    Fmt.puts P bo W p k fs (vs ++ us) = Fmt.puts P bo W p k fs vs
  | [], vs, k, _ => by simp only [Fmt.puts]
  | f :: fs, [], k, h => by cases h
  | f :: fs, v :: vs, k, h => by
    have h1 := front_le (f :: fs)
    simp only [List.length_cons] at h h1
    simp only [List.cons_append, Fmt.puts]
    rw [if_neg (by rw [List.length_append]; omega), if_neg (by omega), puts_more (by omega)]

/-- A sum that is a struct serializer has nothing else in it. -/
theorem merge_back {J : StructSer → StructSer → StructSer → Prop} {xs ys : List Ser} (h : Merge J xs ys) (hn : ∀ x ∈ xs, x ≠ .null)
    (hy : ∀ y ∈ ys, ∃ st, y = .struct st) : ∀ x ∈ xs, ∃ st, x = .struct st := by
  induction h with
  | refl => exact hy
  | null => exact absurd rfl (hn .null (by simp))
  | @join pr post ys x y z _ _ ih =>
    have := ih (fun w hw => by
      simp only [List.mem_append, List.mem_cons] at hw
      rcases hw with hw | rfl | hw
      · exact hn w (by simp [hw])
      · nofun
      · exact hn w (by simp [hw])) hy
    intro w hw
    simp only [List.mem_append, List.mem_cons] at hw
    rcases hw with hw | rfl | rfl | hw
    · exact this w (by simp [hw])
    · exact ⟨_, rfl⟩
    · exact ⟨_, rfl⟩
    · exact this w (by simp [hw])

theorem isL_structs : ∀ {fs : List Fmt} {ss : List Ser}, Fmt.IsL cf bo fs ss → ((∀ x ∈ ss, ∃ st, x = .struct st) ↔ fs.all (·.basic.isSome) = true)
  | [], _, h => by cases h; simp
  | f :: fs, _, h => by
    obtain ⟨x, xs, rfl, h1, h2⟩ := h
    have ih := isL_structs h2
    simp only [List.mem_cons, forall_eq_or_imp, List.all_cons, Bool.and_eq_true, ih]
    refine and_congr ⟨?_, fun h => ?_⟩ Iff.rfl
    · rintro ⟨st, rfl⟩; exact is_struct h1
    · obtain ⟨st, e, _⟩ := is_basic h h1
      exact ⟨st, e⟩

theorem allPut_one : ∀ {fs : List Fmt} {ss : List Ser}, AllPut env bo W fs ss → ∀ x ∈ ss, ∀ s' q, pre x p = .ok (s', q) → s'.numValues = x.numValues
  | [], _, h, x, hx => by cases h; cases hx
  | f :: fs, _, h, x, hx => by
    obtain ⟨y, ys, rfl, h1, h2⟩ := h
    rcases List.mem_cons.1 hx with rfl | hx
    · obtain ⟨s', q, h3, h4⟩ := h1.enc p
      intro s2 q2 h5
      rw [h3] at h5
      cases h5
      rw [h4.one, h1.one]
    · exact allPut_one h2 x hx

/-- A tuple with too many items. -/
theorem tup_more {items : List Fmt} {ss : List Ser} {inner : Ser} {id' : SerId} {vs : List Val} (hg : Fmt.goods .default items = true)
    (hne : items ≠ []) (hi : Fmt.IsL cf .default items ss) (hall : AllPut env .default W items ss) (hsum : sumSers cf id' ss = .ok inner)
    (hl : items.length < vs.length)
    (hex : ∀ us, us.length = items.length → ∃ s' q, pre inner p = .ok (s', q) ∧ ∃ K, ∀ n ≥ K, Comes (enc env n s' q us) (Fmt.puts env.plat .default W p 0 items us)) :
    ∃ s' q, pre inner p = .ok (s', q) ∧ ∃ K, ∀ n ≥ K, Comes (enc env n s' q vs) (match surplus p items vs.length with
      | some e => .err e
      | none => Fmt.puts env.plat .default W p 0 items vs) := by
  have hf : ∀ x ∈ ss, FieldOf .default x := fun x hx => (isL_fieldOf hi x hx).1
  have hnn : ∀ x ∈ ss, x ≠ .null := fun x hx => (isL_fieldOf hi x hx).2
  obtain ⟨hm, hst⟩ := fields_sumIn hf hsum
  have hlen := isL_count hi
  have hsplit : vs = vs.take items.length ++ vs.drop items.length := (List.take_append_drop ..).symm
  have htl : (vs.take items.length).length = items.length := by rw [List.length_take]; omega
  obtain ⟨s', q, hq, K, hK⟩ := hex (vs.take items.length) htl
  by_cases hb : items.all (·.basic.isSome) = true
  · have : surplus p items vs.length = some .structError := by unfold surplus; rw [if_neg (by omega), if_pos hb]
    rw [this]
    obtain ⟨st, rfl, h1⟩ := structs_count hf hsum ((isL_structs hi).2 hb) (by rintro rfl; simp at hlen; exact hne (List.length_eq_zero_iff.1 hlen.symm))
    rw [allPut_num hall] at h1
    refine ⟨_, _, rfl, 1, fun n hn => ?_⟩
    obtain ⟨m, rfl⟩ : ∃ m, n = m + 1 := ⟨n - 1, by omega⟩
    rw [enc, pack_count (by omega)]
    exact .inr rfl
  · match items, hb, hi, hall, hg with
    | [], _, _, _, _ => exact absurd rfl hne
    | [f], hb, hi, hall, hg =>
      obtain ⟨x, _, rfl, hi1, e⟩ := hi
      cases e
      have hx : inner = x := by
        have : Ser.null.add cf id' x = .ok x := by cases x <;> rfl
        simp only [sumSers, List.foldlM_cons, List.foldlM_nil, this] at hsum
        cases hsum
        rfl
      subst hx
      simp only [Fmt.goods, Bool.and_eq_true] at hg
      obtain ⟨s2, q2, h3, h4⟩ := is_lone env p f .default inner hg.1 hi1
      rw [hq] at h3
      cases h3
      refine ⟨s', q, hq, ?_⟩
      match vs, hl with
      | [_], hl => simp at hl
      | v :: w :: us, hl =>
        by_cases he : f.bare p = .indexError
        · have : surplus p [f] (v :: w :: us).length = none := by
            unfold surplus; rw [if_neg (by simp), if_neg hb]
            simp only [he, if_true]
          rw [this]
          refine ⟨K, fun n hn => ?_⟩
          rw [h4.same he n v (w :: us)]
          have : Fmt.puts env.plat .default W p 0 [f] (v :: w :: us) = Fmt.puts env.plat .default W p 0 [f] [v] :=
            puts_more (vs := [v]) (us := w :: us) rfl
          rw [this]
          exact hK n hn
        · have : surplus p [f] (v :: w :: us).length = some (f.bare p) := by
            unfold surplus; rw [if_neg (by simp), if_neg hb]
            simp only [he, if_false]
          rw [this]
          exact h4.other he v w us
    | f :: g :: fs, hb, hi, hall, hg =>
      have : surplus p (f :: g :: fs) vs.length = none := by unfold surplus; rw [if_neg (by omega), if_neg hb]
      rw [this]
      have hc : ∃ id xs, inner = .compound id xs := by
        rcases hst.flat.notSpecial with hs | h
        · exfalso
          rcases parts_simple hs with ⟨hp, rfl⟩ | hps
          · have := merge_numValues hm
            rw [allPut_num hall, hp] at this
            simp at this
          · rcases isStruct_dec inner with ⟨st, rfl⟩ | hns
            · refine hb ((isL_structs hi).1 (merge_back hm hnn fun y hy => ?_))
              rw [hps] at hy
              exact ⟨st, by simpa using hy⟩
            · have := merge_lone hm hps hns hnn
              rw [this] at hlen
              simp at hlen
        · exact h
      obtain ⟨i, xs, rfl⟩ := hc
      have hnum : (xs.map Ser.numValues).sum = (f :: g :: fs).length := by
        rw [← allPut_num hall, merge_numValues hm]; rfl
      obtain ⟨s2, q2, h3, h4⟩ := compound_more (env := env) (p := p) (id := i) (xs := xs) (vs := vs.take (f :: g :: fs).length) (us := vs.drop (f :: g :: fs).length)
        (fun s hs s' q hsq => by
          rcases merge_mem hm s hs with h1 | ⟨st, rfl⟩
          · exact allPut_one hall s h1 s' q hsq
          · cases hsq; rfl) (by rw [hnum, htl]; exact Nat.le_refl _)
      rw [hq] at h3
      cases h3
      refine ⟨s', q, hq, K, fun n hn => ?_⟩
      rw [hsplit, h4 n, puts_more htl]
      exact hK n hn

mutual
theorem is_puts (hW : ObjPuts env W) : ∀ (f : Fmt) (bo : ByteOrder) (s : Ser), f.good .default = true → f.Is cf bo s →
    Puts1 env s (fun o v => f.put env.plat bo W o v)
  | .int sg w, bo, s, _, h => basic_puts (f := .int sg w) rfl h
  | .bool, bo, s, _, h => basic_puts (f := .bool) rfl h
  | .half, bo, s, _, h => basic_puts (f := .half) rfl h
  | .single, bo, s, _, h => basic_puts (f := .single) rfl h
  | .double, bo, s, _, h => basic_puts (f := .double) rfl h
  | .chars k, bo, s, _, h => basic_puts (f := .chars k) rfl h
  | .pascal k, bo, s, _, h => basic_puts (f := .pascal k) rfl h
  | .via i f nm own make, bo, s, hg, h => by
    have hd : f.direct = true := by
      simp only [Fmt.good, Bool.and_eq_true] at hg
      exact hg.1
    refine basic_puts (f := .via i f nm own make) ?_ h
    simp only [Fmt.basic]
    cases f <;> first | rfl | cases hd
  | .net, bo, s, _, h => by
    obtain ⟨id, rfl⟩ := h
    exact .leaf1 rfl rfl rfl fun p v n => net_put
  | .counted w, bo, s, _, h => by
    obtain ⟨id, rfl⟩ := h
    exact .leaf1 rfl rfl rfl fun p v n => dynChar_put
  | .until t, bo, s, _, h => by
    obtain ⟨id, rfl⟩ := h
    exact .leaf1 rfl rfl rfl fun p v n => term_put
  | .rest, bo, s, _, h => by
    obtain ⟨id, rfl⟩ := h
    exact .leaf1 rfl rfl rfl fun p v n => consuming_put
  | .text f en de, bo, s, hg, h => by
    obtain ⟨y, rfl, h⟩ := h
    simp only [Fmt.good, Bool.and_eq_true, decide_eq_true_eq] at hg
    obtain ⟨⟨_, hbr⟩, hg⟩ := hg
    have ih := is_puts hW f .default y hg h
    have hk := plain_overrides (bracket_plain hbr) h
    have iw := ih.same hk
    refine .leaf rfl (iw ⟨0, false, []⟩).sized rfl fun p v => ?_
    simp only [Fmt.put]
    cases hd : en v with
    | error e =>
      refine ⟨1, fun n hn => ?_⟩
      obtain ⟨m, rfl⟩ : ∃ m, n = m + 1 := ⟨n - 1, by omega⟩
      simp only [enc, first, bind, Except.bind, hd]
      exact .inr rfl
    | ok d =>
      obtain ⟨K, h1⟩ := (iw p).enc (.bytes d)
      refine ⟨K + 1, fun n hn => ?_⟩
      obtain ⟨m, rfl⟩ : ∃ m, n = m + 1 := ⟨n - 1, by omega⟩
      simp only [enc, first, bind, Except.bind, hd, Out.ofE]
      exact h1 m (by omega)
  | .fixed k item, bo, s, hg, h => by
    simp only [Fmt.good] at hg
    rcases h with ⟨st, ser, rfl, hb, hi, hm⟩ | ⟨id, y, rfl, hb, hi⟩
    · refine .leaf1 rfl rfl rfl fun p v n => ?_
      simp only [Fmt.put]
      cases hvs : elements v with
      | none =>
        simp only [enc, staticArrPrep, first, bind, Except.bind, (elements_none hvs).2]
        exact .inr rfl
      | some vs =>
        simp only [enc, staticArrPrep, first, elements_len hvs, bind, Except.bind, hb, true_and]
        by_cases hl : vs.length = k
        · subst hl
          simp only [ne_eq, not_true_eq_false, if_false, elements_eq.1 hvs, if_true]
          obtain ⟨t, h1, h2⟩ := is_basic_toks hb hi
          rw [mul_pack_each h1.toks h2 h1.single hm]
          have : (putAll (fun v => item.put env.plat bo W p v) vs >>= fun b => Parsed.ok b) = .ofE (packEach env.plat st vs) := by
            rw [each_put (fun v => basic_put hi)]
            cases packEach env.plat st vs <;> rfl
          show Comes _ (putAll (fun v => item.put env.plat bo W p v) vs >>= fun b => Parsed.ok b)
          rw [this]
          exact .leaf
        · rw [if_pos hl, if_pos (by omega)]
          exact .inr rfl
    · have ih := is_puts hW item bo y hg hi
      refine .kept rfl rfl (fun p => rfl) fun p v => ?_
      obtain ⟨y', qy, hpy, iy⟩ := ih.enc p
      simp only [Fmt.put]
      cases hvs : elements v with
      | none =>
        refine ⟨1, fun n hn => ?_⟩
        obtain ⟨m, rfl⟩ : ∃ m, n = m + 1 := ⟨n - 1, by omega⟩
        simp only [enc, hpy, Out.ofE, Out.ok_bind, first, (elements_none hvs).1]
        exact .inr rfl
      | some vs =>
        obtain ⟨K, hK⟩ := items_put iy vs
        refine ⟨K + 1, fun n hn => ?_⟩
        obtain ⟨m, rfl⟩ : ∃ m, n = m + 1 := ⟨n - 1, by omega⟩
        simp only [enc, hpy, Out.ofE, Out.ok_bind, first, elements_eq.1 hvs, hb, Option.isSome_none, Bool.false_eq_true, false_and, if_false]
        refine (hK m (by omega)).bind fun b t _ => ?_
        simp only [headerPackValues, hdrNum, Option.elim, Int.natCast_nonneg, if_true]
        by_cases hl : vs.length = k
        · subst hl
          simp only [ne_eq, not_true_eq_false, if_false, Out.ok_bind, packOpt, if_true]
          exact .ok
        · rw [if_pos (by omega), if_neg hl]
          exact .inr rfl
  | .list w item, bo, s, hg, h => by
    simp only [Fmt.good, Bool.and_eq_true] at hg
    obtain ⟨id, y, rfl, hi⟩ := h
    have ih := is_puts hW item bo y hg.1 hi
    refine .kept rfl rfl (fun p => rfl) fun p v => ?_
    obtain ⟨y', qy, hpy, iy⟩ := ih.enc p
    simp only [Fmt.put]
    cases hvs : elements v with
    | none =>
      refine ⟨1, fun n hn => ?_⟩
      obtain ⟨m, rfl⟩ : ∃ m, n = m + 1 := ⟨n - 1, by omega⟩
      simp only [enc, hpy, Out.ofE, Out.ok_bind, first, (elements_none hvs).1]
      exact .inr rfl
    | some vs =>
      obtain ⟨K, hK⟩ := items_put iy vs
      refine ⟨K + 1, fun n hn => ?_⟩
      obtain ⟨m, rfl⟩ : ∃ m, n = m + 1 := ⟨n - 1, by omega⟩
      have n1 : (intSer bo (w.code false)).numValues = 1 := by cases w <;> cases bo <;> rfl
      simp only [enc, hpy, Out.ofE, Out.ok_bind, first, elements_eq.1 hvs]
      refine (hK m (by omega)).bind fun b t _ => ?_
      simp only [headerPackValues, hdrNum, Option.elim, n1]
      simp only [show ¬ (0 : Int) ≤ -1 by decide, if_false, show ¬ (1 : Nat) = 2 by decide, Out.ok_bind, packOpt]
      rw [count_put]
      cases (intSer bo (w.code false)).pack env.plat [.int vs.length] with
      | ok x => exact .ok
      | error e => exact .inr rfl
  | .sized w w2 item, bo, s, hg, h => by
    simp only [Fmt.good, Bool.and_eq_true] at hg
    obtain ⟨id, y, hd, rfl, ha, hi⟩ := h
    have ih := is_puts hW item bo y hg.1 hi
    obtain ⟨n2, hp⟩ := sized_pack ha
    refine .kept rfl rfl (fun p => rfl) fun p v => ?_
    obtain ⟨y', qy, hpy, iy⟩ := ih.enc p
    simp only [Fmt.put]
    cases hvs : elements v with
    | none =>
      refine ⟨1, fun n hn => ?_⟩
      obtain ⟨m, rfl⟩ : ∃ m, n = m + 1 := ⟨n - 1, by omega⟩
      simp only [enc, hpy, Out.ofE, Out.ok_bind, first, (elements_none hvs).1]
      exact .inr rfl
    | some vs =>
      obtain ⟨K, hK⟩ := items_put iy vs
      refine ⟨K + 1, fun n hn => ?_⟩
      obtain ⟨m, rfl⟩ : ∃ m, n = m + 1 := ⟨n - 1, by omega⟩
      simp only [enc, hpy, Out.ofE, Out.ok_bind, first, elements_eq.1 hvs]
      refine (hK m (by omega)).bind fun b t _ => ?_
      simp only [headerPackValues, hdrNum, Option.elim, n2]
      simp only [show ¬ (0 : Int) ≤ -1 by decide, if_false, if_true, Out.ok_bind, packOpt]
      rw [sized_put ha]
      cases hd.pack env.plat [.int vs.length, .int b.length] with
      | ok x => exact .ok
      | error e => exact .inr rfl
  | .tup items, bo, s, hg, h => by
    simp only [Fmt.good, Bool.and_eq_true, decide_eq_true_eq, Bool.not_eq_true'] at hg
    obtain ⟨⟨⟨_, hg⟩, hemp⟩, hme⟩ := hg
    obtain ⟨id, id', inner, ss, rfl, hi, hsum⟩ := h
    have hall := isL_puts hW items .default ss hg hi
    have hf : ∀ x ∈ ss, FieldOf .default x := fun x hx => (isL_fieldOf hi x hx).1
    have hnn : ∀ x ∈ ss, x ≠ .null := fun x hx => (isL_fieldOf hi x hx).2
    obtain ⟨hm, hst⟩ := fields_sumIn hf hsum
    have hsz : inner.sized = true := tup_sized env hg hme hi hsum
    refine .kept rfl hsz (fun p => rfl) fun p v => ?_
    simp only [Fmt.put]
    cases hvs : elements v with
    | none =>
      refine ⟨1, fun n hn => ?_⟩
      obtain ⟨m, rfl⟩ : ∃ m, n = m + 1 := ⟨n - 1, by omega⟩
      simp only [enc]
      obtain ⟨s', q', hq⟩ := inner_pre (p := p) hm hnn hst.flat.notSpecial (allPut_pre hall)
      simp only [hq, Out.ofE, Out.ok_bind, (elements_none hvs).1]
      exact .inr rfl
    | some vs =>
      simp only
      have hne : items ≠ [] := by rintro rfl; cases hemp
      have key : ∃ s' q, pre inner p = .ok (s', q) ∧ ∃ K, ∀ n ≥ K, Comes (enc env n s' q vs) (match surplus p items vs.length with
          | some e => .err e
          | none => Fmt.puts env.plat .default W p 0 items vs) := by
        have hex : ∀ us, us.length = items.length → ∃ s' q, pre inner p = .ok (s', q) ∧
            ∃ K, ∀ n ≥ K, Comes (enc env n s' q us) (Fmt.puts env.plat .default W p 0 items us) := by
          intro us hl
          obtain ⟨hl', hgo⟩ := allPut_loop p (k := 0) hi hall hl
          obtain ⟨K, hK⟩ := whole_put hm (fields_apart hf hsum) hnn hst.flat.notSpecial hl' hgo
          obtain ⟨s', q', hq⟩ := inner_pre (p := p) hm hnn hst.flat.notSpecial (allPut_pre hall)
          refine ⟨s', q', hq, K, fun n hn => ?_⟩
          have h1 := hK n hn
          rw [hq] at h1
          exact h1
        rcases Nat.lt_trichotomy vs.length items.length with hl | hl | hl
        · rw [show surplus p items vs.length = none by unfold surplus; rw [if_pos (by omega)]]
          have hfew := allPut_few p (k := 0) hg hi hall hl
          obtain ⟨s', q', hq⟩ := inner_pre (p := p) hm hnn hst.flat.notSpecial (allPut_pre hall)
          refine ⟨s', q', hq, ?_⟩
          simp only
          cases hr : Fmt.puts env.plat .default W p 0 items vs with
          | ok b => rw [hr] at hfew; exact hfew.elim
          | err e =>
            rw [hr] at hfew
            obtain ⟨K, hfew⟩ := hfew
            rcases whole_few hm (fields_apart hf hsum) hnn hst.flat.notSpecial (by rw [allPut_num hall]; exact hl) hfew with h1 | ⟨s2, q2, h1, h2⟩
            · rw [hq] at h1; cases h1
            · rw [hq] at h1; cases h1
              exact ⟨K + 2, h2⟩
          | deep => exact ⟨0, fun _ _ => trivial⟩
          | odd => exact ⟨0, fun _ _ => trivial⟩
        · rw [show surplus p items vs.length = none by unfold surplus; rw [if_pos (by omega)]]
          exact hex vs hl
        · exact tup_more hg hne hi hall hsum hl hex
      obtain ⟨s', q, hq, K, hK⟩ := key
      refine ⟨K + 1, fun n hn => ?_⟩
      obtain ⟨m, rfl⟩ : ∃ m, n = m + 1 := ⟨n - 1, by omega⟩
      have h1 := hK m (by omega)
      simp only [enc, elements_eq.1 hvs, hq, Out.ofE, Out.ok_bind]
      have : ∀ r : Parsed Bytes, (r >>= fun b => .ok b) = r := fun r => by cases r <;> rfl
      have lift : ∀ (x : Out Enc) (r : Parsed Bytes), Comes x r → Comes (x >>= fun r => .ok ⟨r.bytes, touch inner ++ r.touched⟩) r := by
        intro x r h
        rw [← this r]
        exact h.bind fun b t _ => .ok
      exact lift _ _ h1
  | .obj c, bo, s, _, h => by
    obtain ⟨id, rfl⟩ := h
    refine .leaf rfl rfl rfl fun p v => ?_
    obtain ⟨K, hK⟩ := hW c v
    exact ⟨K, fun n hn => hK n hn id c⟩
  | .me, bo, s, _, h => by
    obtain ⟨id, rfl⟩ := h
    refine ⟨rfl, fun p => ⟨.structured id p.cls, none, rfl, rfl, rfl, fun v => ?_⟩⟩
    obtain ⟨K, hK⟩ := hW p.cls v
    exact ⟨K, fun n hn => hK n hn id p.cls⟩
  | .choice cid args ahead decider keys opts other, bo, s, hg, h => by
    simp only [Fmt.good, Bool.and_eq_true, decide_eq_true_eq] at hg
    obtain ⟨⟨⟨⟨_, hg1⟩, hg2⟩, hkl⟩, _⟩ := hg
    obtain ⟨os, ds, h1, h2, h3⟩ := h
    have w1 := isL_puts hW opts .default os hg1 h1
    have w2 := isL_puts hW other .default ds hg2 h2
    have key : ∀ p v, ∃ K, ∀ n ≥ K, Comes (do
          let r ← .ofE (decider p)
          encUnion (enc env n) keys os (ds.headD .null) p r [v])
        ((Fmt.choice cid args ahead decider keys opts other).put env.plat bo W p v) := by
      intro p v
      simp only [Fmt.put]
      cases decider p with
      | error e => exact ⟨0, fun n _ => .inr rfl⟩
      | ok r =>
        simp only [Out.ofE, Out.ok_bind]
        by_cases hh : r.hashable = true
        · simp only [hh, not_true_eq_false, if_false]
          cases hk : keyAt keys r with
          | some k =>
            have hlt : k < opts.length := by
              simp only [keyAt, hh, if_true] at hk
              have := List.findIdx?_eq_some_iff_findIdx_eq.1 hk
              omega
            obtain ⟨x, f, h4, h5, h6⟩ := allPut_at (p := p) w1 hlt
            simp only [h6]
            exact union_put (unionPick_key hk h4) h5
          | none =>
            match other, ds, h2, w2 with
            | [], _, h2, _ =>
              cases h2
              refine ⟨0, fun n _ => .inr ?_⟩
              have hl : lookupOpt keys os r = none := by
                simp only [lookupOpt, Option.map_eq_none_iff, List.find?_eq_none]
                simp only [keyAt, hh, if_true, List.findIdx?_eq_none_iff] at hk
                intro x hx
                rw [hk x.1 (List.of_mem_zip hx).1]
                decide
              simp only [encUnion, unionPick, hh, hl, List.headD, not_true_eq_false, if_false]
              rfl
            | g :: gs, _, _, w2 =>
              obtain ⟨x, f, h4, h5, h6⟩ := allPut_at (p := p) (k := 0) w2 (by simp)
              obtain ⟨y, ys, rfl, _, _⟩ := w2
              have h4 : y = x := by simpa using h4
              subst h4
              simp only [h6]
              have hx : y ≠ .null := by rintro rfl; exact absurd h5.one (by decide)
              exact union_put (unionPick_other hk hh hx) h5
        · rw [if_pos hh]
          refine ⟨0, fun n _ => .inr ?_⟩
          simp only [encUnion, unionPick, hh]
          rfl
    rcases h3 with ⟨_, rfl⟩ | ⟨_, st, _, _, rfl⟩
    all_goals
      refine .kept rfl rfl (fun p => rfl) fun p v => ?_
      obtain ⟨K, hK⟩ := key p v
      refine ⟨K + 1, fun n hn => ?_⟩
      obtain ⟨m, rfl⟩ : ∃ m, n = m + 1 := ⟨n - 1, by omega⟩
      exact hK m (by omega)
theorem isL_puts (hW : ObjPuts env W) : ∀ (fs : List Fmt) (bo : ByteOrder) (ss : List Ser), Fmt.goods .default fs = true → Fmt.IsL cf bo fs ss →
    AllPut env bo W fs ss
  | [], bo, ss, _, h => h
  | f :: fs, bo, ss, hg, h => by
    obtain ⟨x, xs, rfl, h1, h2⟩ := h
    simp only [Fmt.goods, Bool.and_eq_true] at hg
    exact ⟨x, xs, rfl, is_puts hW f bo x hg.1 h1, isL_puts hW fs bo xs hg.2 h2⟩
end

end Verif
