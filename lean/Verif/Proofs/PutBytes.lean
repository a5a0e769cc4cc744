import Verif.Proofs.PutRuns
/-
Lemmas on what packing comes to: the basic types and strings.
-/
namespace Verif
open Spec Sem

variable {bo : ByteOrder} {cf : ClassId → Bool} {env : Env} {W : ClassId → Val → Parsed Bytes}

theorem elements_none {v : Val} (h : elements v = none) : pyIter v = .error .typeError ∧ pyLen v = .error .typeError := by
  unfold elements at h
  unfold pyIter pyLen
  rw [meant_eq] at h
  cases hs : v.strip <;> rw [hs] at h <;> first | exact ⟨rfl, rfl⟩ | cases h

theorem elements_bytes {v : Val} {b : Bytes} {vs : List Val} (h : v.asBytes = some b) (he : elements v = some vs) : vs.length = b.length := by
  have h1 := elements_len he
  rw [pyLen_bytes h] at h1
  exact (Except.ok.inj h1).symm

/-- A basic type packs what its format says, or raises its exception. -/
theorem direct_put {f : Fmt} {st : StructSer} {v : Val} {P : Platform} {o : PObj} (hd : f.direct = true) (h : f.Is cf bo (.struct st)) :
    f.put P bo W o v = .ofE (st.pack P [v]) := by
  cases f <;> (try cases hd; done) <;> simp only [Fmt.Is] at h <;> obtain ⟨st', e, h⟩ := h <;> cases e <;> have ht := h.toks <;> have ho := h.order <;>
    simp only [Fmt.put]
  case int s w =>
    rw [number_eq]
    cases hp : st.pack P [v] with
    | ok b =>
      obtain ⟨i, h1, h2, rfl⟩ := (int_pack ht ho).1 hp
      simp only [h1, h2, if_true, Parsed.ofE]
    | error e =>
      have he : e = .structError := by
        rw [single_pack ht rfl] at hp
        simp only [packOne] at hp
        split at hp
        · simp only [encodeInt_eq] at hp
          split at hp <;> cases hp
          rfl
        · cases hp; rfl
      subst he
      cases hi : v.asIndex with
      | none => rfl
      | some i =>
        simp only
        split
        · rename_i hr
          have := (int_pack (P := P) ht ho).2 ⟨i, hi, hr, rfl⟩
          rw [hp] at this
          cases this
        · rfl
  case bool =>
    rw [single_pack ht rfl, ho]
    simp only [packOne, holds_eq, Parsed.ofE]
  case half =>
    rw [single_pack ht rfl, ho, real_eq]
    simp only [packOne, excess, number_eq, tooLarge]
    cases v.asFloat P with
    | none => rfl
    | some f => cases hp : P.packF16 f <;> simp [orderBytes_little, hp, Parsed.ofE]
  case single =>
    rw [single_pack ht rfl, ho, real_eq]
    simp only [packOne, excess, number_eq, tooLarge]
    cases v.asFloat P with
    | none => rfl
    | some f => cases hp : P.packF32 bo.isNative f <;> simp [orderBytes_little, hp, Parsed.ofE]
  case double =>
    rw [single_pack ht rfl, ho, real_eq]
    simp only [packOne]
    cases v.asFloat P with
    | none => rfl
    | some f => simp [orderBytes_little, Parsed.ofE]
  case chars =>
    rw [str_pack ht, octets_eq]
    cases v.asBytes <;> rfl
  case pascal =>
    rw [pas_pack ht, octets_eq]
    cases v.asBytes <;> rfl

theorem basic_put {f : Fmt} {st : StructSer} {v : Val} {P : Platform} {o : PObj} (h : f.Is cf bo (.struct st)) :
    f.put P bo W o v = .ofE (st.pack P [v]) := by
  by_cases hd : f.direct = true
  · exact direct_put hd h
  · have hb := is_struct h
    cases f <;> try exact absurd hb hd
    obtain ⟨st', e, h1, h2⟩ := h
    cases e
    simp only [Fmt.put]
    exact direct_put (st := st') h1 h2

/-- The exception of one item does not depend on where it is. -/
theorem packAt_error {t : Tok} {st : StructSer} {P : Platform} {vs : List Val} {e : Err} {k : Nat} (h : st.toks = [t]) (hp : st.pack P vs = .error e) :
    st.packAt P k vs = .error e := by
  unfold StructSer.pack structPack at hp
  unfold StructSer.packAt StructSer.numValues
  split at hp
  · rename_i hl
    rw [if_pos hl]
    rw [h] at hp ⊢
    simp only [packToks] at hp ⊢
    cases hq : packTok P st.byteOrder t vs with
    | ok r => rw [hq] at hp; cases hp
    | error e' => rw [hq] at hp; cases hp; rfl
  · rename_i hl
    rw [if_neg hl]
    exact hp

/-! ### Strings -/

theorem packMany_int_error {P : Platform} {s : Bool} {w : Width} : ∀ {k : Nat} {vs : List Val} {e : Err}, packMany P bo (.int s w) k vs = .error e → e = .structError
  | 0, vs, e, h => by cases h
  | k + 1, [], e, h => by cases h; rfl
  | k + 1, v :: vs, e, h => by
    simp only [packMany] at h
    cases hq : packOne P bo (.int s w) v with
    | error e' =>
      rw [hq] at h
      cases h
      simp only [packOne] at hq
      split at hq
      · simp only [encodeInt_eq] at hq
        split at hq <;> cases hq
        rfl
      · cases hq; rfl
    | ok b =>
      rw [hq] at h
      simp only [bind, Except.bind] at h
      cases hr : packMany P bo (.int s w) k vs with
      | error e' => rw [hr] at h; cases h; exact packMany_int_error hr
      | ok r => rw [hr] at h; cases h

/-- Numbers and strings raise `struct.error` only. -/
theorem toks_error {P : Platform} : ∀ {ts : List Tok} {o : Nat} {vs : List Val} {e : Err}, (∀ t ∈ ts, t.c = .str ∨ ∃ s w, t.c = .int s w) →
    packToks P bo ts o vs = .error e → e = .structError
  | [], o, vs, e, _, h => by cases h
  | t :: ts, o, vs, e, ht, h => by
    simp only [packToks] at h
    cases hq : packTok P bo t vs with
    | error e' =>
      rw [hq] at h
      cases h
      unfold packTok at hq
      rcases ht t (by simp) with hc | ⟨s, w, hc⟩
      · rw [hc] at hq
        simp only at hq
        split at hq
        · cases hq; rfl
        · split at hq <;> cases hq; rfl
      · rw [hc] at hq
        exact packMany_int_error hq
    | ok r =>
      rw [hq] at h
      simp only [bind, Except.bind] at h
      cases hr : packToks P bo ts (o + padLen (t.c.align bo.isNative) o + r.1.length) r.2 with
      | error e' => rw [hr] at h; cases h; exact toks_error (fun t ht' => ht t (by simp [ht'])) hr
      | ok r => rw [hr] at h; cases h

theorem pack_error {st : StructSer} {P : Platform} {vs : List Val} {e : Err} {ts : List Tok} (ht : ToksAgree st.toks ts)
    (hs : ∀ t ∈ ts, t.c = .str ∨ ∃ s w, t.c = .int s w) (h : st.pack P vs = .error e) : e = .structError := by
  unfold StructSer.pack structPack at h
  split at h
  · rw [ht.pack] at h; exact toks_error hs h
  · cases h; rfl

theorem count_error {P : Platform} {w : Size} {vs : List Val} {e : Err} (h : (intSer bo (w.code false)).pack P vs = .error e) : e = .structError := by
  have ht : (intSer bo (w.code false)).toks = [⟨1, .int false w.wd⟩] := by cases w <;> cases bo <;> rfl
  refine pack_error (ts := [⟨1, .int false w.wd⟩]) (by rw [ht]; exact ToksAgree.refl _) (fun t h => ?_) h
  simp only [List.mem_singleton] at h
  subst h
  exact .inr ⟨_, _, rfl⟩

/-- A count in front of some bytes. -/
theorem count_put {P : Platform} {w : Size} {k : Nat} (b : Bytes) :
    fits (prefixed P bo w k b) = (Parsed.ofE ((intSer bo (w.code false)).pack P [.int k]) >>= fun h => .ok (h ++ b)) := by
  cases h : (intSer bo (w.code false)).pack P [.int k] with
  | ok x => rw [count_inv_pack h]; rfl
  | error e =>
    have := count_error h
    subst this
    cases hp : prefixed P bo w k b with
    | none => rfl
    | some d =>
      obtain ⟨h1, rfl⟩ := prefixed_some hp
      rw [count_pack h1] at h
      cases h

/-- Packing behind a length: what has no length, what is empty, and what is no byte string. -/
theorem counted_error {P : Platform} {st s : StructSer} {ch : Option StructSer} (hc : st.isCount = true) {v : Val} {k : Nat} {c : Int} {e : Err}
    (hb : st.byteOrder = .default) (h1 : singleChar.matmul k = .ok ch) (h2 : st.addN ch = .ok s) (h3 : s.pack P [.int c, v] = .error e) :
    e = .structError := by
  obtain ⟨k1, w, k2⟩ := isCount_toks hc
  by_cases hk0 : k = 0
  · subst hk0
    cases h1
    cases h2
    exact pack_error (ts := st.toks) (ToksAgree.refl _) (by rw [k2]; intro t ht; simp only [List.mem_singleton] at ht; subst ht; exact .inr ⟨_, _, rfl⟩) h3
  · obtain ⟨cs, m1, m2, m3, m4⟩ := singleChar_matmul k (by omega)
    rw [m1] at h1
    cases h1
    obtain ⟨e1, e2⟩ := add_toks (by simp [k2]) (by simp [m3]) (hb.trans m2.symm) (.inr (.inl (by simp [k2, m3, lastCode, firstCode]))) h2
    refine pack_error e2 (fun t ht => ?_) h3
    rw [k2, m3] at ht
    simp only [List.cons_append, List.nil_append, List.mem_cons, List.not_mem_nil, or_false] at ht
    rcases ht with rfl | rfl
    · exact .inr ⟨_, _, rfl⟩
    · exact .inl rfl

theorem addN_ok {st : StructSer} (hc : st.isCount = true) (hb : st.byteOrder = .default) (k : Nat) :
    ∃ ch s, singleChar.matmul k = .ok ch ∧ st.addN ch = .ok s := by
  by_cases hk0 : k = 0
  · subst hk0
    exact ⟨none, st, rfl, rfl⟩
  · have := countChars_pack hc hb (b := List.replicate k 0) (by simp [hk0])
    rw [List.length_replicate] at this
    obtain ⟨ch, s, h1, h2, _⟩ := this
    exact ⟨ch, s, h1, h2⟩

theorem dynChar_put {n : Nat} {id : SerId} {w : Size} {v : Val} {o : PObj} :
    Comes (enc env (n + 1) (.dynChar id (intSer bo (w.code false))) none [v]) ((Fmt.counted w).put env.plat bo W o v) := by
  have hc : (intSer bo (w.code false)).isCount = true := intSer_isCount (w.mem false) bo
  have ho : (intSer bo (w.code false)).byteOrder = bo := by cases w <;> cases bo <;> rfl
  simp only [Fmt.put]
  cases he : elements v with
  | none =>
    simp only [enc, dynCharPrep, first, bind, Except.bind, (elements_none he).2]
    exact .inr rfl
  | some vs =>
    have hlen := elements_len he
    simp only
    by_cases hv : vs = []
    · rw [if_pos hv]
      subst hv
      simp only [List.length_nil] at hlen
      simp only [enc, dynCharPrep, first, bind, Except.bind, hlen]
      obtain ⟨k1, wd, k2⟩ := isCount_toks hc
      refine .inr ?_
      show encLeaf ((intSer bo (w.code false)).pack env.plat [.int 0, v]) = _
      simp [StructSer.pack, structPack, k2, numVals, Tok.numVals, encLeaf]
    · rw [if_neg hv]
      have hk : 0 < vs.length := List.length_pos_iff.2 hv
      by_cases hb : bo = .default
      · subst hb
        rw [if_neg (by simp)]
        obtain ⟨ch, s, h1, h2⟩ := addN_ok hc ho vs.length
        have key : enc env (n + 1) (.dynChar id (intSer .default (w.code false))) none [v] = encLeaf (s.pack env.plat [.int vs.length, v]) := by
          simp only [enc, dynCharPrep, first, bind, Except.bind, hlen, h1, h2]
        rw [octets_eq]
        cases hp : s.pack env.plat [.int vs.length, v] with
        | ok b =>
          obtain ⟨_, d, hd, hne⟩ := count_inv hc hlen h1 h2 hp
          have e := dynChar_enc (env := env) (n := n) (id := id) hc ho hd hne
          have hl := elements_bytes hd he
          rw [hd, e]
          show Comes _ (fits (prefixed env.plat .default w d.length d))
          rw [count_put]
          cases (intSer .default (w.code false)).pack env.plat [.int d.length] with
          | ok x => exact .inr ⟨[], rfl⟩
          | error e' => exact .inr rfl
        | error e =>
          rw [key, hp]
          have := counted_error hc ho h1 h2 hp
          subst this
          cases hd : v.asBytes with
          | none => exact .inr rfl
          | some d =>
            have hl := elements_bytes hd he
            have e := dynChar_enc (env := env) (n := n) (id := id) hc ho hd (by rintro rfl; rw [hl] at hk; exact absurd hk (by decide))
            rw [key, hp] at e
            show Comes _ (fits (prefixed env.plat .default w d.length d))
            rw [count_put]
            cases hx : (intSer .default (w.code false)).pack env.plat [.int d.length] with
            | ok x => rw [hx] at e; cases e
            | error e' => rw [count_error hx]; exact .inr rfl
      · rw [if_pos hb]
        obtain ⟨cs, m1, m2, m3, m4⟩ := singleChar_matmul vs.length hk
        obtain ⟨k1, wd, k2⟩ := isCount_toks hc
        simp only [enc, dynCharPrep, first, bind, Except.bind, hlen, m1, StructSer.addN, StructSer.add, k1, m4, m2, ho, hb, if_false]
        exact .inr rfl

theorem netPrefix_long {P : Platform} {k : Nat} (h : k ≤ 0x7FFF) : netPrefix P k = some (netHeader P k) := netPrefix_eq.2 ⟨h, rfl⟩

theorem net_put {n : Nat} {id : SerId} {v : Val} {o : PObj} :
    Comes (enc env (n + 1) (.net id) none [v]) (Fmt.net.put env.plat bo W o v) := by
  simp only [Fmt.put]
  cases he : elements v with
  | none =>
    simp only [enc, netPrep, first, bind, Except.bind, (elements_none he).2]
    exact .inr rfl
  | some vs =>
    have hlen := elements_len he
    simp only
    by_cases hl : 0x7FFF < vs.length
    · rw [if_pos hl]
      simp only [enc, netPrep, first, bind, Except.bind, hlen]
      rw [if_neg (by omega), if_pos hl]
      exact .inr rfl
    · rw [if_neg hl]
      cases hd : v.asBytes with
      | some d =>
        have hld := elements_bytes hd he
        by_cases hv : vs = []
        · rw [if_pos hv]
          subst hv
          simp only [List.length_nil] at hlen
          simp only [enc, netPrep, first, bind, Except.bind, hlen]
          exact .inr rfl
        · rw [if_neg hv, octets_eq, hd]
          show Comes _ (fits ((netPrefix env.plat d.length).map (· ++ d)))
          rw [netPrefix_long (by omega), net_enc hd (by rintro rfl; exact hv (List.length_eq_zero_iff.1 hld)) (by omega), netHeader_pack _ _ (by omega)]
          exact .inr ⟨[], rfl⟩
      | none =>
        suffices hf : Fails (enc env (n + 1) (.net id) none [v]) .structError by
          rw [octets_eq, hd]
          split <;> exact hf
        simp only [enc, netPrep, first, bind, Except.bind, hlen]
        by_cases hs : vs.length < 128
        · rw [if_pos hs]
          obtain ⟨ch, s, h1, h2⟩ := addN_ok shortLen_count (by decide) vs.length
          simp only [h1, h2]
          cases hp : s.pack env.plat [.int vs.length, v] with
          | ok b =>
            obtain ⟨_, d, hd', _⟩ := count_inv shortLen_count hlen h1 h2 hp
            rw [hd] at hd'; cases hd'
          | error e => rw [counted_error shortLen_count (by decide) h1 h2 hp]; exact .inr rfl
        · rw [if_neg hs, if_neg hl]
          obtain ⟨ch, s, h1, h2⟩ := addN_ok longLen_count (by decide) vs.length
          simp only [h1, h2]
          cases hp : s.pack env.plat [.int (netMark vs.length), v] with
          | ok b =>
            obtain ⟨_, d, hd', _⟩ := count_inv longLen_count hlen h1 h2 hp
            rw [hd] at hd'; cases hd'
          | error e => rw [counted_error longLen_count (by decide) h1 h2 hp]; exact .inr rfl

theorem term_put {n : Nat} {id : SerId} {t : Byte} {v : Val} {o : PObj} :
    Comes (enc env (n + 1) (.terminated id t) none [v]) ((Fmt.until t).put env.plat bo W o v) := by
  simp only [Fmt.put]
  rw [meant_eq]
  cases hs : v.strip
  case bytes b =>
    rw [term_enc (b := b) (by rw [Val.asBytes, hs])]
    exact .inr ⟨[], rfl⟩
  all_goals
    simp only [enc, termData, first, bind, Except.bind, hs]
    exact .inr rfl

theorem consuming_put {n : Nat} {id : SerId} {v : Val} {o : PObj} :
    Comes (enc env (n + 1) (.consuming id) none [v]) (Fmt.rest.put env.plat bo W o v) := by
  simp only [Fmt.put, octets_eq, Val.asBytes, enc, consumeData, first, bind, Except.bind]
  cases hs : v.strip
  case bytes b => exact .inr ⟨[], rfl⟩
  all_goals exact .inr rfl

end Verif
