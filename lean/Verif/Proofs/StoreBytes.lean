import Verif.Spec.FormatStore
import Verif.Proofs.FormatClass
/-
Lemmas on what packing accepts: the basic types and strings.
-/
namespace Verif
open Spec Sem

variable {bo : ByteOrder} {cf : ClassId → Bool} {env : Env} {strict : Bool} {W : ClassId → Val → Option Bytes}

/-! ### Values -/

theorem meant_eq : ∀ v : Val, meant v = v.strip
  | .custom _ v => by rw [meant, Val.strip]; exact meant_eq v
  | .none | .int _ | .bool _ | .float _ | .bytes _ | .str _ | .list _ | .tup _ | .obj .. | .gen => rfl

theorem number_eq (v : Val) : number v = v.asIndex := by unfold number Val.asIndex; rw [meant_eq]; rfl
theorem real_eq (P : Platform) (v : Val) : real P v = v.asFloat P := by unfold real Val.asFloat; rw [meant_eq]; rfl
theorem octets_eq (v : Val) : octets v = v.asBytes := by unfold octets Val.asBytes; rw [meant_eq]; rfl

theorem holds_eq (v : Val) : holds v = v.truthy := by
  rw [← meant_truthy]
  unfold holds
  rw [meant_eq]
  have := strip_ne v
  cases h : v.strip <;> simp only [Val.truthy]
  case custom => exact absurd h (this _ _)
  case int i => by_cases h : i = 0 <;> simp [h]
  case float f => simp only [bne, decide_not, Bool.beq_eq_decide_eq]
  case bytes b => cases b <;> rfl
  case str b => cases b <;> rfl
where
  strip_ne : ∀ v : Val, ∀ n w, v.strip ≠ .custom n w
    | .custom _ v => strip_ne v
    | .none | .int _ | .bool _ | .float _ | .bytes _ | .str _ | .list _ | .tup _ | .obj .. | .gen => fun _ _ h => by cases h

theorem elements_eq {v : Val} {vs : List Val} : elements v = some vs ↔ pyIter v = .ok vs := by
  unfold elements pyIter
  rw [meant_eq]
  cases v.strip <;> simp

theorem elements_len {v : Val} {vs : List Val} (h : elements v = some vs) : pyLen v = .ok vs.length := by
  unfold elements at h
  unfold pyLen
  rw [meant_eq] at h
  cases hs : v.strip <;> rw [hs] at h <;> cases h <;> simp

theorem cut_eq (n : Nat) (b : Bytes) : cut n b = fitTo n b := rfl

theorem netPrefix_eq {P : Platform} {k : Nat} {b : Bytes} : netPrefix P k = some b ↔ k ≤ 0x7FFF ∧ netHeader P k = b := by
  unfold netPrefix netHeader
  by_cases h : k < 128
  · simp only [h, if_true, Option.some.injEq, iff_and_self]; omega
  · simp only [h, if_false]
    by_cases h2 : k < 0x8000
    · simp only [h2, if_true, Option.some.injEq, iff_and_self]; omega
    · simp only [h2, if_false, reduceCtorEq, false_iff, not_and]; omega

/-! ### Basic types -/

theorem int_pack {s : Bool} {w : Size} {st : StructSer} {P : Platform} {v : Val} {b : Bytes} (ht : st.toks = [⟨1, .int s w.wd⟩]) (ho : st.byteOrder = bo) :
    st.pack P [v] = .ok b ↔ ∃ i, v.asIndex = some i ∧ InRange s w.bytes i ∧ b = intBytes P bo w.bytes i := by
  rw [single_pack ht rfl, ho]
  simp only [packOne]
  have hw : w.wd.bytes bo.isNative = w.bytes := by cases w <;> cases bo <;> rfl
  rw [hw]
  cases v.asIndex with
  | none => simp
  | some i =>
    by_cases hi : InRange s w.bytes i
    · have := int_writes (P := P) ht ho hi
      rw [single_pack ht rfl, ho] at this
      simp only [packOne, Val.asIndex, Val.strip, hw] at this
      simp only [this, Except.ok.injEq, Option.some.injEq, exists_eq_left', hi, true_and]
      exact ⟨Eq.symm, Eq.symm⟩
    · simp only [encodeInt_eq, show ¬ intInRange s w.bytes i = true from by rw [intInRange_iff]; exact hi, Bool.false_eq_true, if_false]
      simp [hi]

/-- A basic type packs what its format says, whatever the value. -/
theorem direct_store {f : Fmt} {st : StructSer} {v : Val} {P : Platform} {b : Bytes} {o : PObj} (hd : f.direct = true) (h : f.Is cf bo (.struct st)) :
    st.pack P [v] = .ok b ↔ f.store strict P bo W o v = some b := by
  cases f <;> (try cases hd; done) <;> simp only [Fmt.Is] at h <;> obtain ⟨st', e, h⟩ := h <;> cases e <;> have ht := h.toks <;> have ho := h.order <;>
    simp only [Fmt.store]
  case int s w =>
    rw [int_pack ht ho, number_eq]
    cases v.asIndex with
    | none => simp
    | some i =>
      by_cases hi : InRange s w.bytes i
      · simp [hi, eq_comm]
      · simp [hi]
  case bool =>
    rw [single_pack ht rfl, ho]
    simp only [packOne, holds_eq, Except.ok.injEq, Option.some.injEq]
  case half =>
    rw [single_pack ht rfl, ho, real_eq]
    simp only [packOne]
    cases v.asFloat P with
    | none => simp
    | some f => cases hp : P.packF16 f <;> simp [orderBytes_little, hp]
  case single =>
    rw [single_pack ht rfl, ho, real_eq]
    simp only [packOne]
    cases v.asFloat P with
    | none => simp
    | some f => cases hp : P.packF32 bo.isNative f <;> simp [orderBytes_little, hp]
  case double =>
    rw [single_pack ht rfl, ho, real_eq]
    simp only [packOne]
    cases v.asFloat P with
    | none => simp
    | some f => simp [orderBytes_little]
  case chars =>
    rw [str_pack ht, octets_eq]
    cases v.asBytes <;> simp [cut_eq]
  case pascal =>
    rw [pas_pack ht, octets_eq]
    cases v.asBytes <;> simp [cut_eq]

theorem basic_store {f : Fmt} {st : StructSer} {v : Val} {P : Platform} {b : Bytes} {o : PObj} (h : f.Is cf bo (.struct st)) :
    st.pack P [v] = .ok b ↔ f.store strict P bo W o v = some b := by
  by_cases hd : f.direct = true
  · exact direct_store hd h
  · have hb := is_struct h
    cases f <;> try exact absurd hb hd
    obtain ⟨st', e, h1, h2⟩ := h
    cases e
    simp only [Fmt.store]
    exact direct_store (st := st') h1 h2

/-! ### Strings -/

/-- Only non-empty byte strings can be packed behind their length, and only without byte order. -/
theorem count_inv {P : Platform} {st s : StructSer} {ch : Option StructSer} (hc : st.isCount = true) {v : Val} {k : Nat} {c : Int} {b : Bytes}
    (hk : pyLen v = .ok k) (h1 : singleChar.matmul k = .ok ch) (h2 : st.addN ch = .ok s) (h3 : s.pack P [.int c, v] = .ok b) :
    st.byteOrder = .default ∧ ∃ d, v.asBytes = some d ∧ d ≠ [] := by
  obtain ⟨k1, w, k2⟩ := isCount_toks hc
  have hn : numVals st.toks = 1 := by simp [k2, numVals, Tok.numVals]
  by_cases hk0 : k = 0
  · subst hk0
    cases h1
    cases h2
    simp [StructSer.pack, structPack, hn] at h3
  · obtain ⟨cs, m1, m2, m3, m4⟩ := singleChar_matmul k (by omega)
    rw [m1] at h1
    cases h1
    have hbo : st.byteOrder = .default := by
      simp only [StructSer.addN, StructSer.add, k1, m4, m2] at h2
      split at h2
      · assumption
      · cases h2
    refine ⟨hbo, ?_⟩
    have hbo' : st.byteOrder = cs.byteOrder := by rw [hbo, m2]
    obtain ⟨e1, e2⟩ := add_toks (by simp [k2]) (by simp [m3]) hbo' (.inr (.inl (by simp [k2, m3, lastCode, firstCode]))) h2
    cases hv : v.asBytes with
    | some d =>
      refine ⟨d, rfl, ?_⟩
      rintro rfl
      rw [pyLen_bytes hv] at hk
      cases hk
      exact hk0 rfl
    | none =>
      exfalso
      have hnum : numVals s.toks = 2 := by
        rw [e2.vals]; simp [numVals, k2, m3, Tok.numVals]
      unfold StructSer.pack structPack at h3
      rw [hnum, if_pos (by simp), e2.pack, packToks_append, e1, hn, m3] at h3
      obtain ⟨_, _, h3⟩ := Except.bind_ok' h3
      obtain ⟨_, h3, _⟩ := Except.bind_ok' h3
      simp [packToks, packTok, hv, bind, Except.bind] at h3

theorem dynChar_inv {n : Nat} {id : SerId} {st : StructSer} (hc : st.isCount = true) {vs : List Val} {q : Option PObj} {b : Bytes} {t : List SerId}
    (h : enc env (n + 1) (.dynChar id st) q vs = .ok ⟨b, t⟩) : ∃ v vs' d x, vs = v :: vs' ∧ st.byteOrder = .default ∧ v.asBytes = some d ∧ d ≠ [] ∧
      st.pack env.plat [.int d.length] = .ok x ∧ b = x ++ d := by
  simp only [enc] at h
  have h := (encLeaf_ok h).1
  obtain ⟨⟨s, vals⟩, h1, h2⟩ := Except.bind_ok' h
  unfold dynCharPrep at h1
  cases vs with
  | nil => cases h1
  | cons v vs =>
    obtain ⟨v', e, h1⟩ := Except.bind_ok' h1
    cases e
    obtain ⟨k, hk, h1⟩ := Except.bind_ok' h1
    obtain ⟨ch, hch, h1⟩ := Except.bind_ok' h1
    obtain ⟨s', hs, h1⟩ := Except.bind_ok' h1
    cases h1
    obtain ⟨hbo, d, hd, hne⟩ := count_inv hc hk hch hs h2
    have := dynChar_enc (env := env) (n := n) (id := id) hc hbo hd hne
    rw [pyLen_bytes hd] at hk
    cases hk
    obtain ⟨ch', s', g1, g2, g3⟩ := countChars_pack hc hbo hne
    rw [hch] at g1
    cases g1
    rw [hs] at g2
    cases g2
    rw [g3 _ _ _ hd] at h2
    cases hx : st.pack env.plat [.int d.length] with
    | error e => rw [hx] at h2; cases h2
    | ok x => rw [hx] at h2; cases h2; exact ⟨v, vs, d, x, rfl, hbo, hd, hne, hx, rfl⟩

theorem net_inv {n : Nat} {id : SerId} {vs : List Val} {q : Option PObj} {b : Bytes} {t : List SerId}
    (h : enc env (n + 1) (.net id) q vs = .ok ⟨b, t⟩) : ∃ v vs' d, vs = v :: vs' ∧ v.asBytes = some d ∧ d ≠ [] ∧ d.length ≤ 0x7FFF ∧
      b = netHeader env.plat d.length ++ d := by
  cases vs with
  | nil => cases h
  | cons v vs =>
    have hv : ∃ d, v.asBytes = some d ∧ d ≠ [] ∧ d.length ≤ 0x7FFF := by
      simp only [enc] at h
      have h := (encLeaf_ok h).1
      obtain ⟨⟨s, vals⟩, h1, h2⟩ := Except.bind_ok' h
      unfold netPrep at h1
      obtain ⟨v', e, h1⟩ := Except.bind_ok' h1
      cases e
      obtain ⟨k, hk, h1⟩ := Except.bind_ok' h1
      by_cases hk1 : k < 128
      · rw [if_pos hk1] at h1
        obtain ⟨ch, hch, h1⟩ := Except.bind_ok' h1
        obtain ⟨s', hs, h1⟩ := Except.bind_ok' h1
        cases h1
        obtain ⟨_, d, hd, hne⟩ := count_inv shortLen_count hk hch hs h2
        refine ⟨d, hd, hne, ?_⟩
        rw [pyLen_bytes hd] at hk
        cases hk
        omega
      · rw [if_neg hk1] at h1
        by_cases hk2 : 0x7FFF < k
        · rw [if_pos hk2] at h1; cases h1
        · rw [if_neg hk2] at h1
          obtain ⟨ch, hch, h1⟩ := Except.bind_ok' h1
          obtain ⟨s', hs, h1⟩ := Except.bind_ok' h1
          cases h1
          obtain ⟨_, d, hd, hne⟩ := count_inv longLen_count hk hch hs h2
          refine ⟨d, hd, hne, ?_⟩
          rw [pyLen_bytes hd] at hk
          cases hk
          omega
    obtain ⟨d, hd, hne, hl⟩ := hv
    have h' : enc env (n + 1) (.net id) none [v] = .ok ⟨b, t⟩ := h
    rw [net_enc hd hne hl, netHeader_pack _ _ hl] at h'
    have := (encLeaf_ok h').1
    cases this
    exact ⟨v, vs, d, rfl, hd, hne, hl, rfl⟩

theorem term_inv {n : Nat} {id : SerId} {term : Byte} {vs : List Val} {q : Option PObj} {b : Bytes} {t : List SerId}
    (h : enc env (n + 1) (.terminated id term) q vs = .ok ⟨b, t⟩) : ∃ v vs' d, vs = v :: vs' ∧ v.asBytes = some d ∧ b = d ++ [term] := by
  cases vs with
  | nil => cases h
  | cons v vs =>
    have h' : enc env (n + 1) (.terminated id term) none [v] = .ok ⟨b, t⟩ := h
    have hv : ∃ d, v.asBytes = some d := by
      simp only [enc] at h
      have h := (encLeaf_ok h).1
      obtain ⟨d, h1, h2⟩ := Except.bind_ok' h
      unfold termData at h1
      obtain ⟨v', e, h1⟩ := Except.bind_ok' h1
      cases e
      unfold Val.asBytes
      cases hs : v.strip <;> rw [hs] at h1 <;> first | exact ⟨_, rfl⟩ | cases h1
    obtain ⟨d, hd⟩ := hv
    rw [term_enc hd] at h'
    cases h'
    exact ⟨v, vs, d, rfl, hd, rfl⟩

theorem consuming_inv {n : Nat} {id : SerId} {vs : List Val} {q : Option PObj} {b : Bytes} {t : List SerId}
    (h : enc env (n + 1) (.consuming id) q vs = .ok ⟨b, t⟩) : ∃ v vs', vs = v :: vs' ∧ v.asBytes = some b := by
  cases vs with
  | nil => cases h
  | cons v vs =>
    simp only [enc] at h
    have h := (encLeaf_ok h).1
    unfold consumeData at h
    obtain ⟨v', e, h1⟩ := Except.bind_ok' h
    cases e
    refine ⟨v, vs, rfl, ?_⟩
    unfold Val.asBytes
    cases hs : v.strip <;> rw [hs] at h1 <;> cases h1
    rfl

end Verif
