import Verif.Proofs.StoreClass
/-
Lemmas on what packing accepts: what can be stored is packed.
-/
namespace Verif
open Spec Sem

variable {bo : ByteOrder} {cf : ClassId → Bool} {env : Env} {W : ClassId → Val → Option Bytes}

/-- Each of the serializers writes what its format stores. -/
def AllS (env : Env) (bo : ByteOrder) (W : ClassId → Val → Option Bytes) : List Fmt → List Ser → Prop
  | [], ss => ss = []
  | f :: fs, ss => ∃ x xs, ss = x :: xs ∧ Writes1 env x (fun o v => f.store true env.plat bo W o v) ∧ AllS env bo W fs xs

theorem value_sl {p : PObj} {f : Fmt} {x : Ser} {xs : List Ser} {v : Val} {vs : List Val} {b1 b2 : Bytes} {k K : Nat} (hi : f.Is cf bo x)
    (hw : Writes1 env x (fun o v => f.store true env.plat bo W o v)) (e1 : f.store true env.plat bo W p v = some b1)
    (h : ∀ n ≥ K, GL env n p (after bo k f.basic) xs vs b2) :
    ∃ K, ∀ n ≥ K, GL env n p k (x :: xs) (v :: vs) (List.replicate (gap bo k f.basic) 0 ++ b1 ++ b2) := by
  obtain ⟨s', q, hq, he⟩ := hw.enc p
  rcases isStruct_dec x with ⟨st, rfl⟩ | hns
  · cases hq
    have hn : st.numValues = 1 := hw.one
    obtain ⟨g1, g2⟩ := is_packAt (P := env.plat) k hi (writes_pack he e1)
    refine ⟨K, fun n hn' => ⟨_, b2, by rw [hn]; exact g1, ?_, rfl⟩⟩
    rw [g2, hn]
    exact h n hn'
  · rw [is_basic_none hi hns] at h ⊢
    obtain ⟨K1, hK1⟩ := he.enc v b1 e1
    refine ⟨max K1 K, fun n hn' => ?_⟩
    simp only [gap, List.replicate_zero, List.nil_append]
    refine GL.part k hns ⟨s', q, hq, he.sized, by rw [he.one, hw.one], ?_⟩ ?_
    · rw [hw.one]; exact hK1 n (by omega)
    · rw [hw.one]; exact h n (by omega)

theorem allS_loop (p : PObj) : ∀ {fs : List Fmt} {ss : List Ser} {vs : List Val} {b : Bytes} {k : Nat}, Fmt.IsL cf bo fs ss → AllS env bo W fs ss →
    vs.length = fs.length → Fmt.stores true env.plat bo W p k fs vs = some b → vs.length = (ss.map Ser.numValues).sum ∧ ∃ K, ∀ n ≥ K, GL env n p k ss vs b
  | [], _, vs, b, k, _, h, hl, hv => by
    cases h
    cases vs with
    | nil => cases hv; exact ⟨rfl, 0, fun n _ => rfl⟩
    | cons => cases hl
  | f :: fs, _, vs, b, k, hi, h, hl, hv => by
    obtain ⟨x, xs, rfl, h1, h2⟩ := h
    obtain ⟨_, _, e, hi1, hi2⟩ := hi
    cases e
    cases vs with
    | nil => cases hl
    | cons v vs =>
      simp only [Fmt.stores] at hv
      split at hv
      · rename_i b1 b2 e1 e2
        cases hv
        obtain ⟨hl, K2, hK2⟩ := allS_loop p hi2 h2 (by simpa using hl) e2
        exact ⟨by simp [hl, h1.one]; omega, value_sl hi1 h1 e1 hK2⟩
      · cases hv

theorem allS_at {p : PObj} : ∀ {fs : List Fmt} {ss : List Ser} {k : Nat} {v : Val} {b : Bytes}, AllS env .default W fs ss →
    Fmt.storeAt true env.plat W p fs k v = some b → ∃ x f, ss[k]? = some x ∧ fs[k]? = some f ∧
      Writes1 env x (fun o v => f.store true env.plat .default W o v) ∧ f.store true env.plat .default W p v = some b
  | [], _, k, v, b, _, hv => by cases hv
  | f :: fs, _, 0, v, b, h, hv => by
    obtain ⟨x, xs, rfl, h1, h2⟩ := h
    exact ⟨x, f, rfl, rfl, h1, hv⟩
  | f :: fs, _, k + 1, v, b, h, hv => by
    obtain ⟨x, xs, rfl, h1, h2⟩ := h
    obtain ⟨y, g, i1, i2, i3⟩ := allS_at h2 (show Fmt.storeAt true env.plat W p fs k v = some b from hv)
    exact ⟨y, g, by simpa using i1, by simpa using i2, i3⟩

theorem basic_stores {f : Fmt} {s : Ser} (hf : f.basic.isSome = true) (h : f.Is cf bo s) : Writes1 env s (fun o v => f.store true env.plat bo W o v) := by
  rcases isStruct_dec s with ⟨st, rfl⟩ | hs
  · obtain ⟨t, h1, h2⟩ := is_basic_toks hf h
    refine .leaf (h1.numValues h2) rfl rfl fun p v b hb => ⟨1, fun n hn => ?_⟩
    obtain ⟨m, rfl⟩ : ∃ m, n = m + 1 := ⟨n - 1, by omega⟩
    exact .leaf ((basic_store h).2 hb)
  · rw [is_basic_none h hs] at hf
    cases hf

mutual
theorem is_stores (hW : ObjWrites env W) : ∀ (f : Fmt) (bo : ByteOrder) (s : Ser), f.good .default = true → f.Is cf bo s →
    Writes1 env s (fun o v => f.store true env.plat bo W o v)
  | .int sg w, bo, s, _, h => basic_stores (f := .int sg w) rfl h
  | .bool, bo, s, _, h => basic_stores (f := .bool) rfl h
  | .half, bo, s, _, h => basic_stores (f := .half) rfl h
  | .single, bo, s, _, h => basic_stores (f := .single) rfl h
  | .double, bo, s, _, h => basic_stores (f := .double) rfl h
  | .chars k, bo, s, _, h => basic_stores (f := .chars k) rfl h
  | .pascal k, bo, s, _, h => basic_stores (f := .pascal k) rfl h
  | .via i f nm own make, bo, s, hg, h => by
    have hd : f.direct = true := by
      simp only [Fmt.good, Bool.and_eq_true] at hg
      exact hg.1
    refine basic_stores (f := .via i f nm own make) ?_ h
    simp only [Fmt.basic]
    cases f <;> first | rfl | cases hd
  | .net, bo, s, _, h => by
    obtain ⟨id, rfl⟩ := h
    refine .leaf rfl rfl rfl fun p v b hb => ⟨1, fun n hn => ?_⟩
    obtain ⟨m, rfl⟩ : ∃ m, n = m + 1 := ⟨n - 1, by omega⟩
    simp only [Fmt.store, octets_eq] at hb
    split at hb
    · rename_i d hd
      split at hb
      · cases hb
      · rename_i hne
        obtain ⟨u, hu, rfl⟩ := Option.map_eq_some_iff.1 hb
        obtain ⟨h1, h2⟩ := netPrefix_eq.1 hu
        rw [net_enc hd hne h1, netHeader_pack _ _ h1, h2]
        exact .ok
    · cases hb
  | .counted w, bo, s, _, h => by
    obtain ⟨id, rfl⟩ := h
    refine .leaf rfl rfl rfl fun p v b hb => ⟨1, fun n hn => ?_⟩
    obtain ⟨m, rfl⟩ : ∃ m, n = m + 1 := ⟨n - 1, by omega⟩
    simp only [Fmt.store, octets_eq] at hb
    split at hb
    · rename_i d hd
      split at hb
      · cases hb
      · rename_i hne
        have hb' : bo = .default := Classical.byContradiction fun hh => hne (.inr hh)
        subst hb'
        obtain ⟨h1, rfl⟩ := prefixed_some hb
        rw [dynChar_enc (intSer_isCount (w.mem false) .default) (by cases w <;> rfl) hd (fun hh => hne (.inl hh)), count_pack h1]
        exact .ok
    · cases hb
  | .until t, bo, s, _, h => by
    obtain ⟨id, rfl⟩ := h
    refine .leaf rfl rfl rfl fun p v b hb => ⟨1, fun n hn => ?_⟩
    obtain ⟨m, rfl⟩ : ∃ m, n = m + 1 := ⟨n - 1, by omega⟩
    simp only [Fmt.store, octets_eq] at hb
    obtain ⟨d, hd, rfl⟩ := Option.map_eq_some_iff.1 hb
    rw [term_enc hd]
    exact .ok
  | .rest, bo, s, _, h => by
    obtain ⟨id, rfl⟩ := h
    refine .leaf rfl rfl rfl fun p v b hb => ⟨1, fun n hn => ?_⟩
    obtain ⟨m, rfl⟩ : ∃ m, n = m + 1 := ⟨n - 1, by omega⟩
    simp only [Fmt.store, octets_eq] at hb
    refine .leaf ?_
    simp only [consumeData, first, bind, Except.bind, strip_of_asBytes hb]
  | .text f en de, bo, s, hg, h => by
    obtain ⟨y, rfl, h⟩ := h
    simp only [Fmt.good, Bool.and_eq_true, decide_eq_true_eq] at hg
    obtain ⟨⟨_, hbr⟩, hg⟩ := hg
    have ih := is_stores hW f .default y hg h
    have hk := plain_overrides (bracket_plain hbr) h
    have iw := ih.same hk
    refine .leaf rfl (iw ⟨0, false, []⟩).sized rfl fun p v b hb => ?_
    simp only [Fmt.store] at hb
    split at hb
    · rename_i d hd
      obtain ⟨K, h1⟩ := (iw p).enc _ _ hb
      refine ⟨K + 1, fun n hn => ?_⟩
      obtain ⟨m, rfl⟩ : ∃ m, n = m + 1 := ⟨n - 1, by omega⟩
      simp only [enc, first, bind, Except.bind, hd, Out.ofE]
      exact h1 m (by omega)
    · cases hb
  | .fixed k item, bo, s, hg, h => by
    simp only [Fmt.good] at hg
    rcases h with ⟨st, ser, rfl, hb, hi, hm⟩ | ⟨id, y, rfl, _, hi⟩
    · have ih := is_stores hW item bo (.struct st) hg hi
      refine .leaf rfl rfl rfl fun p v b hv => ⟨1, fun n hn => ?_⟩
      obtain ⟨m, rfl⟩ : ∃ m, n = m + 1 := ⟨n - 1, by omega⟩
      simp only [Fmt.store] at hv
      split at hv
      · rename_i vs hvs
        have hel := elements_eq.1 hvs
        split at hv
        · rename_i hl
          subst hl
          obtain ⟨t, h1, h2⟩ := is_basic_toks hb hi
          refine .leaf ?_
          simp only [staticArrPrep, first, elements_len hvs, bind, Except.bind, ne_eq, not_true_eq_false, if_false, hel]
          rw [mul_pack_each h1.toks h2 h1.single hm]
          exact each_gather (fun v b hv => writes_pack (ih.same rfl p) hv) vs b hv
        · cases hv
      · cases hv
    · have ih := is_stores hW item bo y hg hi
      refine .kept rfl rfl (fun p => rfl) fun p v b hv => ?_
      obtain ⟨y', qy, hpy, iy⟩ := ih.enc p
      simp only [Fmt.store] at hv
      split at hv
      · rename_i vs hvs
        have hel := elements_eq.1 hvs
        split at hv
        · rename_i hl
          obtain ⟨K, hK⟩ := items_enc iy vs b hv
          refine ⟨K + 1, fun n hn => ?_⟩
          obtain ⟨m, rfl⟩ : ∃ m, n = m + 1 := ⟨n - 1, by omega⟩
          simp only [enc, hpy, Out.ofE, Out.ok_bind, first, hel]
          refine (hK m (by omega)).bind fun t => ?_
          simp only [headerPackValues, hdrNum, Option.elim, hl, Int.natCast_nonneg, if_true, ne_eq, not_true_eq_false, if_false, Out.ok_bind, packOpt]
          exact .ok
        · cases hv
      · cases hv
  | .list w item, bo, s, hg, h => by
    simp only [Fmt.good, Bool.and_eq_true] at hg
    obtain ⟨id, y, rfl, hi⟩ := h
    have ih := is_stores hW item bo y hg.1 hi
    refine .kept rfl rfl (fun p => rfl) fun p v b hv => ?_
    obtain ⟨y', qy, hpy, iy⟩ := ih.enc p
    simp only [Fmt.store] at hv
    split at hv
    · rename_i vs hvs
      have hel := elements_eq.1 hvs
      split at hv
      · rename_i d hd
        obtain ⟨hl, rfl⟩ := prefixed_some hv
        obtain ⟨K, hK⟩ := items_enc iy vs d hd
        refine ⟨K + 1, fun n hn => ?_⟩
        obtain ⟨m, rfl⟩ : ∃ m, n = m + 1 := ⟨n - 1, by omega⟩
        have n1 : (intSer bo (w.code false)).numValues = 1 := by cases w <;> cases bo <;> rfl
        simp only [enc, hpy, Out.ofE, Out.ok_bind, first, hel]
        refine (hK m (by omega)).bind fun t => ?_
        simp only [headerPackValues, hdrNum, Option.elim, n1]
        simp only [show ¬ (0 : Int) ≤ -1 by decide, if_false, show ¬ (1 : Nat) = 2 by decide, Out.ok_bind, packOpt, count_pack hl]
        exact .ok
      · cases hv
    · cases hv
  | .sized w w2 item, bo, s, hg, h => by
    simp only [Fmt.good, Bool.and_eq_true] at hg
    obtain ⟨hg, _⟩ := hg
    obtain ⟨id, y, hd, rfl, ha, hi⟩ := h
    have ih := is_stores hW item bo y hg hi
    obtain ⟨n2, hp⟩ := sized_pack ha
    refine .kept rfl rfl (fun p => rfl) fun p v b hv => ?_
    obtain ⟨y', qy, hpy, iy⟩ := ih.enc p
    simp only [Fmt.store] at hv
    split at hv
    · rename_i vs hvs
      have hel := elements_eq.1 hvs
      split at hv
      · rename_i d hd'
        split at hv
        · rename_i d2 hd2
          obtain ⟨hl, rfl⟩ := prefixed_some hv
          obtain ⟨hl2, rfl⟩ := prefixed_some hd2
          obtain ⟨K, hK⟩ := items_enc iy vs d hd'
          refine ⟨K + 1, fun n hn => ?_⟩
          obtain ⟨m, rfl⟩ : ∃ m, n = m + 1 := ⟨n - 1, by omega⟩
          simp only [enc, hpy, Out.ofE, Out.ok_bind, first, hel]
          refine (hK m (by omega)).bind fun t => ?_
          simp only [headerPackValues, hdrNum, Option.elim, n2]
          simp only [show ¬ (0 : Int) ≤ -1 by decide, if_false, if_true, Out.ok_bind, packOpt, hp env.plat _ _ hl hl2,
            List.append_assoc]
          exact .ok
        · cases hv
      · cases hv
    · cases hv
  | .tup items, bo, s, hg, h => by
    simp only [Fmt.good, Bool.and_eq_true, decide_eq_true_eq] at hg
    obtain ⟨⟨⟨_, hg⟩, _⟩, hme⟩ := hg
    obtain ⟨id, id', inner, ss, rfl, hi, hsum⟩ := h
    have hall := isL_stores hW items .default ss hg hi
    have hf : ∀ x ∈ ss, FieldOf .default x := fun x hx => (isL_fieldOf hi x hx).1
    have hnn : ∀ x ∈ ss, x ≠ .null := fun x hx => (isL_fieldOf hi x hx).2
    obtain ⟨hm, hst⟩ := fields_sumIn hf hsum
    have hsz : inner.sized = true := by
      rcases hst.flat.notSpecial with hs | ⟨_, _, rfl⟩
      · rcases parts_simple hs with ⟨_, rfl⟩ | hps
        · rfl
        · rcases merge_mem hm inner (by rw [hps]; simp) with h1 | ⟨st, rfl⟩
          · by_cases hstr : ∃ st, inner = .struct st
            · obtain ⟨st, rfl⟩ := hstr; rfl
            · have := merge_lone hm hps (fun st e => hstr ⟨st, e⟩) hnn
              subst this
              match items, hall, hi, hme with
              | [], hall, _, _ => cases hall
              | f :: fs, hall, hi, hme =>
                obtain ⟨x, xs, e, h2, h3⟩ := hall
                cases e
                rcases h2.szd with h4 | ⟨id, rfl⟩
                · exact h4
                · obtain ⟨x, xs, e, h5, h6⟩ := hi
                  cases e
                  have : f = .me := is_selfT h5
                  subst this
                  cases fs with
                  | nil => cases hme
                  | cons => obtain ⟨_, _, e, _⟩ := h6; cases e
          · rfl
      · rfl
    refine .kept rfl hsz (fun p => rfl) fun p v b hv => ?_
    simp only [Fmt.store] at hv
    split at hv
    · rename_i vs hvs
      split at hv
      · cases hv
      rename_i hlen
      obtain ⟨hl, K, hK⟩ := allS_loop p hi hall (by simpa using hlen) hv
      obtain ⟨s', q', h1, h2⟩ := whole_enc hm (fields_apart hf hsum) hnn hst.flat.notSpecial hl hK
      refine ⟨K + 3, fun n hn => ?_⟩
      obtain ⟨m, rfl⟩ : ∃ m, n = m + 1 := ⟨n - 1, by omega⟩
      simp only [enc, h1, Out.ofE, Out.ok_bind, elements_eq.1 hvs]
      exact (h2 m (by omega)).bind fun t => .ok
    · cases hv
  | .obj c, bo, s, _, h => by
    obtain ⟨id, rfl⟩ := h
    refine .leaf rfl rfl rfl fun p v b hv => ?_
    obtain ⟨K, hK⟩ := hW c v b hv
    exact ⟨K, fun n hn => hK n hn id c⟩
  | .me, bo, s, _, h => by
    obtain ⟨id, rfl⟩ := h
    refine ⟨rfl, .inr ⟨id, rfl⟩, fun p => ⟨.structured id p.cls, none, rfl, rfl, rfl, fun v b hv => ?_⟩⟩
    obtain ⟨K, hK⟩ := hW p.cls v b hv
    exact ⟨K, fun n hn => hK n hn id p.cls⟩
  | .choice cid args ahead decider keys opts other, bo, s, hg, h => by
    simp only [Fmt.good, Bool.and_eq_true, decide_eq_true_eq] at hg
    obtain ⟨⟨⟨⟨_, hg1⟩, hg2⟩, _⟩, _⟩ := hg
    obtain ⟨os, ds, h1, h2, h3⟩ := h
    have w1 := isL_stores hW opts .default os hg1 h1
    have w2 := isL_stores hW other .default ds hg2 h2
    have key : ∀ p v b, (Fmt.choice cid args ahead decider keys opts other).store true env.plat bo W p v = some b →
        ∃ r, decider p = .ok r ∧ ∃ K, ∀ n ≥ K, Gives (encUnion (enc env n) keys os (ds.headD .null) p r [v]) b := by
      intro p v b hv
      simp only [Fmt.store] at hv
      split at hv
      · rename_i r hr
        refine ⟨r, hr, ?_⟩
        split at hv
        · rename_i k hk
          obtain ⟨x, f, h4, _, h5, h6⟩ := allS_at w1 hv
          exact union_enc (unionPick_key hk h4) h5 h6
        · rename_i hk
          split at hv
          · rename_i hh
            obtain ⟨x, f, h4, _, h5, h6⟩ := allS_at w2 hv
            have hd : ds.headD .null = x := by cases ds <;> simp_all
            have hx : x ≠ .null := by rintro rfl; exact absurd h5.one (by decide)
            rw [hd]
            exact union_enc (unionPick_other hk hh hx) h5 h6
          · cases hv
      · cases hv
    rcases h3 with ⟨_, rfl⟩ | ⟨_, st, _, _, rfl⟩
    all_goals
      refine .kept rfl rfl (fun p => rfl) fun p v b hv => ?_
      obtain ⟨r, hr, K, hK⟩ := key p v b hv
      refine ⟨K + 1, fun n hn => ?_⟩
      obtain ⟨m, rfl⟩ : ∃ m, n = m + 1 := ⟨n - 1, by omega⟩
      simp only [enc, hr, Out.ofE, Out.ok_bind]
      exact hK m (by omega)
theorem isL_stores (hW : ObjWrites env W) : ∀ (fs : List Fmt) (bo : ByteOrder) (ss : List Ser), Fmt.goods .default fs = true → Fmt.IsL cf bo fs ss →
    AllS env bo W fs ss
  | [], bo, ss, _, h => h
  | f :: fs, bo, ss, hg, h => by
    obtain ⟨x, xs, rfl, h1, h2⟩ := h
    simp only [Fmt.goods, Bool.and_eq_true] at hg
    exact ⟨x, xs, rfl, is_stores hW f bo x hg.1 h1, isL_stores hW fs bo xs hg.2 h2⟩
end

theorem verdict_true {r : Val} {y : Ser} {ds : List Val} (h : verdict r = some true) : condPick y ds r = .ok y := by
  unfold verdict at h
  unfold condPick
  split at h
  · rename_i hh
    split at h
    · rename_i ht
      simp [hh, ht]
    · split at h <;> cases h
  · cases h

theorem verdict_false {r : Val} {y : Ser} {ds : List Val} (h : verdict r = some false) : condPick y ds r = .ok (.skip ds) := by
  unfold verdict at h
  unfold condPick
  split at h
  · rename_i hh
    split at h
    · cases h
    · rename_i ht
      split at h
      · rename_i hf
        simp [hh, ht, hf]
      · cases h
  · cases h

/-- The fields of a class write what they store. -/
theorem fields_stores (hW : ObjWrites env W) (p : PObj) : ∀ {fs : List Field} {ss : List Ser} {k : Nat} {vs : List Val} {b : Bytes},
    Field.IsL cf bo fs ss → (∀ f ∈ fs, f.sound = true) → storeFields true env.plat bo W p k fs vs = some b →
    vs.length = (ss.map Ser.numValues).sum ∧ ∃ K, ∀ n ≥ K, GL env n p k ss vs b
  | [], _, k, vs, b, h, _, hv => by
    cases h
    cases vs with
    | nil => cases hv; exact ⟨rfl, 0, fun n _ => rfl⟩
    | cons => cases hv
  | f :: fs, _, k, vs, b, h, hg, hv => by
    obtain ⟨x, xs, rfl, h1, h2⟩ := h
    have hg' : ∀ f ∈ fs, f.sound = true := fun g h => hg g (by simp [h])
    have hgf := hg f (by simp)
    cases f with
    | value a f =>
      have hw := is_stores hW f bo x hgf h1
      cases vs with
      | nil => cases hv
      | cons v vs =>
        simp only [storeFields] at hv
        split at hv
        · rename_i b1 b2 e1 e2
          cases hv
          obtain ⟨hl, K2, hK2⟩ := fields_stores hW p h2 hg' e2
          exact ⟨by simp [hl, hw.one]; omega, value_sl h1 hw e1 hK2⟩
        · cases hv
    | pad a m =>
      obtain ⟨st, rfl, hb⟩ := h1
      obtain ⟨hp, hn0⟩ := pad_pack hb env.plat
      simp only [storeFields] at hv
      split at hv
      · rename_i b2 e2
        cases hv
        obtain ⟨hl, K2, hK2⟩ := fields_stores hW p h2 hg' e2
        refine ⟨by simp [hl, Ser.numValues, hn0], K2, fun n hn => ⟨_, b2, ?_, ?_, rfl⟩⟩
        · rw [hn0]; exact pad_packAt k hb hp
        · rw [hn0, List.length_replicate]; exact hK2 n hn
      · cases hv
    | «when» a c f d =>
      obtain ⟨y, rfl, h1⟩ := h1
      simp only [Field.sound, Field.good, Bool.and_eq_true] at hgf
      have hw := is_stores hW f bo y hgf.1 h1
      have he := hw.same (plain_overrides hgf.2 h1) p
      have n1 : (Ser.cond y c [d]).numValues = 1 := hw.one
      cases vs with
      | nil => cases hv
      | cons v vs =>
        simp only [storeFields] at hv
        split at hv
        · rename_i r hc
          split at hv
          · rename_i hr
            have hq : pre (.cond y c [d]) p = .ok (y, none) := by simp only [pre, hc, bind, Except.bind, verdict_true hr]
            split at hv
            · rename_i b1 b2 e1 e2
              cases hv
              obtain ⟨hl, K2, hK2⟩ := fields_stores hW p h2 hg' e2
              obtain ⟨K1, hK1⟩ := he.enc v b1 e1
              refine ⟨by simp [hl, n1]; omega, max K1 K2, fun n hn => GL.part k (by nofun) ⟨y, none, hq, he.sized, by rw [he.one, n1], ?_⟩ ?_⟩
              · rw [n1]; exact hK1 n (by omega)
              · rw [n1]; exact hK2 n (by omega)
            · cases hv
          · rename_i hr
            have hq : pre (.cond y c [d]) p = .ok (.skip [d], none) := by simp only [pre, hc, bind, Except.bind, verdict_false hr]
            obtain ⟨hl, K2, hK2⟩ := fields_stores hW p h2 hg' hv
            refine ⟨by simp [hl, n1]; omega, K2 + 1, fun n hn =>
              GL.part (b1 := []) (b2 := b) k (by nofun) ⟨.skip [d], none, hq, rfl, by rw [n1]; rfl, ?_⟩ ?_⟩
            · obtain ⟨m, rfl⟩ : ∃ m, n = m + 1 := ⟨n - 1, by omega⟩
              exact .ok
            · rw [n1]; exact hK2 n (by omega)
          · cases hv
        · cases hv

end Verif
