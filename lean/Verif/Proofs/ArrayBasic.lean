import Verif.Proofs.ArrayRun
/-
Arrays of basic types: their bytes are the bytes of the items one after the other.
-/
namespace Verif
open Spec Sem

variable {env : Env}

theorem Tok.bytes_mod_align (nat : Bool) (t : Tok) : t.bytes nat % t.c.align nat = 0 := by
  simp [Tok.bytes, Nat.mul_mod, Code.bytes_mod_align]

theorem packToks_each {P : Platform} {item : StructSer} {t : Tok} (ht : item.toks = [t]) (hn : t.numVals = 1) :
    ∀ items : List Val, packToks P item.byteOrder (rep items.length item.toks) 0 items = packEach P item items := by
  intro items
  have hnv : numVals item.toks = 1 := by simp [ht, numVals, hn]
  induction items with
  | nil => rfl
  | cons v vs ih =>
    rw [List.length_cons, rep_succ, packToks_append, hnv, packEach, ← ih]
    have h1 : packToks P item.byteOrder item.toks 0 (v :: vs) = packToks P item.byteOrder item.toks 0 [v] :=
      packToks_take P item.byteOrder item.toks 0 [v] vs (by simp [hnv])
    have h2 : item.pack P [v] = packToks P item.byteOrder item.toks 0 [v] := by
      unfold StructSer.pack structPack
      rw [if_pos (by simp [hnv])]
    rw [h1, ← h2]
    cases hp : item.pack P [v] with
    | error e => rfl
    | ok b =>
      have hb : b.length % t.c.align item.byteOrder.isNative = 0 := by
        rw [structSer_pack_length hp]
        simp [StructSer.size, ht, sizeToks, endOff, padLen, Tok.bytes_mod_align]
      have h3 := packToks_shift (P := P) (bo := item.byteOrder) (d := b.length) (rep vs.length item.toks) 0 vs (by
        intro u hu
        have hu := mem_rep hu
        rw [ht, List.mem_singleton] at hu
        subst hu; exact hb)
      simp only [bind, Except.bind, h3, List.drop_succ_cons, List.drop_zero]

/-- `item * k` packs `k` values as `item` packs them one by one. -/
theorem mul_pack_each {P : Platform} {item : StructSer} {t : Tok} (ht : item.toks = [t]) (hn : t.numVals = 1)
    (hs : SingleItem item.baseFormat) {ser : Option StructSer} {items : List Val} (hm : item.mul items.length = .ok ser) :
    packOpt P ser items = packEach P item items := by
  by_cases hne : items = []
  · subst hne
    cases hm
    rfl
  · obtain ⟨c, m1, m2, m3, m4, m5, m6⟩ := mul_toks (n := items.length) (List.length_pos_iff.2 hne) (by simp [ht]) hs
    rw [m1] at hm
    cases hm
    have hnv : numVals c.toks = items.length := by
      rw [m3.vals, numVals_rep, ht]
      simp [numVals, hn]
    simp only [packOpt, StructSer.pack, structPack, hnv, ↓reduceIte, m3.pack, m2]
    exact packToks_each ht hn items

/-- A sum exists if the byte orders agree. -/
theorem add_exists {a b : StructSer} (ha : a.toks ≠ []) (hb : b.toks ≠ []) (hbo : a.byteOrder = b.byteOrder)
    (hs : Seam b.baseFormat a.toks b.toks) : ∃ c, a.add b = .ok c := by
  have h1 := StructSer.parse_base (formatOk_of_toks ha)
  have h2 := StructSer.parse_base (formatOk_of_toks hb)
  rw [← hbo] at h2
  obtain ⟨t, ht, hag⟩ := foldOverlaps_agree h1 h2 hs
  have hf := (StructSer.of_parse (a := none) ht).1
  unfold StructSer.add
  simp only
  split
  · rw [if_pos hbo, StructSer.mkPlain_ok ht]
    exact ⟨_, rfl⟩
  all_goals
    unfold StructSer.mkActions
    simp only [hf, ↓reduceIte]
    split <;> exact ⟨_, rfl⟩

/-- The bytes of a counted array of a basic type without padding behind the count. -/
theorem dynArr_each {P : Platform} {cnt item : StructSer} {t : Tok} (hc : cnt.isCount = true) (ht : item.toks = [t]) (hn : t.numVals = 1)
    (hs : SingleItem item.baseFormat) (hb : cnt.byteOrder = item.byteOrder) (hp : packedTight cnt item = true)
    {v : Val} {items : List Val} (hi : pyIter v = .ok items) :
    (do let (s, vals) ← dynArrPrep cnt item [v]; s.pack P vals) = (do
      let x ← cnt.pack P [.int items.length]
      let y ← packEach P item items
      .ok (x ++ y)) := by
  obtain ⟨k1, w, k2⟩ := isCount_toks hc
  have hn1 : numVals cnt.toks = 1 := by simp [k2, numVals, Tok.numVals]
  by_cases hne : items = []
  · subst hne
    have hcnt : StructSer.mkPlain cnt.format .default = .ok cnt := by
      have hf : StructSer.formatOk cnt.format = true := formatOk_of_toks (by simp [k2])
      simp only [StructSer.mkPlain]
      rw [if_pos (by simpa [ByteOrder.value] using hf)]
      cases cnt; cases k1; rfl
    have : cnt.numValues = 1 := hn1
    simp only [dynArrPrep, first, bind, Except.bind, pyLen_pyIter hi, hi, List.length_nil, ↓reduceIte, hcnt, this, packEach]
    show cnt.pack P [.int 0] = _
    cases h : cnt.pack P [.int 0] with
    | error e => simp
    | ok x => simp
  · obtain ⟨c', m1, m2, m3, m4, m5, m6⟩ := mul_toks (n := items.length) (List.length_pos_iff.2 hne) (by simp [ht]) hs
    have hseam : Seam c'.baseFormat cnt.toks c'.toks := by
      rcases m6 with m6 | ⟨k, m6, m7⟩
      · exact .inl m6
      · refine .inr (.inl ?_)
        rw [m6, k2]
        rintro h
        simp only [lastCode, List.getLast?_singleton, Option.map_some, Option.some.injEq] at h
        rw [← h] at m7
        cases m7
    obtain ⟨s, a1⟩ := add_exists (by simp [k2]) m4 (by rw [hb, m2]) hseam
    obtain ⟨e1, e2⟩ := add_toks (by simp [k2]) m4 (by rw [hb, m2]) hseam a1
    have e3 := e2.trans (ToksAgree.append (.refl cnt.toks) m3)
    have hnv : s.numValues = 1 + items.length := by
      show numVals s.toks = _
      rw [e3.vals, numVals_append, hn1, numVals_rep, ht]
      simp [numVals, hn]
    have h0 : items.length ≠ 0 := fun h => hne (List.length_eq_zero_iff.1 h)
    simp only [dynArrPrep, first, bind, Except.bind, pyLen_pyIter hi, hi, h0, ↓reduceIte, m1, StructSer.addN, a1, hnv]
    rw [show ((1 + items.length : Nat) : Int) - 1 = (items.length : Int) by omega]
    have hpk : s.pack P (.int items.length :: items) = packToks P s.byteOrder s.toks 0 (.int items.length :: items) := by
      unfold StructSer.pack structPack
      rw [if_pos (by rw [show numVals s.toks = _ from hnv]; simp; omega)]
    have hcp : cnt.pack P [.int items.length] = packToks P cnt.byteOrder cnt.toks 0 (.int items.length :: items) := by
      unfold StructSer.pack structPack
      rw [hn1, if_pos (by simp)]
      exact (packToks_take P cnt.byteOrder cnt.toks 0 [.int items.length] items (by simp [hn1])).symm
    rw [hpk, e3.pack, packToks_append, e1, ← hcp, hn1]
    cases hx : cnt.pack P [.int items.length] with
    | error e => rfl
    | ok x =>
      have hsz : x.length = cnt.size := structSer_pack_length hx
      have := packToks_shift (P := P) (bo := cnt.byteOrder) (d := x.length) (rep items.length item.toks) 0 items (by
        intro u hu
        have hu := mem_rep hu
        unfold packedTight at hp
        rw [List.all_eq_true] at hp
        have := hp u hu
        rw [hsz]
        exact padLen_zero (u.c.align_pos _) (by simpa using this))
      simp only [bind, Except.bind, List.drop_succ_cons, List.drop_zero, this]
      rw [hb, packToks_each ht hn items]

theorem itemPacks_of_enc {n : Nat} {i : Ser} {v : Val} {r : Enc} (h : enc env n i none [v] = .ok r) (hz : i.sized = true) :
    ItemPacks env n i (fun _ => True) v r.bytes := by
  intro st _
  obtain ⟨st', h1, h2⟩ := pack_of_enc h st
  exact ⟨st', h1, trivial, h2 hz⟩

theorem itemReads_of_dec {n : Nat} {i : Ser} {b : Bytes} {v : Val} (hz : i.sized = true)
    (h : ∀ src rest, Views src (b ++ rest) → ∃ us, dec env n noUpd i none src = .ok ⟨[v], b.length, src.ahead b.length, us⟩) :
    ItemReads env n i (fun _ => True) b v := by
  intro src st rest _ hs
  obtain ⟨us, hd⟩ := h _ _ hs.views
  obtain ⟨st', h1, h2, h3⟩ := unpack_of_dec hd
  exact ⟨st', h1, trivial, moved_of_adv h2, h3 hz⟩

/-- A struct serializer of one value as item of an array. -/
theorem itemPacks_struct {n : Nat} {s : StructSer} {v : Val} {b : Bytes} (h : s.pack env.plat [v] = .ok b) :
    ItemPacks env (n + 1) (.struct s) (fun _ => True) v b := by
  intro st _
  refine ⟨st, ?_, trivial, ?_⟩
  · simp only [pack, M.lift, h]
  · rw [structSer_pack_length h]; rfl

theorem itemReads_struct {n : Nat} {s : StructSer} {v w : Val} {b : Bytes} (h : s.pack env.plat [v] = .ok b)
    (hk : s.kept env.plat [v] = .ok [w]) : ItemReads env (n + 1) (.struct s) (fun _ => True) b w := by
  intro src st rest _ hs
  obtain ⟨st', h1, h2, h3⟩ := structUnpackM_shows h hk hs
  refine ⟨st', h1, trivial, h2, ?_⟩
  rw [structSer_pack_length h]; rfl

end Verif
