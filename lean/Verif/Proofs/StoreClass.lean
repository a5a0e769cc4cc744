import Verif.Proofs.StoreInverse
/-
Lemmas on what packing accepts: classes.
-/
namespace Verif
open Spec Sem

variable {ctx : HintCtx} {M N : Nat} {env : Env} {cf : ClassId → Bool} {W : ClassId → Val → Option Bytes} {bo : ByteOrder} {p : PObj}

/-- A sum that was given a byte order. -/
def SumOf (bo : ByteOrder) (x y z : StructSer) : Prop :=
  SumIn bo x y z ∧ ∃ x0 y0 z0, SumIn .default x0 y0 z0 ∧ x0.withByteOrder bo = .ok x ∧ y0.withByteOrder bo = .ok y ∧ z0.withByteOrder bo = .ok z

theorem sumOf_first {x y z z' : StructSer} (h : SumIn .default x y z) (hz : z.withByteOrder bo = .ok z') :
    ∃ x' y', x.withByteOrder bo = .ok x' ∧ y.withByteOrder bo = .ok y' ∧ SumOf bo x' y' z' := by
  obtain ⟨x', y', h1, h2, h3⟩ := sumIn_wbo h hz
  exact ⟨x', y', h1, h2, h3, x, y, z, h, h1, h2, hz⟩

theorem sumOf_again {b2 : ByteOrder} {x y z z' : StructSer} (h : SumOf bo x y z) (hz : z.withByteOrder b2 = .ok z') :
    ∃ x' y', x.withByteOrder b2 = .ok x' ∧ y.withByteOrder b2 = .ok y' ∧ SumIn b2 x' y' z' := by
  obtain ⟨_, x0, y0, z0, h0, hx, hy, hz0⟩ := h
  rw [struct_last_wins h0.facts.valid.1 hz0] at hz
  obtain ⟨x', y', h1, h2, h3⟩ := sumIn_wbo h0 hz
  exact ⟨x', y', (struct_last_wins h0.xok.1 hx b2).trans h1, (struct_last_wins h0.yok.1 hy b2).trans h2, h3⟩

/-- What a documented class is like, in the byte order of the class or of one of its objects. -/
theorem documented_own {d : ClassDoc} {o : ClassObj} (h : Documented ctx M d o) (hg : d.sound = true) :
    o.info.attrs = d.attrs ∧ ∀ own s, (match own with | none => .ok o.info.serializer | some b => o.info.serializer.withByteOrder b) = Except.ok s →
      ∃ ss, Field.IsL ctx.clsFinal (own.getD d.byteOrder) d.fields ss ∧
        Merge (SumIn (own.getD d.byteOrder)) ss (parts s) ∧ Apart (parts s) ∧ (Simple s ∨ ∃ id xs, s = .compound id xs) := by
  obtain ⟨m, id, w, dec, hmk, hbo⟩ := h.made
  obtain ⟨fields, s0, h1, h2, h3, h4⟩ := (createClass_made hmk).fields
  simp only [ClassDoc.sound, Bool.and_eq_true, List.all_eq_true] at hg
  obtain ⟨⟨hg1, _⟩, _⟩ := hg
  rw [typeHints_eq] at h1
  obtain ⟨e1, e2, e3⟩ := filterHints_is (H := fun a => evalHint (lastDecl o.decls a)) (bo := .default) _ d.fields 0 fields h.names h.hints
    hg1 h.calls h1
  have hself : ∀ f ∈ fields, f.1 ≠ "self" := by
    intro f hf
    have : f.1 ∈ d.fields.map Field.name := by rw [← e1]; exact List.mem_map.2 ⟨f, hf, rfl⟩
    obtain ⟨g, hg, e⟩ := List.mem_map.1 this
    rw [← e]
    exact h.self g hg
  have hi : initVars fields = (fields.filter (!·.2.isPad)).map (·.1) := by
    unfold initVars
    congr 1
    refine List.filter_congr fun f hf => ?_
    simp [hself f hf]
  refine ⟨by rw [h4, hi, e3]; rfl, ?_⟩
  have hfo : ∀ x ∈ fields.map (·.2), FieldOf .default x := fun x hx => (fieldsL_fieldOf e2 x hx).1
  obtain ⟨mm, hst⟩ := fields_sumIn hfo h2
  rw [hbo] at h3
  have hp := wbo_parts hst.flat h3
  obtain ⟨ss, k1, k2⟩ := merge_change sumOf_first mm hp
  have k3 := fieldsL_wbo e2 k1
  have k4 := apart_wbo hp (fields_apart hfo h2)
  have k5 := shape_wbo hst.flat.notSpecial h3
  intro own s hs
  cases own with
  | none =>
    cases hs
    exact ⟨ss, k3, merge_mono (fun _ _ _ h => h.1) k2, k4, k5⟩
  | some b =>
    have hp2 := wbo_partsOf k5 hs
    obtain ⟨ss', j1, j2⟩ := merge_change sumOf_again k2 hp2
    exact ⟨ss', fieldsL_wbo k3 j1, j2, apart_wbo hp2 k4, shape_wbo k5 hs⟩

theorem getAttrs_pick {attrs : List (Name × Val)} : ∀ {as : List Name} {vs : List Val}, getAttrs attrs as = .ok vs → pick attrs as = some vs
  | [], _, h => by cases h; rfl
  | a :: as, vs, h => by
    simp only [getAttrs] at h
    split at h
    · rename_i v hv
      obtain ⟨vs', h1, h⟩ := Except.bind_ok' h
      cases h
      rw [getAttr_lookup] at hv
      simp only [pick, hv, getAttrs_pick h1]
    · cases h

theorem pick_count {attrs : List (Name × Val)} : ∀ {as : List Name} {vs : List Val}, pick attrs as = some vs → vs.length = as.length
  | [], _, h => by cases h; rfl
  | a :: as, vs, h => by
    simp only [pick] at h
    split at h
    · rename_i h2
      cases h
      simp [pick_count h2]
    · cases h

/-- What the fields write is what is stored. -/
theorem fields_inv (hW : ObjInv env N W) : ∀ {fs : List Field} {ss : List Ser} {k : Nat} {vs : List Val} {b : Bytes},
    Field.IsL cf bo fs ss → (∀ f ∈ fs, f.sound = true) → vs.length = (fs.filter (!·.isPad)).length → GLo env N p k ss vs b →
    storeFields false env.plat bo W p k fs vs = some b
  | [], _, k, vs, b, h, _, hl, hv => by
    cases h
    cases hv
    cases vs with
    | nil => rfl
    | cons => cases hl
  | f :: fs, _, k, vs, b, h, hg, hl, hv => by
    obtain ⟨x, xs, rfl, h1, h2⟩ := h
    have hg' : ∀ f ∈ fs, f.sound = true := fun g h => hg g (by simp [h])
    have hgf := hg f (by simp)
    cases f with
    | value a f =>
      obtain ⟨v, vs', b1, b2, rfl, h3, h4, rfl⟩ := value_inv h1 (is_inv hW f bo x hgf h1) hv
      rw [storeFields, h3, fields_inv hW h2 hg' (by simpa [Field.isPad] using hl) h4]
    | pad a m =>
      obtain ⟨st, rfl, hb⟩ := h1
      obtain ⟨hp, hn0⟩ := pad_pack hb env.plat
      obtain ⟨b1, b2, h3, h4, rfl⟩ := hv
      rw [hn0] at h3 h4
      have h3 : st.packAt env.plat k [] = .ok b1 := h3
      rw [pad_packAt k hb hp] at h3
      cases h3
      rw [List.length_replicate, List.drop_zero] at h4
      rw [storeFields, fields_inv hW h2 hg' (by simpa [Field.isPad] using hl) h4]
    | «when» a c f d =>
      obtain ⟨y, rfl, h1⟩ := h1
      simp only [Field.sound, Field.good, Bool.and_eq_true] at hgf
      have hw := is_inv hW f bo y hgf.1 h1
      obtain ⟨b1, b2, s', q, n, t, us, e1, e2, e3, e4, e5, rfl⟩ := (glo_part (by nofun)).1 hv
      cases vs with
      | nil => cases hl
      | cons v vs =>
        have hl' : vs.length = (fs.filter (!·.isPad)).length := by simpa [Field.isPad] using hl
        simp only [pre] at e1
        obtain ⟨r, hr, e1⟩ := Except.bind_ok' e1
        obtain ⟨x, hx, e1⟩ := Except.bind_ok' e1
        cases e1
        unfold condPick at hx
        simp only [storeFields, hr, verdict]
        by_cases hh : r.hashable = true
        · simp only [hh, not_true_eq_false, if_false, if_true] at hx ⊢
          by_cases ht : r.keyEq (.bool true) = true
          · simp only [ht, if_true] at hx ⊢
            cases hx
            obtain ⟨v', vs', e, h3⟩ := hw.same (plain_overrides hgf.2 h1) p n e2 us b1 t e4
            rw [hw.one] at e3 e5
            have : v' = v := by rcases e3 with rfl | rfl <;> (cases e; rfl)
            subst this
            simp only [h3, fields_inv hW h2 hg' hl' e5]
          · simp only [ht, Bool.false_eq_true, if_false] at hx ⊢
            by_cases hf : r.keyEq (.bool false) = true
            · simp only [hf, if_true] at hx ⊢
              cases hx
              have : b1 = [] := by
                cases n with
                | zero => cases e4
                | succ n => cases e4; rfl
              subst this
              simp only [fields_inv hW h2 hg' hl' e5, List.nil_append]
            · simp [hf] at hx
        · simp [hh] at hx

variable {docs : ClassId → Option ClassDoc}

theorem obj_inv (hd : Describes env ctx M docs) (hall : ∀ c, (env.classes c).isSome = true → (docs c).isSome = true) :
    ∀ (N n : Nat), n ≤ N → ∀ v b t s, encObj env (enc env n) v = .ok (⟨b, t⟩, s) → ∀ c, storeObj false env.plat docs (N + 1) c v = some b
  | N, n, hn, v, b, t, s, h, c => by
    have hW : ObjInv env N (storeObj false env.plat docs N) := by
      intro m hm id c v b t h c'
      cases m with
      | zero => cases h
      | succ m =>
        obtain ⟨N, rfl⟩ : ∃ N', N = N' + 1 := ⟨N - 1, by omega⟩
        simp only [enc] at h
        obtain ⟨⟨⟨b', t'⟩, s'⟩, h1, h⟩ := Out.bind_ok' h
        dsimp only at h
        split at h
        · cases h
        · have := obj_inv hd hall N m (by omega) v b' t' s' h1 c'
          cases h
          exact this
    unfold encObj at h
    split at h
    · rename_i cls own attrs
      obtain ⟨⟨ci, ser⟩, h1, h⟩ := Out.bind_ok' h
      obtain ⟨⟨s', q⟩, h2, h⟩ := Out.bind_ok' h
      obtain ⟨vals, h3, h⟩ := Out.bind_ok' h
      obtain ⟨⟨b', t'⟩, h4, h⟩ := Out.bind_ok' h
      have e : b' = b := by cases h; rfl
      clear h
      subst e
      have h1 := ofE_inv h1
      have h2 := ofE_inv h2
      have h3 := ofE_inv h3
      unfold objSer at h1
      cases hc : env.classes cls with
      | none => rw [hc] at h1; cases h1
      | some ci' =>
        obtain ⟨d, hdc⟩ := Option.isSome_iff_exists.1 (hall cls (by rw [hc]; rfl))
        obtain ⟨hg, o, ho, hdo⟩ := hd cls d hdc
        obtain ⟨ha, hs⟩ := documented_own hdo hg
        rw [hc] at ho
        cases ho
        rw [hc] at h1
        have hci : ci = o.info ∧ (match own with | none => .ok o.info.serializer | some b => o.info.serializer.withByteOrder b) = Except.ok ser := by
          cases own with
          | none => cases h1; exact ⟨rfl, rfl⟩
          | some b =>
            obtain ⟨s'', h5, h6⟩ := Except.bind_ok' h1
            cases h6
            exact ⟨rfl, h5⟩
        obtain ⟨rfl, hser⟩ := hci
        obtain ⟨ss, his, hm, hap, hsh⟩ := hs own ser hser
        rw [ha] at h3
        have hp := getAttrs_pick h3
        have hgl := whole_inv hn hm hap (fun x hx => (fieldsL_fieldOf his x hx).2) hsh h2 h4
        have hg' := hg
        simp only [ClassDoc.sound, Bool.and_eq_true, List.all_eq_true] at hg'
        have := fields_inv hW his hg'.1.1 (by rw [pick_count hp, ClassDoc.attrs, List.length_map]) hgl
        simp only [storeObj, hdc, hp, this]
    · cases h
termination_by N => N

/-- Each field holds what it stores. -/
theorem stored_fields {P : Platform} {attrs : List (Name × Val)} : ∀ {fs : List Field} {k : Nat} {vs : List Val} {b : Bytes},
    storeFields false P bo W p k fs vs = some b → pick attrs ((fs.filter (!·.isPad)).map Field.name) = some vs →
    ∀ a f, Field.value a f ∈ fs → ∃ v b', attrs.lookup a = some v ∧ f.store false P bo W p v = some b' ∧ ∃ x y, b = x ++ b' ++ y
  | [], k, vs, b, _, _, a, f, hm => by cases hm
  | g :: fs, k, vs, b, h, hp, a, f, hm => by
    cases g with
    | value a' f' =>
      cases vs with
      | nil => simp [storeFields] at h
      | cons v vs =>
        simp only [storeFields] at h
        split at h
        · rename_i b1 b2 e1 e2
          cases h
          simp only [List.filter_cons, Field.isPad, Bool.not_false, if_true, List.map_cons, Field.name, pick] at hp
          split at hp
          · rename_i v' vs' e3 e4
            cases hp
            rcases List.mem_cons.1 hm with hm | hm
            · cases hm
              exact ⟨v, b1, e3, e1, _, _, rfl⟩
            · obtain ⟨v', b', h1, h2, x, y, rfl⟩ := stored_fields e2 e4 a f hm
              exact ⟨v', b', h1, h2, List.replicate (gap bo k f'.basic) 0 ++ b1 ++ x, y, by simp⟩
          · cases hp
        · cases h
    | pad a' m =>
      simp only [storeFields] at h
      split at h
      · rename_i b2 e2
        cases h
        obtain ⟨v', b', h1, h2, x, y, rfl⟩ := stored_fields e2 (by simpa [Field.isPad] using hp) a f (by simpa using hm)
        exact ⟨v', b', h1, h2, List.replicate m 0 ++ x, y, by simp⟩
      · cases h
    | «when» a' c f' d =>
      cases vs with
      | nil => simp [storeFields] at h
      | cons v vs =>
        simp only [List.filter_cons, Field.isPad, Bool.not_false, if_true, List.map_cons, Field.name, pick] at hp
        split at hp
        · rename_i v' vs' e3 e4
          cases hp
          have hm : Field.value a f ∈ fs := by simpa using hm
          simp only [storeFields] at h
          split at h
          · split at h
            · split at h
              · rename_i b1 b2 e1 e2
                cases h
                obtain ⟨v', b', h1, h2, x, y, rfl⟩ := stored_fields e2 e4 a f hm
                exact ⟨v', b', h1, h2, b1 ++ x, y, by simp⟩
              · cases h
            · exact stored_fields h e4 a f hm
            · cases h
          · cases h
        · cases hp

theorem pack_enc {n : Nat} {v : Val} {st st' : St} {b : Bytes} (h : Obj.pack env n v st = .ok b st') (hc : Calm env v.nodes) :
    ∃ t s, encObj env (enc env n) v = .ok (⟨b, t⟩, s) := by
  have h1 := objPack_rel (env := env) (pack_rel env n) v st
  have h2 := encObj_quiet (enc_quiet env n) v hc
  obtain ⟨r, s', h3, h4⟩ := M.bind_ok h
  cases h4
  cases he : encObj env (enc env n) v with
  | stuck => exact absurd he h2.1
  | err e =>
    rw [he] at h1
    obtain ⟨_, h1, _⟩ := h1
    rw [h3] at h1; cases h1
  | ok r =>
    obtain ⟨⟨b', t⟩, s⟩ := r
    rw [he] at h1
    obtain ⟨⟨b1, x1⟩, s1, h1, p1, _⟩ := h1
    rw [h3] at h1
    cases h1
    cases p1
    exact ⟨t, s, rfl⟩

end Verif
