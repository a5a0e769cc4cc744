import Verif.Proofs.FormatWrite
import Verif.Props.Classes
/-
Lemmas for the documented byte format: classes.
-/
namespace Verif
open Spec Sem

variable {ctx : HintCtx} {N n : Nat} {id : SerId} {env : Env}

theorem is_notPad {cf : ClassId → Bool} {f : Fmt} {s : Ser} {bo : ByteOrder} (h : f.Is cf bo s) : s.isPad = false := by
  cases s
  case struct st =>
    obtain ⟨t, h1, h2⟩ := is_basic_toks (is_struct h) h
    simp [Ser.isPad, h1.numValues h2]
  all_goals rfl

theorem field_notPad {cf : ClassId → Bool} {f : Field} {s : Ser} {bo : ByteOrder} (h : f.Is cf bo s) (hf : f.isPad = false) : s.isPad = false := by
  cases f with
  | value _ f => exact is_notPad (f := f) h
  | pad => cases hf
  | «when» => obtain ⟨y, rfl, _⟩ := h; rfl

theorem unserialized_none {h : Hint} {t : Option Ser} (hc : unserialized h = true) (e : transformTypehint ctx n id h = .ok t) : t = none := by
  cases h with
  | classVar => cases e; rfl
  | plain =>
    cases n with
    | zero => cases e
    | succ n => cases e; rfl
  | _ => cases hc

/-- The serializers of the declarations are those of the documentation. -/
theorem filterHints_is {H : Name → Hint} {bo : ByteOrder} : ∀ (as : List Name) (fs : List Field) (j : Nat) (fields : Dict Ser),
    as.filter (fun a => !unserialized (H a)) = fs.map Field.name → (∀ f ∈ fs, f.hint ctx N = .ok (H f.name)) →
    (∀ f ∈ fs, f.good bo = true) → Calls ctx (fs.flatMap Field.calls) → filterHints ctx n id j (as.map fun a => (a, H a)) = .ok fields →
    fields.map (·.1) = fs.map Field.name ∧ Field.IsL ctx.clsFinal .default fs (fields.map (·.2)) ∧
      (fields.filter (!·.2.isPad)).map (·.1) = (fs.filter (!·.isPad)).map Field.name
  | [], fs, j, fields, h1, _, _, _, h => by
    cases h
    cases fs with
    | nil => exact ⟨rfl, rfl, rfl⟩
    | cons => cases h1
  | a :: as, fs, j, fields, h1, h2, hg, hcl, h => by
    simp only [List.map_cons, filterHints] at h
    obtain ⟨t, e1, h⟩ := Except.bind_ok' h
    obtain ⟨ts, e2, h⟩ := Except.bind_ok' h
    by_cases hc : unserialized (H a) = true
    · have : t = none := unserialized_none hc e1
      subst this
      cases h
      rw [List.filter_cons_of_neg (by simp [hc])] at h1
      exact filterHints_is as fs (j + 1) _ h1 h2 hg hcl e2
    · rw [List.filter_cons_of_pos (by simp [hc])] at h1
      cases fs with
      | nil => cases h1
      | cons f fs =>
        simp only [List.map_cons, List.cons.injEq] at h1
        obtain ⟨rfl, h1⟩ := h1
        have e3 : ∃ r, transform ctx n ((j + 7) :: id) (H f.name) = .ok r ∧ t = r.ser? := by
          cases hh : H f.name <;> rw [hh] at hc e1 <;> first
            | exact absurd rfl hc
            | (obtain ⟨r, k1, k2⟩ := Except.bind_ok' e1; cases k2; exact ⟨r, k1, rfl⟩)
        obtain ⟨r, e3, rfl⟩ := e3
        obtain ⟨s, rfl, hs, hp⟩ := field_is (hg f (by simp)) (hcl.mem fun p hp => by simp [hp]) (h2 f (by simp)) e3
        cases h
        obtain ⟨i1, i2, i3⟩ := filterHints_is as fs (j + 1) ts h1 (fun f' hm => h2 f' (by simp [hm])) (fun f' hm => hg f' (by simp [hm]))
          (hcl.mem fun p hp => by rw [List.flatMap_cons]; exact List.mem_append_right _ hp) e2
        refine ⟨by simp [i1], ⟨s, ts.map (·.2), rfl, hs, i2⟩, ?_⟩
        have : s.isPad = f.isPad := by
          cases hf : f.isPad with
          | true => exact hp hf
          | false => exact field_notPad hs hf
        cases hf : f.isPad <;> simp [this, hf, i3]

theorem fieldsL_wbo {cf : ClassId → Bool} {b0 bo : ByteOrder} : ∀ {fs : List Field} {ss ss' : List Ser}, Field.IsL cf b0 fs ss →
    Ser.withByteOrderList bo ss = .ok ss' → Field.IsL cf bo fs ss'
  | [], _, _, h, hw => by cases h; cases hw; rfl
  | f :: fs, _, _, h, hw => by
    obtain ⟨x, xs, rfl, h1, h2⟩ := h
    simp only [Ser.withByteOrderList] at hw
    obtain ⟨x', e1, hw⟩ := Except.bind_ok' hw
    obtain ⟨xs', e2, hw⟩ := Except.bind_ok' hw
    cases hw
    exact ⟨x', xs', rfl, fieldIs_wbo f h1 e1, fieldsL_wbo h2 e2⟩

theorem simple_wbo {s s' : Ser} {bo : ByteOrder} (sa : Simple s) (h : s.withByteOrder bo = .ok s') : Simple s' := by
  cases s <;> first | cases sa | skip
  case array i hdr item sl =>
    cases hdr <;> simp only [Ser.withByteOrder] at h
    · obtain ⟨_, _, h⟩ := Except.bind_ok' h; obtain ⟨_, _, h⟩ := Except.bind_ok' h; cases h; rfl
    · obtain ⟨_, _, h⟩ := Except.bind_ok' h; obtain ⟨_, _, h⟩ := Except.bind_ok' h
      obtain ⟨_, _, h⟩ := Except.bind_ok' h; cases h; rfl
  all_goals
    simp only [Ser.withByteOrder] at h
    first
    | (cases h; rfl)
    | (obtain ⟨_, _, h⟩ := Except.bind_ok' h; cases h; rfl)
    | (obtain ⟨_, _, h⟩ := Except.bind_ok' h; obtain ⟨_, _, h⟩ := Except.bind_ok' h; cases h; rfl)
    | (obtain ⟨_, _, h⟩ := Except.bind_ok' h; split at h <;> cases h; rfl)

theorem shape_wbo {s s' : Ser} {bo : ByteOrder} (hs : Simple s ∨ ∃ id xs, s = .compound id xs) (h : s.withByteOrder bo = .ok s') :
    Simple s' ∨ ∃ id xs, s' = .compound id xs := by
  rcases hs with hs | ⟨i, xs, rfl⟩
  · exact .inl (simple_wbo hs h)
  · right
    simp only [Ser.withByteOrder] at h
    obtain ⟨xs', q1, q2⟩ := Except.bind_ok' h
    unfold mkCompound at q2
    split at q2
    · cases q2
    · injection q2 with q2; exact ⟨_, _, q2.symm⟩

/-- What a documented class is like. -/
theorem documented_class {d : ClassDoc} {o : ClassObj} (h : Documented ctx N d o) (hg : d.good = true) :
    o.info.attrs = d.attrs ∧ d.attrs.Nodup ∧ ∃ ss, Field.IsL ctx.clsFinal d.byteOrder d.fields ss ∧
      Merge (SumIn d.byteOrder) ss (parts o.info.serializer) ∧ Apart (parts o.info.serializer) ∧
      (Simple o.info.serializer ∨ ∃ id xs, o.info.serializer = .compound id xs) := by
  obtain ⟨m, id, w, dec, hmk, hbo⟩ := h.made
  obtain ⟨fields, s0, h1, h2, h3, h4⟩ := (createClass_made hmk).fields
  simp only [ClassDoc.good, Bool.and_eq_true, List.all_eq_true] at hg
  obtain ⟨⟨hg1, _⟩, _⟩ := hg
  rw [typeHints_eq] at h1
  obtain ⟨e1, e2, e3⟩ := filterHints_is (H := fun a => evalHint (lastDecl o.decls a)) (bo := d.byteOrder) _ d.fields 0 fields h.names h.hints
    hg1 h.calls h1
  have hself : ∀ f ∈ fields, f.1 ≠ "self" := by
    intro f hf
    have : f.1 ∈ d.fields.map Field.name := by rw [← e1]; exact List.mem_map.2 ⟨f, hf, rfl⟩
    obtain ⟨g, hg, e⟩ := List.mem_map.1 this
    rw [← e]
    exact h.self g hg
  have hi : initVars fields = (fields.filter (!·.2.isPad)).map (·.1) := by
    unfold initVars
    congr 1
    refine List.filter_congr fun f hf => ?_
    simp [hself f hf]
  refine ⟨by rw [h4, hi, e3]; rfl, ?_, ?_⟩
  · have hnd : (d.fields.map Field.name).Nodup := by
      rw [← h.names]
      exact List.filter_sublist.nodup (nodup_firsts _)
    exact (List.Sublist.map Field.name List.filter_sublist).nodup hnd
  have hfo : ∀ x ∈ fields.map (·.2), FieldOf .default x := fun x hx => (fieldsL_fieldOf e2 x hx).1
  obtain ⟨mm, hst⟩ := fields_sumIn hfo h2
  rw [hbo] at h3
  obtain ⟨ss, k1, k2⟩ := merge_wbo mm (wbo_parts hst.flat h3)
  have k3 := fieldsL_wbo e2 k1
  refine ⟨ss, k3, k2, apart_wbo (wbo_parts hst.flat h3) (fields_apart hfo h2), ?_⟩
  · exact shape_wbo hst.flat.notSpecial h3

theorem pad_pack {bo : ByteOrder} {k : Nat} {st : StructSer} (h : BasicSer bo ⟨k, .pad⟩ st) (P : Platform) :
    st.pack P [] = .ok (List.replicate k 0) ∧ st.numValues = 0 := by
  have hn : st.numValues = 0 := by simp [StructSer.numValues, h.toks, numVals, Tok.numVals]
  refine ⟨?_, hn⟩
  have hz : numVals [⟨k, .pad⟩] = 0 := by simp [numVals, Tok.numVals]
  simp only [StructSer.pack, structPack, h.toks, hz, List.length_nil, if_true]
  simp [packToks, packTok, pad_align, padLen_one, bind, Except.bind]

variable {cf : ClassId → Bool} {W : ClassId → Val → Option Bytes} {bo : ByteOrder}

/-- The fields of a class write what is documented. -/
theorem fields_writes (hW : ObjWrites env W) (p : PObj) : ∀ {fs : List Field} {ss : List Ser} {k : Nat} {vs : List Val} {b : Bytes},
    Field.IsL cf bo fs ss → (∀ f ∈ fs, f.good bo = true) → writeFields env.plat bo W p k fs vs = some b →
    vs.length = (ss.map Ser.numValues).sum ∧ ∃ K, ∀ n ≥ K, GL env n p k ss vs b
  | [], _, k, vs, b, h, _, hv => by
    cases h
    cases vs with
    | nil => cases hv; exact ⟨rfl, 0, fun n _ => rfl⟩
    | cons => cases hv
  | f :: fs, _, k, vs, b, h, hg, hv => by
    obtain ⟨x, xs, rfl, h1, h2⟩ := h
    have hg' : ∀ f ∈ fs, f.good bo = true := fun g h => hg g (by simp [h])
    have hgf := hg f (by simp)
    cases f with
    | value a f =>
      have hw := is_writes hW f bo x hgf h1
      cases vs with
      | nil => cases hv
      | cons v vs =>
        simp only [writeFields] at hv
        split at hv
        · rename_i b1 b2 e1 e2
          cases hv
          obtain ⟨hl, K2, hK2⟩ := fields_writes hW p h2 hg' e2
          exact ⟨by simp [hl, hw.one]; omega, value_gl h1 hw e1 hK2⟩
        · cases hv
    | pad a m =>
      obtain ⟨st, rfl, hb⟩ := h1
      obtain ⟨hp, hn0⟩ := pad_pack hb env.plat
      simp only [writeFields] at hv
      split at hv
      · rename_i b2 e2
        cases hv
        obtain ⟨hl, K2, hK2⟩ := fields_writes hW p h2 hg' e2
        refine ⟨by simp [hl, Ser.numValues, hn0], K2, fun n hn => ⟨_, b2, ?_, ?_, rfl⟩⟩
        · rw [hn0]; exact pad_packAt k hb hp
        · rw [hn0, List.length_replicate]; exact hK2 n hn
      · cases hv
    | «when» a c f d =>
      obtain ⟨y, rfl, h1⟩ := h1
      simp only [Field.good, Bool.and_eq_true] at hgf
      have hw := is_writes hW f bo y hgf.1 h1
      have he := hw.same (plain_overrides hgf.2 h1) p
      have n1 : (Ser.cond y c [d]).numValues = 1 := hw.one
      cases vs with
      | nil => cases hv
      | cons v vs =>
        simp only [writeFields] at hv
        split at hv
        · rename_i hc
          have hq : pre (.cond y c [d]) p = .ok (y, none) := by simp only [pre, hc]; rfl
          split at hv
          · rename_i b1 b2 e1 e2
            cases hv
            obtain ⟨hl, K2, hK2⟩ := fields_writes hW p h2 hg' e2
            obtain ⟨K1, hK1⟩ := he.enc v b1 e1
            refine ⟨by simp [hl, n1]; omega, max K1 K2, fun n hn => GL.part k (by nofun) ⟨y, none, hq, he.sized, by rw [he.one, n1], ?_⟩ ?_⟩
            · rw [n1]; exact hK1 n (by omega)
            · rw [n1]; exact hK2 n (by omega)
          · cases hv
        · rename_i hc
          have hq : pre (.cond y c [d]) p = .ok (.skip [d], none) := by simp only [pre, hc]; rfl
          obtain ⟨hl, K2, hK2⟩ := fields_writes hW p h2 hg' hv
          refine ⟨by simp [hl, n1]; omega, K2 + 1, fun n hn =>
            GL.part (b1 := []) (b2 := b) k (by nofun) ⟨.skip [d], none, hq, rfl, by rw [n1]; rfl, ?_⟩ ?_⟩
          · obtain ⟨m, rfl⟩ : ∃ m, n = m + 1 := ⟨n - 1, by omega⟩
            exact .ok
          · rw [n1]; exact hK2 n (by omega)
        · cases hv

/-- A documented class can be a field of another one. -/
theorem class_sized (hW : ObjWrites env W) {d : ClassDoc} {s : Ser} {ss : List Ser} (hg : d.good = true) (h : Field.IsL cf d.byteOrder d.fields ss)
    (hm : Merge (SumIn d.byteOrder) ss (parts s)) (hs : Simple s ∨ ∃ id xs, s = .compound id xs) : s.sized = true := by
  rcases hs with hs | ⟨_, _, rfl⟩
  · rcases parts_simple hs with ⟨_, rfl⟩ | hps
    · rfl
    · by_cases hstr : ∃ st, s = .struct st
      · obtain ⟨st, rfl⟩ := hstr; rfl
      · have := merge_lone hm hps (fun st e => hstr ⟨st, e⟩) (fun x hx => (fieldsL_fieldOf h x hx).2)
        subst this
        simp only [ClassDoc.good, Bool.and_eq_true, List.all_eq_true] at hg
        obtain ⟨⟨hg, _⟩, hlone⟩ := hg
        generalize d.fields = fs at h hlone hg
        match fs, h, hlone, hg with
        | f :: fs, h, hlone, hg =>
          obtain ⟨x, xs, e, h1, h2⟩ := h
          cases e
          have : fs = [] := by
            cases fs with
            | nil => rfl
            | cons => obtain ⟨_, _, e, _⟩ := h2; cases e
          subst this
          have hgf := hg f (by simp)
          cases f with
          | value a f =>
            rcases (is_writes hW f d.byteOrder s hgf h1).szd with h3 | ⟨id, rfl⟩
            · exact h3
            · have := is_selfT h1
              subst this
              cases hlone
          | pad => obtain ⟨st, rfl, _⟩ := h1; rfl
          | «when» => cases hlone
  · rfl

theorem getAttr_lookup {attrs : List (Name × Val)} {a : Name} : getAttr? attrs a = attrs.lookup a := by
  induction attrs with
  | nil => rfl
  | cons x attrs ih =>
    obtain ⟨b, v⟩ := x
    unfold getAttr? at ih ⊢
    by_cases h : b = a
    · subst h; simp [List.lookup]
    · have : (a == b) = false := by simpa using fun e => h e.symm
      simp [List.lookup, h, this, ih]

theorem pick_getAttrs {attrs : List (Name × Val)} : ∀ {as : List Name} {vs : List Val}, pick attrs as = some vs → getAttrs attrs as = .ok vs
  | [], _, h => by cases h; rfl
  | a :: as, vs, h => by
    simp only [pick] at h
    split at h
    · rename_i v vs' h1 h2
      cases h
      have : getAttr? attrs a = some v := getAttr_lookup.trans h1
      simp only [getAttrs, this, pick_getAttrs h2]
      rfl
    · cases h

theorem obj_writes {docs : ClassId → Option ClassDoc} (hd : Documents env ctx N docs) : ∀ (k : Nat) (c : ClassId) (v : Val) (b : Bytes),
    writeObj env.plat docs k c v = some b → ∃ K, ∀ n ≥ K,
      (∀ id c', Gives (enc env n (.structured id c') Option.none [v]) b) ∧
      (encObj env (enc env n) v = .stuck ∨ ∃ t s, encObj env (enc env n) v = .ok (⟨b, t⟩, s))
  | 0, c, v, b, h => by cases h
  | k + 1, c, v, b, h => by
    simp only [writeObj] at h
    split at h
    · rename_i c' attrs d hdc
      split at h
      · rename_i hc
        subst hc
        split at h
        · rename_i vs hp
          obtain ⟨hg, o, ho, hdo⟩ := hd c' d hdc
          obtain ⟨ha, _, ss, his, hm, hap, hsh⟩ := documented_class hdo hg
          have hg' := hg
          simp only [ClassDoc.good, Bool.and_eq_true, List.all_eq_true] at hg'
          have hWk : ObjWrites env (writeObj env.plat docs k) := fun c v b hv => by
            obtain ⟨K, hK⟩ := obj_writes hd k c v b hv
            exact ⟨K, fun n hn => (hK n hn).1⟩
          obtain ⟨hl, K, hK⟩ := fields_writes hWk ⟨c', false, attrs⟩ his hg'.1.1 h
          obtain ⟨s', q, hs1, hs2⟩ := whole_enc hm hap (fun x hx => (fieldsL_fieldOf his x hx).2) hsh hl hK
          have hsz := class_sized hWk hg his hm hsh
          have key : ∀ n ≥ K + 2, (encObj env (enc env n) (.obj c' Option.none attrs) = .stuck ∨
              ∃ t, encObj env (enc env n) (.obj c' Option.none attrs) = .ok (⟨b, t⟩, o.info.serializer)) := by
            intro n hn
            simp only [encObj, objSer, ho, Out.ofE, Out.ok_bind, hs1, ha, pick_getAttrs hp]
            rcases hs2 n hn with h1 | ⟨t, h1⟩
            · rw [h1]; exact .inl rfl
            · rw [h1]; exact .inr ⟨_, rfl⟩
          refine ⟨K + 3, fun n hn => ⟨fun id _ => ?_, ?_⟩⟩
          · obtain ⟨m, rfl⟩ : ∃ m, n = m + 1 := ⟨n - 1, by omega⟩
            simp only [enc]
            rcases key m (by omega) with h1 | ⟨t, h1⟩
            · rw [h1]; exact .inl rfl
            · rw [h1]
              simp only [Out.ok_bind, hsz, not_true_eq_false, if_false]
              exact .ok
          · rcases key n (by omega) with h1 | ⟨t, h1⟩
            · exact .inl h1
            · exact .inr ⟨_, _, h1⟩
        · cases h
      · cases h
    · cases h

end Verif
