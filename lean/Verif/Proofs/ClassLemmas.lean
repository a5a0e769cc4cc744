import Verif.Spec.Classes
import Verif.Proofs.AnonLemmas
/-
Helper lemmas: dictionaries, the hints of a class, and what `createClass` consists of.
-/
namespace Verif
open Spec

/-! ### Dictionaries -/

def Dict.keys (d : Dict α) : List Name := d.map (·.1)

/-- Adding a name at the end unless it is there. -/
def addName (seen : List Name) (a : Name) : List Name := if a ∈ seen then seen else seen ++ [a]

theorem keys_set (d : Dict α) (k : Name) (v : α) : (d.set k v).keys = addName d.keys k := by
  induction d with
  | nil => simp [Dict.set, Dict.keys, addName]
  | cons kv d ih =>
    obtain ⟨k', v'⟩ := kv
    rw [Dict.set]
    by_cases h : k' = k
    · subst h
      simp [Dict.keys, addName]
    · rw [if_neg h]
      simp only [Dict.keys, addName, List.map_cons, List.mem_cons] at ih ⊢
      rw [ih]
      by_cases hm : k ∈ List.map (·.1) d
      · simp [hm]
      · have : ¬ k = k' := fun e => h e.symm
        simp [hm, this]

theorem get_set (d : Dict α) (k a : Name) (v : α) : (d.set k v).get a = if k = a then some v else d.get a := by
  induction d with
  | nil =>
    by_cases h : k = a
    · subst h; simp [Dict.set, Dict.get]
    · simp [Dict.set, Dict.get, h, List.find?]
  | cons kv d ih =>
    obtain ⟨k', v'⟩ := kv
    rw [Dict.set]
    by_cases h : k' = k
    · subst h
      rw [if_pos rfl]
      by_cases ha : k' = a
      · subst ha; simp [Dict.get]
      · have : (k' == a) = false := by simpa using ha
        simp [Dict.get, List.find?, this, ha]
    · rw [if_neg h]
      by_cases ha : k' = a
      · subst ha
        have hk : ¬ k = k' := fun e => h e.symm
        simp [Dict.get, hk]
      · have h1 : (k' == a) = false := by simpa using ha
        have : Dict.get ((k', v') :: Dict.set d k v) a = Dict.get (Dict.set d k v) a := by
          simp [Dict.get, List.find?, h1]
        rw [this, ih]
        have : Dict.get ((k', v') :: d) a = Dict.get d a := by
          simp [Dict.get, List.find?, h1]
        rw [this]

theorem keys_update (d e : Dict α) : (d.update e).keys = e.keys.foldl addName d.keys := by
  unfold Dict.update
  induction e generalizing d with
  | nil => rfl
  | cons kv e ih =>
    rw [List.foldl_cons, ih, keys_set]
    rfl

theorem get_update (d e : Dict α) (a : Name) :
    (d.update e).get a = e.foldl (fun o kv => if kv.1 = a then some kv.2 else o) (d.get a) := by
  unfold Dict.update
  induction e generalizing d with
  | nil => rfl
  | cons kv e ih =>
    rw [List.foldl_cons, ih, get_set]
    rfl

theorem nodup_addName {l : List Name} (h : l.Nodup) (a : Name) : (addName l a).Nodup := by
  unfold addName
  split
  · exact h
  · rename_i hn
    rw [List.nodup_append]
    refine ⟨h, by simp, ?_⟩
    intro x hx y hy
    simp only [List.mem_singleton] at hy
    subst hy
    exact fun e => hn (e ▸ hx)

theorem nodup_foldl {l : List Name} (h : l.Nodup) (as : List Name) : (as.foldl addName l).Nodup := by
  induction as generalizing l with
  | nil => exact h
  | cons a as ih => exact ih (nodup_addName h a)

theorem mem_addName (l : List Name) (a b : Name) : b ∈ addName l a ↔ b ∈ l ∨ b = a := by
  unfold addName
  split
  · rename_i h
    constructor
    · exact .inl
    · rintro (h' | rfl)
      · exact h'
      · exact h
  · simp

theorem mem_foldl (l as : List Name) (b : Name) : b ∈ as.foldl addName l ↔ b ∈ l ∨ b ∈ as := by
  induction as generalizing l with
  | nil => simp
  | cons a as ih => rw [List.foldl_cons, ih, mem_addName, List.mem_cons, or_assoc]

theorem firsts_eq (names : List Name) : firsts names = names.foldl addName [] := rfl

theorem mem_firsts (names : List Name) (a : Name) : a ∈ firsts names ↔ a ∈ names := by
  rw [firsts_eq, mem_foldl]; simp

theorem nodup_firsts (names : List Name) : (firsts names).Nodup := nodup_foldl (by simp) names

/-- Adding names in order is appending those that are new. -/
theorem foldl_addName (l as : List Name) : as.foldl addName l = l ++ (firsts as).filter (fun a => !decide (a ∈ l)) := by
  suffices ∀ (as : List Name) (m : List Name), (∀ x ∈ m, x ∉ l) →
      as.foldl addName (l ++ m) = l ++ (as.foldl addName m).filter (fun a => !decide (a ∈ l)) by
    have := this as [] (by simp)
    simpa [firsts_eq] using this
  intro as
  induction as with
  | nil =>
    intro m hm
    simp only [List.foldl_nil]
    congr 1
    rw [List.filter_eq_self.2]
    intro x hx
    simpa using hm x hx
  | cons a as ih =>
    intro m hm
    rw [List.foldl_cons, List.foldl_cons]
    by_cases hl : a ∈ l
    · have e : addName (l ++ m) a = l ++ m := by simp [addName, hl]
      rw [e, ih m hm]
      congr 1
      have key : ∀ (as p q : List Name), p.filter (fun a => !decide (a ∈ l)) = q.filter (fun a => !decide (a ∈ l)) →
          (as.foldl addName p).filter (fun a => !decide (a ∈ l)) = (as.foldl addName q).filter (fun a => !decide (a ∈ l)) := by
        intro as
        induction as with
        | nil => intro p q h; exact h
        | cons b as ih2 =>
          intro p q h
          rw [List.foldl_cons, List.foldl_cons]
          apply ih2
          unfold addName
          have hmem : b ∉ l → (b ∈ p ↔ b ∈ q) := by
            intro hb
            have h1 : b ∈ p ↔ b ∈ p.filter (fun a => !decide (a ∈ l)) := by simp [hb]
            have h2 : b ∈ q ↔ b ∈ q.filter (fun a => !decide (a ∈ l)) := by simp [hb]
            rw [h1, h2, h]
          by_cases hb : b ∈ l
          · split <;> split <;> simp [hb, h]
          · by_cases hp : b ∈ p
            · rw [if_pos hp, if_pos ((hmem hb).1 hp), h]
            · rw [if_neg hp, if_neg (fun hq => hp ((hmem hb).2 hq))]
              simp [h]
      apply key
      unfold addName
      split
      · rfl
      · simp [hl]
    · by_cases hm' : a ∈ m
      · have e1 : addName (l ++ m) a = l ++ m := by simp [addName, hm']
        have e2 : addName m a = m := by simp [addName, hm']
        rw [e1, e2, ih m hm]
      · have e1 : addName (l ++ m) a = l ++ (m ++ [a]) := by simp [addName, hm', hl]
        have e2 : addName m a = m ++ [a] := by simp [addName, hm']
        rw [e1, e2]
        apply ih
        intro x hx
        rcases List.mem_append.1 hx with hx | hx
        · exact hm x hx
        · simp only [List.mem_singleton] at hx
          subst hx
          exact hl

theorem firsts_append (as bs : List Name) : firsts (as ++ bs) = firsts as ++ (firsts bs).filter (fun a => !decide (a ∈ as)) := by
  have e : firsts (as ++ bs) = bs.foldl addName (firsts as) := by rw [firsts_eq, List.foldl_append]; rfl
  rw [e, foldl_addName]
  congr 1
  apply List.filter_congr
  intro x _
  simp [mem_firsts]

theorem firsts_nodup {as : List Name} (h : as.Nodup) : firsts as = as := by
  suffices ∀ (as l : List Name), (l ++ as).Nodup → as.foldl addName l = l ++ as by simpa [firsts_eq] using this as [] (by simpa using h)
  intro as
  induction as with
  | nil => simp
  | cons a as ih =>
    intro l hl
    have ha : a ∉ l := by
      intro hm
      rw [List.nodup_append] at hl
      exact hl.2.2 a hm a (by simp) rfl
    rw [List.foldl_cons]
    have : addName l a = l ++ [a] := by simp [addName, ha]
    rw [this, ih]
    · simp
    · simpa using hl

/-- A dictionary is determined by its keys and what they give. -/
theorem dict_eq {d : Dict α} (hd : (Dict.keys d).Nodup) (f : Name → α) (hf : ∀ a ∈ (Dict.keys d), (Dict.get d a) = some (f a)) :
    d = (Dict.keys d).map fun a => (a, f a) := by
  induction d with
  | nil => rfl
  | cons kv d ih =>
    obtain ⟨k, v⟩ := kv
    have hd' : k ∉ (Dict.keys d) ∧ (Dict.keys d).Nodup := by simpa [Dict.keys] using hd
    have h1 := hf k (by simp [Dict.keys])
    have hv : v = f k := by simpa [Dict.get] using h1
    have h2 : ∀ a ∈ (Dict.keys d), (Dict.get d a) = some (f a) := by
      intro a ha
      have hne : k ≠ a := fun e => hd'.1 (e ▸ ha)
      have := hf a (by simpa [Dict.keys] using Or.inr ha)
      have e : Dict.get ((k, v) :: d) a = Dict.get d a := by
        have : (k == a) = false := by simpa using hne
        simp [Dict.get, List.find?, this]
      rw [e] at this
      exact this
    have := ih hd'.2 h2
    show (k, v) :: d = (k, f k) :: (Dict.keys d).map fun a => (a, f a)
    rw [← hv, ← this]

/-! ### The hints of a class -/

theorem typeHints_flat (mro : List (Dict Hint)) :
    typeHints mro = Dict.update [] (mro.flatten.map fun kv => (kv.1, evalHint kv.2)) := by
  unfold typeHints
  have : ∀ (d : Dict Hint), mro.foldl (fun d anns => d.update (anns.map fun kv => (kv.1, evalHint kv.2))) d =
      d.update (mro.flatten.map fun kv => (kv.1, evalHint kv.2)) := by
    induction mro with
    | nil => intro d; rfl
    | cons a mro ih =>
      intro d
      rw [List.foldl_cons, ih, List.flatten_cons, List.map_append]
      unfold Dict.update
      rw [List.foldl_append]
  exact this []

theorem typeHints_keys (mro : List (Dict Hint)) : (typeHints mro).keys = firsts (mro.flatten.map (·.1)) := by
  rw [typeHints_flat, keys_update, firsts_eq]
  have : Dict.keys (mro.flatten.map fun kv => (kv.1, evalHint kv.2)) = mro.flatten.map (·.1) := by
    simp [Dict.keys, List.map_map, Function.comp_def]
  rw [this]
  rfl

theorem typeHints_get (mro : List (Dict Hint)) {a : Name} (ha : a ∈ mro.flatten.map (·.1)) :
    (typeHints mro).get a = some (evalHint (lastDecl mro.flatten a)) := by
  rw [typeHints_flat, get_update]
  unfold lastDecl
  generalize mro.flatten = ds at ha
  suffices ∀ (ds : List (Name × Hint)) (o : Option Hint) (h : Hint), (a ∈ ds.map (·.1) ∨ o = some (evalHint h)) →
      (ds.map fun kv => (kv.1, evalHint kv.2)).foldl (fun o kv => if kv.1 = a then some kv.2 else o) o =
      some (evalHint (ds.foldl (fun h d => if d.1 = a then d.2 else h) h)) from this ds _ _ (.inl ha)
  intro ds
  induction ds with
  | nil =>
    intro o h hh
    rcases hh with hh | hh
    · simp at hh
    · exact hh
  | cons d ds ih =>
    intro o h hh
    rw [List.map_cons, List.foldl_cons, List.foldl_cons]
    apply ih
    by_cases hd : d.1 = a
    · right; simp [hd]
    · rcases hh with hh | hh
      · left
        simp only [List.map_cons, List.mem_cons] at hh
        rcases hh with hh | hh
        · exact absurd hh.symm hd
        · exact hh
      · right; simp [hd, hh]

/-- The hints looked at when a class is made. -/
theorem typeHints_eq (mro : List (Dict Hint)) :
    typeHints mro = (firsts (mro.flatten.map (·.1))).map fun a => (a, evalHint (lastDecl mro.flatten a)) := by
  rw [← typeHints_keys]
  apply dict_eq
  · rw [typeHints_keys]; exact nodup_firsts _
  · intro a ha
    rw [typeHints_keys, mem_firsts] at ha
    exact typeHints_get mro ha

/-! ### What `createClass` consists of -/

variable {ctx : HintCtx}

/-- The steps of making a class. -/
structure Made (ctx : HintCtx) (n : Nat) (id : SerId) (w : World) (d : ClassDecl) (o : ClassObj) : Prop where
  fields : ∃ fields s0, filterHints ctx n id 0 (typeHints o.mro) = .ok fields ∧ sumSers ctx.clsFinal id (fields.map (·.2)) = .ok s0 ∧
    s0.withByteOrder d.byteOrder = .ok o.info.serializer ∧ o.info.attrs = initVars fields
  byteOrder : o.info.byteOrder = d.byteOrder
  postInit : o.info.postInit = d.postInit
  chain : ∃ body, metaDict ctx n id d.padStart [] d.anns = .ok body ∧
    ((structuredBase d.bases = .ok Option.none ∧ o.mro = [structuredAnns] ++ [body] ∧ o.anns = body ∧
        o.origBases = origBasesOf d.bases []) ∨
      ∃ b ob, structuredBase d.bases = .ok (some b) ∧ w b = some ob ∧ (d.override = true ∨ ob.info.byteOrder = d.byteOrder) ∧
        o.mro = ob.mro ++ [o.anns] ∧ o.origBases = origBasesOf d.bases ob.origBases ∧
        ((origArgs o.origBases b = Option.none ∧ o.anns = body) ∨
          ∃ args hints, origArgs o.origBases b = some args ∧ specHints ctx n id w n b args = .ok hints ∧ o.anns = body.update hints))

theorem createClass_made {n : Nat} {id : SerId} {w : World} {d : ClassDecl} {o : ClassObj} (h : createClass ctx n id w d = .ok o) :
    Made ctx n id w d o := by
  unfold createClass at h
  obtain ⟨body, hb, h⟩ := Except.bind_ok' h
  obtain ⟨base, hs, h⟩ := Except.bind_ok' h
  have fin : ∀ {anns : Dict Hint} {mro : List (Dict Hint)} {orig : List BaseRef} {o : ClassObj},
      (do
        let mro := mro ++ [anns]
        let fields ← filterHints ctx n id 0 (typeHints mro)
        let s ← sumSers ctx.clsFinal id (fields.map (·.2))
        let s ← s.withByteOrder d.byteOrder
        .ok { anns, mro, origBases := orig
              info := { attrs := initVars fields, serializer := s, byteOrder := d.byteOrder, postInit := d.postInit } } : Except Err ClassObj)
        = .ok o →
      (∃ fields s0, filterHints ctx n id 0 (typeHints o.mro) = .ok fields ∧ sumSers ctx.clsFinal id (fields.map (·.2)) = .ok s0 ∧
        s0.withByteOrder d.byteOrder = .ok o.info.serializer ∧ o.info.attrs = initVars fields) ∧ o.info.byteOrder = d.byteOrder ∧
      o.info.postInit = d.postInit ∧ o.mro = mro ++ [anns] ∧ o.anns = anns ∧ o.origBases = orig := by
    intro anns mro orig o h
    obtain ⟨fields, h1, h⟩ := Except.bind_ok' h
    obtain ⟨s0, h2, h⟩ := Except.bind_ok' h
    obtain ⟨s, h3, h⟩ := Except.bind_ok' h
    cases h
    exact ⟨⟨fields, s0, h1, h2, h3, rfl⟩, rfl, rfl, rfl, rfl, rfl⟩
  cases base with
  | none =>
    obtain ⟨h1, h2, h3, h4, h5, h6⟩ := fin h
    exact ⟨h1, h2, h3, body, hb, .inl ⟨hs, h4, h5, h6⟩⟩
  | some b =>
    simp only at h
    cases hw : w b with
    | none => rw [hw] at h; cases h
    | some ob =>
      rw [hw] at h
      simp only at h
      by_cases hc : ¬ d.override = true ∧ ob.info.byteOrder ≠ d.byteOrder
      · rw [if_pos hc] at h; cases h
      · rw [if_neg hc] at h
        have hc' : d.override = true ∨ ob.info.byteOrder = d.byteOrder := by
          by_cases h1 : d.override = true
          · exact .inl h1
          · right
            apply Classical.byContradiction
            intro h2
            exact hc ⟨h1, h2⟩
        cases ha : origArgs (origBasesOf d.bases ob.origBases) b with
        | none =>
          rw [ha] at h
          obtain ⟨h1, h2, h3, h4, h5, h6⟩ := fin h
          exact ⟨h1, h2, h3, body, hb, .inr ⟨b, ob, hs, hw, hc', by rw [h5]; exact h4, h6, .inl ⟨by rw [h6]; exact ha, h5⟩⟩⟩
        | some args =>
          rw [ha] at h
          simp only at h
          obtain ⟨hints, hh, h⟩ := Except.bind_ok' h
          obtain ⟨h1, h2, h3, h4, h5, h6⟩ := fin h
          exact ⟨h1, h2, h3, body, hb, .inr ⟨b, ob, hs, hw, hc', by rw [h5]; exact h4, h6, .inr ⟨args, hints, by rw [h6]; exact ha, hh, h5⟩⟩⟩

/-- What `filter_typehints` leaves. -/
theorem filterHints_spec {n : Nat} {id : SerId} {j : Nat} {hints : Dict Hint} {fields : Dict Ser}
    (h : filterHints ctx n id j hints = .ok fields) :
    ∃ rs : List (Option Ser), rs.length = hints.length ∧
      (∀ k (hk : k < hints.length), ∃ i r, rs[k]? = some r ∧ transformTypehint ctx n i (hints[k]).2 = .ok r) ∧
      fields = (hints.zip rs).filterMap (fun p => p.2.map fun s => (p.1.1, s)) := by
  induction hints generalizing j fields with
  | nil => cases h; exact ⟨[], rfl, fun k hk => absurd hk (by simp), rfl⟩
  | cons x hints ih =>
    obtain ⟨a, hh⟩ := x
    rw [filterHints] at h
    obtain ⟨t, h1, h⟩ := Except.bind_ok' h
    obtain ⟨ts, h2, h⟩ := Except.bind_ok' h
    obtain ⟨rs, l, hr, he⟩ := ih h2
    refine ⟨t :: rs, by simp [l], ?_, ?_⟩
    · intro k hk
      cases k with
      | zero => exact ⟨_, t, rfl, h1⟩
      | succ k => exact hr k (by simpa using hk)
    · cases t with
      | none => cases h; simpa using he
      | some s => cases h; simp [he]

end Verif
