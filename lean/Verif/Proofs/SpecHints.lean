import Verif.Proofs.PadNames
import Verif.Proofs.GenericLemmas
/-
Helper lemmas: the hints of a specialized base class.
-/
namespace Verif
open Spec

variable {ctx : HintCtx} {n : Nat} {id : SerId} {w : World} {d : ClassDecl} {o ob : ClassObj}

/-- What becomes of an unwrapped hint. -/
def Becomes (ctx : HintCtx) (n : Nat) (m : TMap) (u x : Hint) : Prop :=
  (∃ t p, u = .tvar t ∧ m.find? (fun p => p.1 == t) = some p ∧ x = p.2) ∨ (u.isAlias = true ∧ resolve ctx n n m u = .ok x)

theorem ownSpecHints_sub {own : Dict Hint} {m : TMap} : ∀ {hs : Dict Hint} {r : Dict Hint}, ownSpecHints ctx n id own m hs = .ok r →
    ∀ a ∈ List.map (·.1) r, a ∈ List.map (·.1) hs
  | [], r, h => by cases h; simp
  | (name, hh) :: rest, r, h => by
    have fin : ∀ {ds : Dict Hint} {x : Hint}, ownSpecHints ctx n id own m rest = .ok ds →
        ∀ a ∈ List.map (·.1) ((name, x) :: ds), a ∈ List.map (·.1) ((name, hh) :: rest) := by
      intro ds x hds a ha
      rcases List.mem_cons.1 ha with rfl | ha
      · simp
      · exact List.mem_cons_of_mem _ (ownSpecHints_sub hds a ha)
    have fin' : ∀ {ds : Dict Hint}, ownSpecHints ctx n id own m rest = .ok ds →
        ∀ a ∈ List.map (·.1) ds, a ∈ List.map (·.1) ((name, hh) :: rest) :=
      fun hds a ha => List.mem_cons_of_mem _ (ownSpecHints_sub hds a ha)
    rw [ownSpecHints] at h
    split at h
    · obtain ⟨u, _, h⟩ := Except.bind_ok' h
      split at h
      · obtain ⟨ds, h1, h⟩ := Except.bind_ok' h
        split at h <;> cases h
        · exact fin h1
        · exact fin' h1
      · obtain ⟨v, _, h⟩ := Except.bind_ok' h
        obtain ⟨ds, h1, h⟩ := Except.bind_ok' h
        cases h
        exact fin h1
      · obtain ⟨v, _, h⟩ := Except.bind_ok' h
        obtain ⟨ds, h1, h⟩ := Except.bind_ok' h
        cases h
        exact fin h1
      · exact fin' h
    · exact fin' h

theorem ownSpecHints_get {own : Dict Hint} {m : TMap} {a : Name} {h u : Hint} (hown : Dict.mem own a = true)
    (hu : transformAlias ctx n id h = .ok u) (hk : (∃ t, u = .tvar t ∧ (m.find? (fun p => p.1 == t)).isSome = true) ∨ u.isAlias = true) :
    ∀ {hs r : Dict Hint}, (Dict.keys hs).Nodup → Dict.get hs a = some h → ownSpecHints ctx n id own m hs = .ok r →
      ∃ x, Becomes ctx n m u x ∧ a ∈ List.map (·.1) r ∧ lastDecl r a = x := by
  intro hs
  induction hs with
  | nil => intro r _ hg; cases hg
  | cons kv hs ih =>
    intro r hnd hg hr
    obtain ⟨name, h'⟩ := kv
    have hnd' : name ∉ List.map (·.1) hs ∧ (Dict.keys hs).Nodup := List.nodup_cons.1 hnd
    by_cases hna : name = a
    · subst hna
      have e : h' = h := by
        simp only [Dict.get, List.find?_cons, BEq.rfl, Option.map_some, Option.some.injEq] at hg
        exact hg
      subst e
      have fin : ∀ {ds : Dict Hint} {x : Hint}, ownSpecHints ctx n id own m hs = .ok ds →
          name ∈ List.map (·.1) ((name, x) :: ds) ∧ lastDecl ((name, x) :: ds) name = x := by
        intro ds x hds
        refine ⟨by simp, lastDecl_cons_last (b := (name, x)) fun hmem => ?_⟩
        exact hnd'.1 (ownSpecHints_sub hds _ hmem)
      simp only [ownSpecHints, hown, if_true, hu] at hr
      rcases hk with ⟨t, rfl, hsome⟩ | hk
      · obtain ⟨p, hp⟩ := Option.isSome_iff_exists.1 hsome
        simp only [okBind] at hr
        obtain ⟨ds, h1, hr⟩ := Except.bind_ok' hr
        rw [hp] at hr
        cases hr
        exact ⟨p.2, .inl ⟨t, p, rfl, hp, rfl⟩, fin h1⟩
      · cases u <;> try (cases hk; done)
        all_goals
          simp only [okBind] at hr
          obtain ⟨x, h0, hr⟩ := Except.bind_ok' hr
          obtain ⟨ds, h1, hr⟩ := Except.bind_ok' hr
          cases hr
          exact ⟨x, .inr ⟨rfl, h0⟩, fin h1⟩
    · have hg' : Dict.get hs a = some h := by
        simp only [Dict.get, List.find?_cons] at hg
        rw [show ((name == a) = false) by simpa using hna] at hg
        exact hg
      have skip : ∀ {ds : Dict Hint} {x : Hint}, (∃ x, Becomes ctx n m u x ∧ a ∈ List.map (·.1) ds ∧ lastDecl ds a = x) →
          ∃ y, Becomes ctx n m u y ∧ a ∈ List.map (·.1) ((name, x) :: ds) ∧ lastDecl ((name, x) :: ds) a = y := by
        intro ds x ⟨y, h1, h2, h3⟩
        exact ⟨y, h1, List.mem_cons_of_mem _ h2, by rw [lastDecl_cons_not hna]; exact h3⟩
      simp only [ownSpecHints] at hr
      split at hr
      · obtain ⟨v, _, hr⟩ := Except.bind_ok' hr
        split at hr
        · obtain ⟨ds, h1, hr⟩ := Except.bind_ok' hr
          split at hr
          · cases hr; exact skip (ih hnd'.2 hg' h1)
          · cases hr; exact ih hnd'.2 hg' h1
        · obtain ⟨x, _, hr⟩ := Except.bind_ok' hr
          obtain ⟨ds, h1, hr⟩ := Except.bind_ok' hr
          cases hr
          exact skip (ih hnd'.2 hg' h1)
        · obtain ⟨x, _, hr⟩ := Except.bind_ok' hr
          obtain ⟨ds, h1, hr⟩ := Except.bind_ok' hr
          cases hr
          exact skip (ih hnd'.2 hg' h1)
        · exact ih hnd'.2 hg' hr
      · exact ih hnd'.2 hg' hr

theorem superHints_nodup {f : ClassId → List Hint → Except Err (Dict Hint)} {m : TMap} : ∀ {l : List (ClassId × List Hint)} {r : Dict Hint},
    superHints f m l = .ok r → (Dict.keys r).Nodup := by
  intro l
  induction l with
  | nil => intro r h; cases h; simp [Dict.keys]
  | cons x l ih =>
    intro r h
    simp only [superHints] at h
    obtain ⟨_, _, h⟩ := Except.bind_ok' h
    obtain ⟨e, h1, h⟩ := Except.bind_ok' h
    cases h
    exact nodup_update (ih h1)

theorem nodup_set {dd : Dict Hint} (a : Name) (h : Hint) (hn : (Dict.keys dd).Nodup) : (Dict.keys (dd.set a h)).Nodup := by
  rw [keys_set]; exact nodup_addName hn a

theorem metaDict_nodup : ∀ {as : List (Name × Hint)} {k : Nat} {dd r : Dict Hint}, metaDict ctx n id k dd as = .ok r →
    (Dict.keys dd).Nodup → (Dict.keys r).Nodup := by
  intro as
  induction as with
  | nil => intro k dd r h hd; cases h; exact hd
  | cons x as ih =>
    intro k dd r h hd
    obtain ⟨name, hint⟩ := x
    simp only [metaDict] at h
    split at h
    · obtain ⟨b, _, h⟩ := Except.bind_ok' h
      split at h
      · exact ih h (nodup_set _ _ hd)
      · exact ih h (nodup_set _ _ hd)
    · exact ih h (nodup_set _ _ hd)

theorem dict_mem_of {dd : Dict Hint} {a : Name} (h : a ∈ List.map (·.1) dd) : Dict.mem dd a = true := by
  obtain ⟨kv, h1, h2⟩ := List.mem_map.1 h
  exact List.any_eq_true.2 ⟨kv, h1, by simpa using h2⟩

/-- The declared type of a field in a class derived from a specialized one. -/
theorem specialized_field (h : createClass ctx n id w d = .ok o) {b : ClassId} {args : List Hint} (hbase : structuredBase d.bases = .ok (some b))
    (hargs : origArgs d.bases b = some args) (horig : origBasesOf d.bases = fun _ => d.bases) (hb : w b = some ob) {a : Name} {u : Hint} {m : TMap}
    (ha : a ∈ ob.anns.map (·.1)) (hmro : ∃ pre, ob.mro = pre ++ [ob.anns])
    (hu : transformAlias ctx n id (evalHint (lastDecl ob.decls a)) = .ok u) (hm : m = (genericVars ob.origBases).zip args)
    (hk : (∃ t, u = .tvar t ∧ (m.find? (fun p => p.1 == t)).isSome = true) ∨ u.isAlias = true) :
    ∃ x, Becomes ctx n m u x ∧ a ∈ o.anns.map (·.1) ∧ lastDecl o.decls a = x := by
  obtain ⟨body, hbody, hc⟩ := (createClass_made h).chain
  rcases hc with ⟨h1, _⟩ | ⟨b', ob', h1, hw, _, h4, h5, h6⟩
  · rw [hbase] at h1; cases h1
  · rw [hbase] at h1
    cases h1
    rw [hb] at hw
    cases hw
    rw [horig] at h5
    rcases h6 with ⟨h7, _⟩ | ⟨args', hints, h7, h8, h9⟩
    · rw [h5, hargs] at h7; cases h7
    · rw [h5, hargs] at h7
      cases h7
      cases n with
      | zero => cases h8
      | succ n =>
        simp only [specHints, hb] at h8
        rw [← hm] at h8
        split at h8
        · cases h8
        · obtain ⟨own, h10, h8⟩ := Except.bind_ok' h8
          obtain ⟨sup, h11, h8⟩ := Except.bind_ok' h8
          cases h8
          have hmem : a ∈ ob.mro.flatten.map (·.1) := by
            obtain ⟨pre, hp⟩ := hmro
            rw [hp]
            simp only [List.flatten_append, List.flatten_cons, List.flatten_nil, List.append_nil, List.map_append, List.mem_append]
            exact .inr ha
          obtain ⟨x, hx, hx1, hx2⟩ := ownSpecHints_get (dict_mem_of ha) hu hk
            (by rw [typeHints_keys]; exact nodup_firsts _) (typeHints_get _ hmem) h10
          have g1 : (sup.update own).get a = some x := by rw [get_update_last, if_pos hx1, hx2]
          obtain ⟨g2, g3⟩ := lastDecl_nodup (nodup_update (superHints_nodup h11)) g1
          have g4 : o.anns.get a = some x := by rw [h9, get_update_last, if_pos g3, g2]
          have g5 : (Dict.keys o.anns).Nodup := by rw [h9]; exact nodup_update (metaDict_nodup hbody (by simp [Dict.keys]))
          obtain ⟨g6, g7⟩ := lastDecl_nodup g5 g4
          refine ⟨x, hx, g7, ?_⟩
          unfold ClassObj.decls
          rw [h4, List.flatten_append, lastDecl_append]
          simp only [List.flatten_cons, List.flatten_nil, List.append_nil]
          rw [if_pos g7, g6]

theorem specializes_one {b : ClassId} {args : List Hint} {bases : List BaseRef} (h : Specializes b args bases) : OneBase b bases := by
  obtain ⟨pre, post, h1, h2⟩ := h
  exact ⟨pre, _, post, h1, .inr ⟨args, rfl⟩, h2⟩

theorem genericSupers_none {bases : List BaseRef} (h : ∀ y ∈ bases, ∀ c', ¬ IsBase c' y) : genericSupers bases = [] := by
  unfold genericSupers
  rw [List.filterMap_eq_nil_iff]
  intro y hy
  cases y with
  | gen c args => exact absurd (.inr ⟨args, rfl⟩) (h _ hy c)
  | _ => rfl

theorem origArgs_specializes {b : ClassId} {args : List Hint} {bases : List BaseRef} (h : Specializes b args bases) :
    origArgs bases b = some args := by
  obtain ⟨pre, post, rfl, h2⟩ := h
  have e : genericSupers (pre ++ .gen b args :: post) = [(b, args)] := by
    have e1 := genericSupers_none fun y hy => h2 y (List.mem_append_left _ hy)
    have e2 := genericSupers_none fun y hy => h2 y (List.mem_append_right _ hy)
    unfold genericSupers at e1 e2 ⊢
    rw [List.filterMap_append, e1, List.filterMap_cons, e2]
    rfl
  unfold origArgs
  rw [e]
  simp

theorem origBases_specializes {b : ClassId} {args : List Hint} {bases : List BaseRef} (h : Specializes b args bases) :
    origBasesOf bases = fun _ => bases := by
  obtain ⟨pre, post, rfl, h2⟩ := h
  funext x
  unfold origBasesOf
  rw [if_pos]
  simp

theorem genericVars_has {ts : List TVar} {bases : List BaseRef} (h : HasVars ts bases) : genericVars bases = ts := by
  obtain ⟨pre, post, rfl, h2⟩ := h
  unfold genericVars
  rw [List.foldl_append, List.foldl_cons]
  have : ∀ (post : List BaseRef) (z : List TVar), (∀ ts', BaseRef.generic ts' ∉ post) →
      post.foldl (fun ts b => match b with | .generic ts' => ts' | _ => ts) z = z := by
    intro post
    induction post with
    | nil => intro z _; rfl
    | cons y post ih =>
      intro z hz
      rw [List.foldl_cons]
      have ih' := fun z => ih z fun ts' hm => hz ts' (List.mem_cons_of_mem _ hm)
      cases y with
      | generic ts' => exact absurd (by simp) (hz ts')
      | _ => exact ih' z
  exact this post ts h2

theorem coherent_mro (hw : w.Coherent ctx) {b : ClassId} (hb : w b = some ob) : ∃ pre, ob.mro = pre ++ [ob.anns] := by
  obtain ⟨n, id, w', d, h⟩ := hw b ob hb
  obtain ⟨body, _, hc⟩ := (createClass_made h).chain
  rcases hc with ⟨_, h2, h3, _⟩ | ⟨_, ob', _, _, _, h4, _⟩
  · exact ⟨_, h3 ▸ h2⟩
  · exact ⟨_, h4⟩

end Verif
