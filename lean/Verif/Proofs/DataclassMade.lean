import Verif.Proofs.Dataclass
import Verif.Proofs.PadNames
import Verif.Proofs.SpecHints
import Verif.Props.Classes
import Verif.Spec.Pads
/-
The fields that `@dataclass` finds in a class statement.
-/
namespace Verif
open Spec Data

variable {ctx : HintCtx} {n : Nat} {id : SerId} {w : World} {d : ClassDecl} {o : ClassObj}

theorem update_new {β : Type} : ∀ (e dd : Dict β), (e.map (·.1)).Nodup → (∀ a ∈ e.map (·.1), a ∉ dd.map (·.1)) → Dict.update dd e = dd ++ e
  | [], dd, _, _ => by simp [Dict.update]
  | x :: e, dd, hn, hd => by
    simp only [List.map_cons, List.nodup_cons, List.mem_cons] at hn hd
    have hs : ∀ dd : Dict β, x.1 ∉ dd.map (·.1) → dd.set x.1 x.2 = dd ++ [x] := by
      intro dd
      induction dd with
      | nil => intro _; rfl
      | cons y dd ih =>
        intro h
        simp only [List.map_cons, List.mem_cons, not_or] at h
        obtain ⟨k, v⟩ := y
        simp only [Dict.set, if_neg (fun e => h.1 (Eq.symm e)), List.cons_append]
        rw [ih h.2]
    show Dict.update (dd.set x.1 x.2) e = _
    rw [hs dd (hd x.1 (.inl rfl)), update_new e _ hn.2, List.append_assoc]
    · rfl
    · intro a ha hm
      rw [List.map_append, List.mem_append] at hm
      rcases hm with hm | hm
      · exact hd a (.inr ha) hm
      · simp only [List.map_cons, List.map_nil, List.mem_singleton] at hm
        exact hn.1 (hm ▸ ha)

theorem ownFields_nodup {opts : Name → Opts} {anns : Dict Hint} (h : (anns.map (·.1)).Nodup) : ((ownFields opts anns).map (·.1)).Nodup := by
  unfold ownFields
  rw [List.map_map]
  exact ((List.filter_sublist (l := anns)).map _).nodup h

theorem allFields_nil {opts : Name → Opts} {anns : Dict Hint} (h : (anns.map (·.1)).Nodup) : allFields [] opts anns = ownFields opts anns := by
  unfold allFields
  rw [update_new _ _ (ownFields_nodup h) (by simp)]
  rfl

theorem anns_nodup (h : createClass ctx n id w d = .ok o) (hb : structuredBase d.bases = .ok none) : (o.anns.map (·.1)).Nodup := by
  obtain ⟨body, h1, h2⟩ := (createClass_made h).chain
  rcases h2 with ⟨_, _, h3, _⟩ | ⟨b, ob, h3, _⟩
  · rw [h3]
    exact metaDict_nodup h1 (by simp [Dict.keys])
  · rw [hb] at h3; cases h3

open Classical in
theorem attr_not_classVar (h : createClass ctx n id w d = .ok o) (hb : structuredBase d.bases = .ok none) {a : Name} {x : Hint}
    (ha : a ∈ o.info.attrs) (hx : (a, x) ∈ o.anns) : ∀ y, evalHint x ≠ .classVar y := by
  intro y e
  have hn := anns_nodup h hb
  have hdec : o.decls = structuredAnns ++ o.anns := by
    rcases C27_chain h with ⟨_, h2⟩ | ⟨b, ob, h2, _⟩
    · exact h2
    · rw [hb] at h2; cases h2
  rw [C27_attrs h, attrsOf, List.mem_filter] at ha
  obtain ⟨_, n', i, s, h1, _⟩ := of_decide_eq_true ha.2
  rw [hdec, lastDecl_append, if_pos (List.mem_map.2 ⟨_, hx, rfl⟩)] at h1
  have hl : lastDecl o.anns a = x := by
    refine (lastDecl_nodup (h := x) hn ?_).1
    generalize o.anns = anns at hn hx
    induction anns with
    | nil => cases hx
    | cons z anns ih =>
      simp only [List.map_cons, List.nodup_cons] at hn
      rcases List.mem_cons.1 hx with rfl | hx
      · simp [Dict.get]
      · have hne : z.1 ≠ a := fun e => hn.1 (e ▸ List.mem_map.2 ⟨_, hx, rfl⟩)
        have := ih hn.2 hx
        simpa [Dict.get, List.find?_cons, beq_eq_false_iff_ne.2 hne] using this
  rw [hl, e] at h1
  cases h1

/-- Once a parameter has a default, all later ones have. -/
theorem defaultsLast_iff : ∀ (fs : Dict Opts) (seen : Bool), defaultsLast seen fs = true ↔
    (seen = true → ∀ f ∈ fs, f.2.default ≠ Option.none) ∧
      fs.Pairwise (fun f g => f.2.default ≠ Option.none → g.2.default ≠ Option.none)
  | [], seen => by simp [defaultsLast]
  | f :: fs, seen => by
    cases hd : f.2.default with
    | none =>
      simp only [defaultsLast, hd, Bool.and_eq_true, Bool.not_eq_true', List.pairwise_cons, ne_eq, not_true_eq_false, false_implies, implies_true,
        true_and, List.mem_cons, forall_eq_or_imp]
      rw [defaultsLast_iff fs seen]
      cases seen <;> simp
    | some v =>
      simp only [defaultsLast, hd, List.pairwise_cons, ne_eq, reduceCtorEq, not_false_eq_true, true_implies, List.mem_cons, forall_eq_or_imp, true_and]
      rw [defaultsLast_iff fs true]
      simp only [true_implies]
      exact ⟨fun h => ⟨fun _ => h.1, h.1, h.2⟩, fun h => ⟨h.2.1, h.2.2⟩⟩

/-- Parameters that begin with the attributes, all others having defaults. -/
theorem defaults_prefix : ∀ {fs : Dict Opts} (as : List Name), (fs.map (·.1)).Nodup → as <+: fs.map (·.1) →
    (∀ f ∈ fs, f.1 ∉ as → f.2.default ≠ Option.none) →
    (fs.filter fun f => as.contains f.1).Pairwise (fun f g => f.2.default ≠ Option.none → g.2.default ≠ Option.none) →
    fs.Pairwise (fun f g => f.2.default ≠ Option.none → g.2.default ≠ Option.none)
  | [], _, _, _, _, _ => .nil
  | f :: fs, [], _, _, h1, _ => by
    apply List.Pairwise.imp_of_mem (R := fun _ _ => True)
    · intro a b _ hb _ _
      exact h1 b hb (by simp)
    · exact List.pairwise_of_forall (fun _ _ => trivial)
  | f :: fs, a :: as, hn, hp, h1, h2 => by
    simp only [List.map_cons, List.nodup_cons] at hn
    rw [List.map_cons, List.cons_prefix_cons] at hp
    obtain ⟨rfl, hp⟩ := hp
    rw [List.filter_cons_of_pos (by simp), List.pairwise_cons] at h2
    have hne : ∀ g ∈ fs, g.1 ≠ f.1 := fun g hg e => hn.1 (e ▸ List.mem_map_of_mem hg)
    have e : (fs.filter fun g => (f.1 :: as).contains g.1) = fs.filter fun g => as.contains g.1 := by
      apply List.filter_congr
      intro g hg
      simp [hne g hg]
    rw [e] at h2
    refine List.pairwise_cons.2 ⟨fun g hg hf => ?_, defaults_prefix as hn.2 hp (fun g hg h => h1 g (by simp [hg]) (by simp [h, hne g hg])) h2.2⟩
    by_cases hga : g.1 ∈ as
    · exact h2.1 g (List.mem_filter.2 ⟨hg, by simpa using hga⟩) hf
    · exact h1 g (by simp [hg]) (by simp [hga, hne g hg])

theorem positional_prefix {opts : Name → Opts} : ∀ (attrs : List Name) (anns : Dict Hint), attrs <+: anns.map (·.1) →
    (∀ x ∈ anns, x.1 ∈ attrs → ∀ y, evalHint x.2 ≠ .classVar y) → (∀ a ∈ attrs, (opts a).init = true ∧ (opts a).kwOnly = false) →
    attrs <+: (positional (ownFields opts anns)).map (·.1)
  | [], _, _, _, _ => by simp
  | a :: attrs, [], h, _, _ => by simp at h
  | a :: attrs, x :: anns, h, hc, ho => by
    rw [List.map_cons, List.cons_prefix_cons] at h
    have ih := positional_prefix attrs anns h.2 (fun z hz hm => hc z (by simp [hz]) (by simp [hm])) (fun b hb => ho b (by simp [hb]))
    have hx := hc x (by simp) (by simp [h.1])
    have e : ownFields opts (x :: anns) = (x.1, opts x.1) :: ownFields opts anns := by
      unfold ownFields
      rw [List.filter_cons_of_pos]
      · rfl
      · split
        · rename_i y he; exact absurd he (hx y)
        · rfl
    have hoa := ho a (by simp)
    rw [e, ← h.1]
    unfold positional
    rw [List.filter_cons_of_pos (by simp [hoa.1, hoa.2]), List.map_cons, List.cons_prefix_cons]
    exact ⟨rfl, ih⟩

theorem positional_names {fs : Dict Opts} {attrs : List Name} (h : attrs <+: (positional fs).map (·.1)) : attrs.Sublist (fs.map (·.1)) :=
  h.sublist.trans (List.filter_sublist.map _)

/-- The fields with the names of a sublist. -/
theorem filter_attrs : ∀ {fs : Dict Opts} {attrs : List Name}, (fs.map (·.1)).Nodup → attrs.Sublist (fs.map (·.1)) →
    (fs.filter fun f => attrs.contains f.1).map (·.1) = attrs
  | [], attrs, _, h => by
    have : attrs = [] := by simpa using h
    subst this; rfl
  | f :: fs, attrs, hn, h => by
    simp only [List.map_cons, List.nodup_cons] at hn
    rw [List.map_cons, List.sublist_cons_iff] at h
    rcases h with h | ⟨r, rfl, h⟩
    · have hna : f.1 ∉ attrs := fun hm => hn.1 (h.subset hm)
      rw [List.filter_cons_of_neg (by simpa using hna)]
      exact filter_attrs hn.2 h
    · rw [List.filter_cons_of_pos (by simp), List.map_cons]
      have e : (fs.filter fun g => (f.1 :: r).contains g.1) = fs.filter fun g => r.contains g.1 := by
        apply List.filter_congr
        intro g hg
        have : g.1 ≠ f.1 := fun e => hn.1 (e ▸ List.mem_map_of_mem hg)
        simp [this]
      rw [e, filter_attrs hn.2 h]

theorem ownFields_mem {opts : Name → Opts} {anns : Dict Hint} {f : Name × Opts} (h : f ∈ ownFields opts anns) :
    f.2 = opts f.1 ∧ f.1 ∈ anns.map (·.1) := by
  unfold ownFields at h
  obtain ⟨x, hx, rfl⟩ := List.mem_map.1 h
  exact ⟨rfl, List.mem_map_of_mem (List.mem_filter.1 hx).1⟩

theorem digitFirst_identifier {a : Name} (h : IsIdentifier a) : digitFirst a = false := by
  unfold digitFirst
  split
  · rename_i c cs e; exact h c cs e
  · rfl

theorem digitFirst_pad (k : Nat) : digitFirst (padName k) = true := by
  by_cases h : digitFirst (padName k) = true
  · exact h
  · refine absurd (fun c cs e => ?_) (padName_not_identifier k)
    unfold digitFirst at h
    rw [e] at h
    simpa using h

/-- Running annotations that a class body has left gives the same. -/
theorem metaDict_fixed : ∀ {as : List (Name × Hint)} {dd : Dict Hint} {k : Nat}, (as.map (·.1)).Nodup → (∀ a ∈ as.map (·.1), a ∉ List.map (·.1) dd) →
    (∀ h, ("_", h) ∈ as → ispad ctx n id h = .ok false) → metaDict ctx n id k dd as = .ok (dd ++ as)
  | [], dd, k, _, _, _ => by simp [metaDict]
  | (a, h) :: as, dd, k, hn, hd, hp => by
    have hset : Dict.set dd a h = dd ++ [(a, h)] := by
      have := update_new [(a, h)] dd (by simp) (fun b hb => hd b (by simp at hb; simp [hb]))
      simpa [Dict.update] using this
    have ih := metaDict_fixed (as := as) (dd := dd ++ [(a, h)]) (k := k) (by simp at hn; exact hn.2) (fun b hb hm => by
      simp only [List.map_append, List.mem_append, List.map_cons, List.map_nil, List.mem_singleton] at hm
      rcases hm with hm | hm
      · exact hd b (by simp at hb ⊢; exact .inr hb) hm
      · simp only [List.map_cons, List.nodup_cons] at hn
        exact hn.1 (hm ▸ hb)) (fun x hx => hp x (by simp [hx]))
    simp only [metaDict]
    split
    · rename_i e
      subst e
      simp only [hp h (by simp), bind, Except.bind, Bool.false_eq_true, if_false]
      rw [hset, ih]; simp
    · rw [hset, ih]; simp

theorem metaDict_left : ∀ {as : List (Name × Hint)} {dd r : Dict Hint} {k : Nat}, metaDict ctx n id k dd as = .ok r →
    (∀ h, ("_", h) ∈ dd → ispad ctx n id h = .ok false) → ∀ h, ("_", h) ∈ r → ispad ctx n id h = .ok false
  | [], dd, r, k, h, hd => by cases h; exact hd
  | (a, x) :: as, dd, r, k, h, hd => by
    have hset : ∀ (dd : Dict Hint) (b : Name) (y : Hint), (∀ h, ("_", h) ∈ dd → ispad ctx n id h = .ok false) → (b = "_" → ispad ctx n id y = .ok false) →
        ∀ h, ("_", h) ∈ dd.set b y → ispad ctx n id h = .ok false := by
      intro dd b y hdd hb
      induction dd with
      | nil =>
        intro h hm
        simp only [Dict.set, List.mem_singleton, Prod.mk.injEq] at hm
        rw [hm.2]; exact hb hm.1.symm
      | cons z dd ih =>
        obtain ⟨c, v⟩ := z
        intro h hm
        simp only [Dict.set] at hm
        split at hm
        · rcases List.mem_cons.1 hm with e | hm
          · cases e; exact hb rfl
          · exact hdd h (by simp [hm])
        · rcases List.mem_cons.1 hm with e | hm
          · cases e; exact hdd _ (by simp)
          · exact ih (fun h hm => hdd h (by simp [hm])) h hm
    simp only [metaDict] at h
    split at h
    · rename_i e
      obtain ⟨b, hb, h⟩ := Except.bind_ok' h
      cases b with
      | true =>
        simp only [if_true] at h
        refine metaDict_left h (hset _ _ _ hd fun e => ?_)
        have hh := padName_not_identifier k
        rw [e] at hh
        exact absurd (fun c cs ee => by cases ee; rfl) hh
      | false =>
        simp only [Bool.false_eq_true, if_false] at h
        exact metaDict_left h (hset _ _ _ hd fun _ => hb)
    · rename_i e
      exact metaDict_left h (hset _ _ _ hd fun ee => absurd ee e)

end Verif
