import Verif.Spec.Dataclass
import Verif.Proofs.ClassLemmas
/-
The `__init__` that `@dataclass` makes, called with one value per attribute.
-/
namespace Verif.Data
open Spec

theorem getAttr_cons (p : Name × Val) (as : List (Name × Val)) (a : Name) :
    getAttr? (p :: as) a = if p.1 = a then some p.2 else getAttr? as a := by
  unfold getAttr?
  rw [List.find?_cons]
  by_cases h : p.1 = a
  · simp [h]
  · simp [h, beq_eq_false_iff_ne.2 h]

theorem getAttr_append (as bs : List (Name × Val)) (a : Name) : getAttr? (as ++ bs) a = (getAttr? as a).or (getAttr? bs a) := by
  induction as with
  | nil => simp [getAttr?]
  | cons p as ih =>
    rw [List.cons_append, getAttr_cons, getAttr_cons, ih]
    split <;> simp

theorem getAttr_not_mem {as : List (Name × Val)} {a : Name} (h : a ∉ as.map (·.1)) : getAttr? as a = Option.none := by
  unfold getAttr?
  rw [List.find?_eq_none.2]
  · rfl
  · intro p hp
    simp only [beq_iff_eq]
    rintro rfl
    exact h (List.mem_map_of_mem hp)

/-- Without arguments, all parameters get their defaults. -/
theorem bindArgs_nil : ∀ {ps : Dict Opts}, (∀ f ∈ ps, f.2.default ≠ Option.none) →
    ∃ xs, bindArgs ps [] = .ok xs ∧ xs.map (·.1) = ps.map (·.1) ∧ ∀ x ∈ xs, ∃ f ∈ ps, f.1 = x.1 ∧ f.2.default = some x.2
  | [], _ => ⟨[], rfl, rfl, by simp⟩
  | f :: ps, h => by
    obtain ⟨xs, h1, h2, h3⟩ := bindArgs_nil (ps := ps) fun g hg => h g (by simp [hg])
    cases hd : f.2.default with
    | none => exact absurd hd (h f (by simp))
    | some v =>
      refine ⟨(f.1, v) :: xs, ?_, by simp [h2], ?_⟩
      · simp [bindArgs, hd, h1, bind, Except.bind]
      · intro x hx
        rcases List.mem_cons.1 hx with rfl | hx
        · exact ⟨f, by simp, rfl, hd⟩
        · obtain ⟨g, hg, e⟩ := h3 x hx
          exact ⟨g, by simp [hg], e⟩

theorem bindArgs_append : ∀ {attrs : List Name} {vals : List Val} {ps : Dict Opts}, vals.length = attrs.length →
    attrs <+: ps.map (·.1) → ∃ qs, ps.map (·.1) = attrs ++ qs.map (·.1) ∧ (∀ q ∈ qs, q ∈ ps) ∧
      bindArgs ps vals = (do .ok (attrs.zip vals ++ (← bindArgs qs [])))
  | [], [], ps, _, _ => ⟨ps, rfl, fun q h => h, by
      cases bindArgs ps [] <;> rfl⟩
  | [], _ :: _, _, h, _ => by simp at h
  | _ :: _, [], _, h, _ => by simp at h
  | a :: attrs, v :: vals, ps, hl, hp => by
    cases ps with
    | nil => simp at hp
    | cons p ps =>
      rw [List.map_cons, List.cons_prefix_cons] at hp
      obtain ⟨rfl, hp⟩ := hp
      obtain ⟨qs, h1, h2, h3⟩ := bindArgs_append (vals := vals) (by simpa using hl) hp
      refine ⟨qs, by simp [h1], fun q hq => by simp [h2 q hq], ?_⟩
      simp only [bindArgs, h3]
      cases bindArgs qs [] <;> rfl

theorem runBody_get (args : List (Name × Val)) : ∀ {fs : Dict Opts}, (fs.map (·.1)).Nodup → ∀ f ∈ fs,
    getAttr? (runBody args fs) f.1 = if f.2.init then getAttr? args f.1 else f.2.default
  | [], _, f, h => by cases h
  | g :: fs, hn, f, h => by
    simp only [List.map_cons, List.nodup_cons] at hn
    have hno : ∀ a, a ∉ fs.map (·.1) → getAttr? (runBody args fs) a = Option.none := by
      intro a ha
      apply getAttr_not_mem
      intro hm
      apply ha
      clear hn h ha
      induction fs with
      | nil => exact hm
      | cons k fs ih =>
        simp only [runBody] at hm
        split at hm
        · rcases List.mem_cons.1 hm with rfl | hm
          · simp
          · exact List.mem_cons_of_mem _ (ih hm)
        · exact List.mem_cons_of_mem _ (ih hm)
    rcases List.mem_cons.1 h with rfl | h
    · simp only [runBody]
      generalize (if f.2.init = true then getAttr? args f.1 else f.2.default) = r
      cases r with
      | none => exact hno _ hn.1
      | some v => simp [getAttr_cons]
    · have hne : g.1 ≠ f.1 := fun e => hn.1 (e ▸ List.mem_map_of_mem h)
      simp only [runBody]
      split
      · rw [getAttr_cons, if_neg hne]
        exact runBody_get args hn.2 f h
      · exact runBody_get args hn.2 f h

theorem getAttr_zip : ∀ {attrs : List Name} {vals : List Val}, attrs.Nodup → ∀ (i : Nat) (h1 : i < attrs.length) (h2 : i < vals.length),
    getAttr? (attrs.zip vals) attrs[i] = some vals[i]
  | a :: attrs, v :: vals, hn, 0, _, _ => by simp [getAttr_cons]
  | a :: attrs, v :: vals, hn, i + 1, h1, h2 => by
    simp only [List.nodup_cons] at hn
    simp only [List.zip_cons_cons, getAttr_cons, List.getElem_cons_succ]
    rw [if_neg]
    · exact getAttr_zip hn.2 i (by simpa using h1) (by simpa using h2)
    · exact fun e => hn.1 (e ▸ List.getElem_mem _)

theorem getAttr_of_nodup : ∀ {xs : List (Name × Val)}, (xs.map (·.1)).Nodup → ∀ x ∈ xs, getAttr? xs x.1 = some x.2
  | y :: xs, hn, x, h => by
    simp only [List.map_cons, List.nodup_cons] at hn
    rw [getAttr_cons]
    rcases List.mem_cons.1 h with rfl | h
    · simp
    · have hne : y.1 ≠ x.1 := fun e => hn.1 (e ▸ List.mem_map_of_mem h)
      rw [if_neg hne]
      exact getAttr_of_nodup hn.2 x h

theorem filter_nodup {fs : Dict Opts} (p : Name × Opts → Bool) (hn : (fs.map (·.1)).Nodup) : ((fs.filter p).map (·.1)).Nodup :=
  ((List.filter_sublist (l := fs)).map _).nodup hn

/-- A field is determined by its name. -/
theorem field_eq {fs : Dict Opts} (hn : (fs.map (·.1)).Nodup) : ∀ {f g}, f ∈ fs → g ∈ fs → f.1 = g.1 → f = g := by
  induction fs with
  | nil => intro f g h; cases h
  | cons k fs ih =>
    intro f g hf hg e
    simp only [List.map_cons, List.nodup_cons] at hn
    rcases List.mem_cons.1 hf with h1 | hf <;> rcases List.mem_cons.1 hg with h2 | hg
    · rw [h1, h2]
    · exact absurd (h1 ▸ e ▸ List.mem_map_of_mem hg) hn.1
    · exact absurd (h2 ▸ e ▸ List.mem_map_of_mem hf) hn.1
    · exact ih hn.2 hf hg e

theorem initAttrs_fitting {attrs : List Name} {fs : Dict Opts} (hf : Fitting attrs fs) {vals : List Val} (hl : vals.length = attrs.length) :
    ∃ as, initAttrs fs vals = .ok as ∧ Holds attrs vals as ∧ ∀ f ∈ fs, f.1 ∉ attrs → getAttr? as f.1 = f.2.default := by
  obtain ⟨qs, h1, h2, h3⟩ := bindArgs_append hl hf.first
  have hpn : ((positional fs).map (·.1)).Nodup := filter_nodup _ hf.once
  have hkn : ((keywordOnly fs).map (·.1)).Nodup := filter_nodup _ hf.once
  have hpos : ∀ f ∈ positional fs, f ∈ fs ∧ f.2.init = true ∧ f.2.kwOnly = false := by
    intro f h; simpa [positional] using h
  have hkw : ∀ f ∈ keywordOnly fs, f ∈ fs ∧ f.2.init = true ∧ f.2.kwOnly = true := by
    intro f h; simpa [keywordOnly] using h
  rw [h1, List.nodup_append] at hpn
  obtain ⟨xs, x1, x2, x3⟩ := bindArgs_nil (ps := qs) fun q hq => by
    obtain ⟨m1, m2, _⟩ := hpos q (h2 q hq)
    exact hf.rest q m1 (fun hm => hpn.2.2 _ hm _ (List.mem_map_of_mem hq) rfl) m2
  have hka : ∀ f ∈ keywordOnly fs, f.1 ∉ attrs := by
    intro f hk hm
    obtain ⟨m1, _, m3⟩ := hkw f hk
    have : f.1 ∈ (positional fs).map (·.1) := by rw [h1]; simp [hm]
    obtain ⟨g, hg, e⟩ := List.mem_map.1 this
    obtain ⟨k1, _, k3⟩ := hpos g hg
    have := field_eq hf.once k1 m1 e
    rw [this, m3] at k3
    cases k3
  obtain ⟨ys, y1, y2, y3⟩ := bindArgs_nil (ps := keywordOnly fs) fun f hk => hf.rest f (hkw f hk).1 (hka f hk) (hkw f hk).2.1
  refine ⟨runBody (attrs.zip vals ++ xs ++ ys) fs, ?_, ⟨hl, fun i i1 i2 => ?_⟩, fun f hm ha => ?_⟩
  · simp [initAttrs, h3, x1, y1, bind, Except.bind]
  · have : attrs[i] ∈ (positional fs).map (·.1) := by rw [h1]; simp
    obtain ⟨f, hm, e⟩ := List.mem_map.1 this
    obtain ⟨m1, m2, _⟩ := hpos f hm
    have := runBody_get (attrs.zip vals ++ xs ++ ys) hf.once f m1
    rw [if_pos m2] at this
    simp only [e] at this
    rw [this, getAttr_append, getAttr_append, getAttr_zip hpn.1 i i1 i2]
    rfl
  · rw [runBody_get _ hf.once f hm]
    by_cases hi : f.2.init = true
    · rw [if_pos hi, getAttr_append, getAttr_append, getAttr_not_mem (as := attrs.zip vals)]
      · by_cases hk : f.2.kwOnly = true
        · have hfk : f ∈ keywordOnly fs := by simp [keywordOnly, hm, hi, hk]
          have hx : f.1 ∉ xs.map (·.1) := by
            rw [x2]
            intro hmx
            obtain ⟨g, hg, e⟩ := List.mem_map.1 hmx
            obtain ⟨k1, _, k3⟩ := hpos g (h2 g hg)
            rw [field_eq hf.once k1 hm e, hk] at k3
            cases k3
          rw [getAttr_not_mem hx]
          have : f.1 ∈ ys.map (·.1) := by rw [y2]; exact List.mem_map_of_mem hfk
          obtain ⟨y, hy, e⟩ := List.mem_map.1 this
          have hg := getAttr_of_nodup (xs := ys) (by rw [y2]; exact hkn) y hy
          rw [e] at hg
          rw [hg]
          obtain ⟨g, hg2, e2, e3⟩ := y3 y hy
          rw [field_eq hf.once hm (hkw g hg2).1 (e ▸ e2.symm), e3]
          rfl
        · have hfp : f.1 ∈ (positional fs).map (·.1) := List.mem_map_of_mem (by simp [positional, hm, hi, hk])
          rw [h1, List.mem_append] at hfp
          have hx : f.1 ∈ xs.map (·.1) := by rw [x2]; exact hfp.resolve_left ha
          obtain ⟨x, hxm, e⟩ := List.mem_map.1 hx
          have hg := getAttr_of_nodup (xs := xs) (by rw [x2]; exact hpn.2.1) x hxm
          rw [e] at hg
          rw [hg]
          obtain ⟨g, hg2, e2, e3⟩ := x3 x hxm
          rw [field_eq hf.once hm (hpos g (h2 g hg2)).1 (e ▸ e2.symm), e3]
          rfl
      · intro hmz
        rw [List.map_fst_zip (by omega)] at hmz
        exact ha hmz
    · rw [if_neg hi]

end Verif.Data
