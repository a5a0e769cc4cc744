import Verif.Zips
import Verif.Proofs.InstanceLemmas
/-
What `zips` yields and what it leaves of its iterators.
-/
namespace Verif.Zips

variable {α β : Type}

/-- The lists split at the first of the shortest ones. -/
structure Shortest (its pre : List (List α)) (it : List α) (post : List (List α)) : Prop where
  eq : its = pre ++ it :: post
  before : ∀ p ∈ pre, it.length < p.length
  after : ∀ q ∈ post, it.length ≤ q.length

theorem shortest_exists : ∀ its : List (List α), its ≠ [] → ∃ pre it post, Shortest its pre it post
  | [], h => (h rfl).elim
  | [it], _ => ⟨[], it, [], rfl, by simp, by simp⟩
  | x :: y :: its, _ => by
    obtain ⟨pre, it, post, h1, h2, h3⟩ := shortest_exists (y :: its) (by simp)
    by_cases hx : x.length ≤ it.length
    · refine ⟨[], x, y :: its, rfl, by simp, fun q hq => ?_⟩
      rw [h1] at hq
      rcases List.mem_append.1 hq with h | h
      · have := h2 q h; omega
      · rcases List.mem_cons.1 h with h | h
        · rw [h]; exact hx
        · have := h3 q h; omega
    · refine ⟨x :: pre, it, post, by rw [h1]; rfl, fun p hp => ?_, h3⟩
      rcases List.mem_cons.1 hp with h | h
      · rw [h]; omega
      · exact h2 p h

theorem round_some : ∀ its : List (List α), (∀ it ∈ its, it ≠ []) →
    ∃ t, round its = (some t, its.map List.tail) ∧ its.mapM (fun it => it[0]?) = some t
  | [], _ => ⟨[], rfl, rfl⟩
  | [] :: its, h => (h [] (by simp) rfl).elim
  | (x :: xs) :: its, h => by
    obtain ⟨t, h1, h2⟩ := round_some its fun it hi => h it (by simp [hi])
    refine ⟨x :: t, by simp [round, h1], ?_⟩
    simp [List.mapM_cons, h2]

theorem round_none : ∀ (pre : List (List α)) (post : List (List α)), (∀ p ∈ pre, p ≠ []) →
    round (pre ++ [] :: post) = (none, pre.map List.tail ++ [] :: post)
  | [], post, _ => rfl
  | [] :: pre, post, h => (h [] (by simp) rfl).elim
  | (x :: xs) :: pre, post, h => by
    have := round_none pre post fun p hp => h p (by simp [hp])
    simp [round, this]

theorem zipAll_step {its : List (List α)} (hn : its ≠ []) (h : ∀ it ∈ its, it ≠ []) :
    ∃ t, its.mapM (fun it => it[0]?) = some t ∧ zipAll its = (t :: (zipAll (its.map List.tail)).1, (zipAll (its.map List.tail)).2) := by
  cases its with
  | nil => exact (hn rfl).elim
  | cons it its =>
    cases it with
    | nil => exact (h [] (by simp) rfl).elim
    | cons x xs =>
      obtain ⟨t, h1, h2⟩ := round_some its fun it hi => h it (by simp [hi])
      refine ⟨x :: t, by simp [List.mapM_cons, h2], ?_⟩
      simp [zipAll, zipFrom, h1]

/-- What is left of the iterators. -/
theorem zipAll_left : ∀ (it : List α) (pre post : List (List α)), (∀ p ∈ pre, it.length < p.length) → (∀ q ∈ post, it.length ≤ q.length) →
    (zipAll (pre ++ it :: post)).2 = pre.map (List.drop (it.length + 1)) ++ [] :: post.map (List.drop it.length)
  | [], pre, post, h1, h2 => by
    have hp : ∀ p ∈ pre, p ≠ [] := fun p hp e => by have := h1 p hp; simp [e] at this
    have d0 : (List.drop 0 : List α → List α) = id := by funext l; rfl
    have d1 : (List.drop 1 : List α → List α) = List.tail := by funext l; cases l <;> rfl
    cases pre with
    | nil => simp [zipAll, zipFrom, d0]
    | cons p pre =>
      cases p with
      | nil => exact (hp [] (by simp) rfl).elim
      | cons x xs =>
        have := round_none pre post fun p h => hp p (by simp [h])
        simp [zipAll, zipFrom, this, d0, d1]
  | x :: xs, pre, post, h1, h2 => by
    have hne : ∀ it ∈ pre ++ (x :: xs) :: post, it ≠ [] := fun it hi e => by
      subst e
      rcases List.mem_append.1 hi with h | h
      · have := h1 _ h; simp at this
      · rcases List.mem_cons.1 h with h | h
        · cases h
        · have := h2 _ h; simp at this
    obtain ⟨t, _, e⟩ := zipAll_step (by simp) hne
    rw [e]
    have := zipAll_left xs (pre.map List.tail) (post.map List.tail)
      (fun p hp => by
        obtain ⟨q, hq, rfl⟩ := List.mem_map.1 hp
        have := h1 q hq
        simp only [List.length_cons, List.length_tail] at this ⊢; omega)
      (fun p hp => by
        obtain ⟨q, hq, rfl⟩ := List.mem_map.1 hp
        have := h2 q hq
        simp only [List.length_cons, List.length_tail] at this ⊢; omega)
    simp only [List.map_append, List.map_cons, List.tail_cons]
    rw [this]
    simp only [List.map_map, List.length_cons]
    congr 1
    · exact List.map_congr_left fun l _ => by cases l <;> simp
    · congr 1
      exact List.map_congr_left fun l _ => by cases l <;> simp

theorem mapM_tail (i : Nat) : ∀ its : List (List α), (∀ it ∈ its, it ≠ []) →
    (its.map List.tail).mapM (fun it => it[i]?) = its.mapM (fun it => it[i + 1]?)
  | [], _ => rfl
  | [] :: its, h => (h [] (by simp) rfl).elim
  | (x :: xs) :: its, h => by
    have := mapM_tail i its fun it hi => h it (by simp [hi])
    simp [List.mapM_cons, this]

theorem mapM_none (i : Nat) : ∀ {its : List (List α)} {it : List α}, it ∈ its → it[i]? = Option.none → its.mapM (fun it => it[i]?) = Option.none
  | [], _, h, _ => by cases h
  | x :: its, it, h, hi => by
    rw [List.mapM_cons]
    rcases List.mem_cons.1 h with h | h
    · subst h; rw [hi]; rfl
    · rw [mapM_none i h hi]
      cases x[i]? <;> rfl

/-- The tuples are the rows. -/
theorem zipAll_tuples : ∀ (m : Nat) (its : List (List α)), its ≠ [] → (∃ it ∈ its, it.length = m) → (∀ it ∈ its, m ≤ it.length) →
    ∀ i : Nat, (zipAll its).1[i]? = its.mapM (fun it => it[i]?)
  | 0, its, hn, ⟨it, hi, h0⟩, _, i => by
    have he : it = [] := List.eq_nil_of_length_eq_zero h0
    subst he
    rw [mapM_none i hi (by simp)]
    obtain ⟨pre, it', post, h1, h2, h3⟩ := shortest_exists its hn
    have h0' : it' = [] := by
      rw [h1] at hi
      rcases List.mem_append.1 hi with h | h
      · have := h2 _ h; simp at this
      · rcases List.mem_cons.1 h with h | h
        · exact h.symm
        · have := h3 _ h; simpa using this
    subst h0'
    have hp : ∀ p ∈ pre, p ≠ [] := fun p hp e => by have := h2 p hp; simp [e] at this
    rw [h1]
    cases pre with
    | nil => simp [zipAll, zipFrom]
    | cons p pre =>
      cases p with
      | nil => exact (hp [] (by simp) rfl).elim
      | cons x xs =>
        have := round_none pre post fun p h => hp p (by simp [h])
        simp [zipAll, zipFrom, this]
  | m + 1, its, hn, ⟨it, hi, h0⟩, hm, i => by
    have hne : ∀ it ∈ its, it ≠ [] := fun it hi e => by have := hm it hi; simp [e] at this
    obtain ⟨t, h1, e⟩ := zipAll_step hn hne
    rw [e]
    cases i with
    | zero => simp [h1]
    | succ i =>
      simp only [List.getElem?_cons_succ]
      rw [zipAll_tuples m (its.map List.tail) (by simpa using hn) ⟨it.tail, List.mem_map.2 ⟨it, hi, rfl⟩, by simp [h0]⟩
        (fun p hp => by
          obtain ⟨q, hq, rfl⟩ := List.mem_map.1 hp
          have := hm q hq
          simp only [List.length_tail]; omega) i, mapM_tail i its hne]

theorem exists_min : ∀ its : List (List α), its ≠ [] → ∃ m, (∃ it ∈ its, it.length = m) ∧ ∀ it ∈ its, m ≤ it.length := by
  intro its h
  obtain ⟨pre, it, post, h1, h2, h3⟩ := shortest_exists its h
  refine ⟨it.length, ⟨it, by simp [h1], rfl⟩, fun x hx => ?_⟩
  rw [h1] at hx
  rcases List.mem_append.1 hx with h | h
  · have := h2 x h; omega
  · rcases List.mem_cons.1 h with h | h
    · rw [h]; omega
    · exact h3 x h

/-! ### Assigning attributes -/

theorem zip_two : ∀ (as bs : List α), (zipAll [as, bs]).1 = (as.zip bs).map fun p => [p.1, p.2]
  | [], bs => rfl
  | a :: as, [] => rfl
  | a :: as, b :: bs => by
    have := zip_two as bs
    simp only [zipAll] at this
    simp [zipAll, zipFrom, round, this]

theorem left_two : ∀ (as bs : List α), (zipAll [as, bs]).2 = [as.drop (bs.length + 1), bs.drop as.length] ∨
    (zipAll [as, bs]).2 = [as.drop bs.length, bs.drop as.length]
  | [], bs => Or.inr (by simp [zipAll, zipFrom])
  | a :: as, [] => Or.inl (by simp [zipAll, zipFrom, round])
  | a :: as, b :: bs => by
    have := left_two as bs
    simp only [zipAll] at this
    simpa [zipAll, zipFrom, round] using this

theorem assign_zip (attrs : List Name) (vals : List Val) (old : List (Name × Val)) :
    (assign39 attrs vals old).1 = (attrs.zip vals).foldl (fun as nv => setAttr as nv.1 nv.2) old := by
  have hs : (zips39 true [attrs.map Item.name, vals.map Item.val]).1 = (zipAll [attrs.map Item.name, vals.map Item.val]).1 := by
    unfold zips39
    simp only
    split <;> rfl
  unfold assign39
  simp only [hs, zip_two]
  rw [List.zip_map, List.map_map, List.foldl_map]
  rfl

theorem drop_isEmpty (l : List α) (m : Nat) : (!(l.drop m).isEmpty) = true ↔ m < l.length := by
  cases h : l.drop m with
  | nil => have := List.drop_eq_nil_iff.1 h; simp; omega
  | cons x xs =>
    have : (l.drop m).length = (x :: xs).length := by rw [h]
    simp at this ⊢
    omega

/-- When `zips(..., strict=True)` raises. -/
theorem raises_iff {its pre : List (List α)} {it : List α} {post : List (List α)} (h : Shortest its pre it post) :
    (zips39 true its).2 = some Err.valueError ↔
      (∃ p ∈ pre, it.length + 1 < p.length) ∨ (∃ q ∈ post, it.length < q.length) := by
  have hl := zipAll_left it pre post h.before h.after
  rw [← h.eq] at hl
  have ha : (zipAll its).2.any (fun it => !it.isEmpty) = true ↔
      (∃ p ∈ pre, it.length + 1 < p.length) ∨ (∃ q ∈ post, it.length < q.length) := by
    rw [hl, List.any_append, Bool.or_eq_true, List.any_map, List.any_cons, List.any_map]
    simp only [List.any_eq_true, Function.comp, drop_isEmpty, List.isEmpty_nil, Bool.not_true, Bool.false_or]
  unfold zips39
  simp only [Bool.true_and]
  split
  · rename_i hc; simp [ha.1 hc]
  · rename_i hc; simp only [reduceCtorEq, false_iff]; exact fun h => hc (ha.2 h)

theorem error_cases (s : Bool) (its : List (List α)) : (zips39 s its).2 = Option.none ∨ (zips39 s its).2 = some Err.valueError := by
  unfold zips39
  simp only
  split <;> simp

theorem zips_fst (s : Bool) (its : List (List α)) : (zips39 s its).1 = (zipAll its).1 := by
  unfold zips39
  simp only
  split <;> rfl

theorem two_iff (as bs : List α) :
    (zips39 true [as, bs]).2 = some Err.valueError ↔ as.length ≠ bs.length ∧ as.length ≠ bs.length + 1 := by
  by_cases h : as.length ≤ bs.length
  · rw [raises_iff (its := [as, bs]) (pre := []) (it := as) (post := [bs]) ⟨rfl, by simp, by simpa using h⟩]
    simp
    omega
  · rw [raises_iff (its := [as, bs]) (pre := [as]) (it := bs) (post := []) ⟨rfl, by simp; omega, by simp⟩]
    simp
    omega

theorem assign_error (attrs : List Name) (vals : List Val) (old : List (Name × Val)) :
    (assign39 attrs vals old).2 =
      if attrs.length = vals.length ∨ attrs.length = vals.length + 1 then Option.none else some Err.valueError := by
  have h := two_iff (attrs.map Item.name) (vals.map Item.val)
  simp only [List.length_map] at h
  have e : (assign39 attrs vals old).2 = (zips39 true [attrs.map Item.name, vals.map Item.val]).2 := rfl
  rw [e]
  split
  · rename_i hc
    rcases error_cases true [attrs.map Item.name, vals.map Item.val] with h1 | h1
    · exact h1
    · have := h.1 h1; omega
  · rename_i hc
    exact h.2 (by omega)

theorem assign_eq (attrs : List Name) (vals : List Val) (old : List (Name × Val)) :
    assign39 attrs vals old = (setAll old (attrs.zip vals),
      if attrs.length = vals.length ∨ attrs.length = vals.length + 1 then Option.none else some Err.valueError) :=
  Prod.ext (assign_zip attrs vals old) (assign_error attrs vals old)

theorem getAttrs_of {as : List (Name × Val)} : ∀ {names : List Name} {vals : List Val}, names.length = vals.length →
    (∀ i (h1 : i < names.length) (h2 : i < vals.length), getAttr? as names[i] = some vals[i]) → getAttrs as names = .ok vals
  | [], [], _, _ => rfl
  | a :: names, v :: vals, h, hg => by
    have h0 := hg 0 (by simp) (by simp)
    have h1 := getAttrs_of (as := as) (names := names) (vals := vals) (by simpa using h) fun i h1 h2 =>
      hg (i + 1) (by simpa using h1) (by simpa using h2)
    simp only [List.getElem_cons_zero] at h0
    simp only [getAttrs, h0, h1]
    rfl

theorem getAttrs_missing {as : List (Name × Val)} {a : Name} (hm : getAttr? as a = Option.none) :
    ∀ {names : List Name}, a ∈ names → ∃ e, getAttrs as names = .error e
  | b :: names, h => by
    unfold getAttrs
    cases hb : getAttr? as b with
    | none => exact ⟨_, rfl⟩
    | some v =>
      rcases List.mem_cons.1 h with h | h
      · subst h; rw [hm] at hb; cases hb
      · obtain ⟨e, he⟩ := getAttrs_missing hm h
        exact ⟨e, by simp only [he]; rfl⟩

/-- The proxy gives the values back if there was one for each attribute, and otherwise raises. -/
theorem getAttrs_proxy {names : List Name} (hn : names.Nodup) (vals : List Val) :
    (names.length = vals.length → getAttrs (setAll [] (names.zip vals)) names = .ok vals) ∧
    (vals.length < names.length → ∃ e, getAttrs (setAll [] (names.zip vals)) names = .error e) := by
  refine ⟨fun h => getAttrs_of h fun i h1 h2 => getAttr_setAll_zip names vals [] hn i h1 h2, fun h => ?_⟩
  refine getAttrs_missing (a := names[vals.length]) ?_ (List.getElem_mem h)
  rw [getAttr_setAll_other]
  · rfl
  · intro hm
    obtain ⟨x, hx, hx2⟩ := List.mem_map.1 hm
    obtain ⟨i, hi, hxi⟩ := List.mem_iff_getElem.1 hx
    rw [List.length_zip] at hi
    have : x.1 = names[i]'(by omega) := by rw [← hxi]; simp
    rw [this] at hx2
    exact List.pairwise_iff_getElem.1 hn i vals.length (by omega) h (by omega) hx2

theorem bind_run {x : M α} {f : α → M β} {st st' : St} {a : α} (h : x st = .ok a st') : (x >>= f) st = f a st' := by
  show M.bind x f st = _
  simp only [M.bind, h]

end Verif.Zips
