import Verif.Spec.Generics
import Verif.Proofs.HintLemmas
/-
Helper lemmas for generic hints.
-/
namespace Verif
open Spec

variable {ctx : HintCtx} {N : Nat}

theorem mkChar_solid {c h : Hint} (hc : c.solid = true) (e : mkChar ctx c = .ok h) : h.solid = true := by
  unfold mkChar at e
  simp only at e
  split at e
  · cases e; rfl
  · split at e
    · obtain ⟨x, _, e⟩ := Except.bind_ok' e
      cases e; rfl
    · cases e; rfl
    · cases hc
    · cases e; rfl
    · cases e
    · cases e; rfl
    · cases e

theorem mkUnicode_solid {c d h : Hint} (hc : c.solid = true) (e : mkUnicode ctx N c d = .ok h) : h.solid = true := by
  unfold mkUnicode at e
  have : c.isTvar = false := by cases c <;> first | rfl | cases hc
  rw [if_neg (by simp [this])] at e
  cases d <;> try (cases e; done)
  obtain ⟨x, _, e⟩ := Except.bind_ok' e
  obtain ⟨y, _, e⟩ := Except.bind_ok' e
  cases y <;> cases e
  rfl

theorem mkHeader_solid {l s h : Hint} (hl : l.solid = true) (hs : s.solid = true) (e : mkHeader l s = .ok h) : h.solid = true := by
  unfold mkHeader at e
  have h1 : l.isTvar = false := by cases l <;> first | rfl | cases hl
  have h2 : s.isTvar = false := by cases s <;> first | rfl | cases hs
  rw [if_neg (by simp [h1, h2])] at e
  have fin : ∀ c : Count, (match sizeType? s with
      | some st => Except.ok (Hint.header c (some st))
      | Option.none => match s with
        | .noneT => Except.ok (Hint.header c Option.none)
        | _ => Except.error Err.typeError) = .ok h → h.solid = true := by
    intro c e
    split at e
    · cases e; rfl
    · split at e <;> cases e
      rfl
  simp only at e
  split at e
  · exact fin _ e
  · split at e
    · split at e
      · cases e
      · exact fin _ e
    · cases e

theorem mkArray_solid {a b h : Hint} (ha : a.solid = true) (hb : b.solid = true) (e : mkArray ctx N a b = .ok h) : h.solid = true := by
  unfold mkArray at e
  simp only at e
  have h1 : a.isAlias = false := by cases a <;> first | rfl | cases ha
  have h2 : b.isTvar = false := by cases b <;> first | rfl | cases hb
  rw [if_neg (by simp [h1, h2])] at e
  cases a <;> try (cases e; done)
  rename_i count size
  simp only at e
  obtain ⟨x, _, e⟩ := Except.bind_ok' e
  cases x <;> try (cases e; done)
  rename_i s
  simp only at e
  split at e
  · cases e
  split at e
  · split at e
    · split at e
      · obtain ⟨y, _, e⟩ := Except.bind_ok' e
        cases e; rfl
      · cases e; rfl
    · obtain ⟨y, _, e⟩ := Except.bind_ok' e
      cases e; rfl
  · obtain ⟨y, _, e⟩ := Except.bind_ok' e
    cases e; rfl

theorem indexAlias_solid {k : AliasKind} {args : List Hint} {h : Hint} (ha : ∀ a ∈ args, a.solid = true)
    (e : indexAlias ctx N k args = .ok h) : h.solid = true := by
  cases k with
  | tuple => cases e; rfl
  | char => match args, e with
    | [c], e => exact mkChar_solid (ha c (by simp)) e
  | unicode => match args, e with
    | [c, d], e => exact mkUnicode_solid (ha c (by simp)) e
  | header => match args, e with
    | [l, s], e => exact mkHeader_solid (ha l (by simp)) (ha s (by simp)) e
  | array => match args, e with
    | [a, b], e => exact mkArray_solid (ha a (by simp)) (ha b (by simp)) e

theorem not_solid {a : Hint} : (a.isTvar || a.isAlias) = !a.solid := by
  cases a <;> rfl

theorem any_not_solid {args : List Hint} : args.any (fun a => a.isTvar || a.isAlias) = args.any fun a => !a.solid := by
  congr 1; funext a; exact not_solid

theorem any_solid_false {args : List Hint} : args.any (fun a => !a.solid) = false ↔ ∀ a ∈ args, a.solid = true := by
  simp [List.any_eq_false]

theorem index_solid {k : AliasKind} {args : List Hint} {h : Hint} (ha : ∀ a ∈ args, a.solid = true)
    (e : index ctx N k args = .ok h) : h.solid = true := by
  unfold index at e
  rw [if_neg (by rw [any_solid_false.2 ha]; simp)] at e
  exact indexAlias_solid ha e

theorem okBind {α β : Type} {a : α} {f : α → Except Err β} : (Except.ok a >>= f) = f a := rfl

theorem valueList_cons {e : HExp} {es : List HExp} {hs : List Hint} (h : HExp.valueList ctx N (e :: es) = .ok hs) :
    ∃ x xs, hs = x :: xs ∧ e.value ctx N = .ok x ∧ HExp.valueList ctx N es = .ok xs := by
  rw [HExp.valueList] at h
  obtain ⟨x, h1, h⟩ := Except.bind_ok' h
  obtain ⟨xs, h2, h⟩ := Except.bind_ok' h
  cases h
  exact ⟨x, xs, rfl, h1, h2⟩

theorem valueList_nil {hs : List Hint} (h : HExp.valueList ctx N [] = .ok hs) : hs = [] := by cases h; rfl

theorem isVar_value {e : HExp} {h : Hint} (hv : e.isVar = true) (he : e.value ctx N = .ok h) : ∃ t, e = .var t ∧ h = .tvar t := by
  cases e <;> try cases hv
  rw [HExp.value] at he
  cases he
  exact ⟨_, rfl, rfl⟩

/-- An alias is made where variables are allowed. -/
theorem index_open {k : AliasKind} {args : List HExp} {hs : List Hint} (hal : varsAllowed k args = true)
    (hhdr : ∀ c ∈ args, ∀ x, c.value ctx N = .ok x → c.isOpenApp = true → x.isAlias = true)
    (hl : hs.any (fun a => !a.solid) = true)
    (h1 : HExp.valueList ctx N args = .ok hs) : index ctx N k hs = .ok (.alias k hs) := by
  cases k with
  | char =>
    match args, hal, h1 with
    | [c], hal, h1 =>
      obtain ⟨x, xs, rfl, e1, e2⟩ := valueList_cons h1
      cases valueList_nil e2
      obtain ⟨t, rfl, rfl⟩ := isVar_value hal e1
      rfl
  | unicode =>
    match args, hal, h1 with
    | [c, d], hal, h1 =>
      obtain ⟨x, xs, rfl, e1, e2⟩ := valueList_cons h1
      obtain ⟨y, ys, rfl, e3, e4⟩ := valueList_cons e2
      cases valueList_nil e4
      obtain ⟨t, rfl, rfl⟩ := isVar_value hal e1
      rfl
  | header =>
    match args, hal, h1 with
    | [c, d], hal, h1 =>
      obtain ⟨x, xs, rfl, e1, e2⟩ := valueList_cons h1
      obtain ⟨y, ys, rfl, e3, e4⟩ := valueList_cons e2
      cases valueList_nil e4
      show mkHeader x y = _
      unfold mkHeader
      simp only [varsAllowed, Bool.or_eq_true] at hal
      rcases hal with hal | hal
      · obtain ⟨t, rfl, rfl⟩ := isVar_value hal e1
        rfl
      · obtain ⟨t, rfl, rfl⟩ := isVar_value hal e3
        rw [if_pos (by simp [Hint.isTvar])]
  | array =>
    match args, hal, h1, hhdr with
    | [c, d], hal, h1, hhdr =>
      obtain ⟨x, xs, rfl, e1, e2⟩ := valueList_cons h1
      obtain ⟨y, ys, rfl, e3, e4⟩ := valueList_cons e2
      cases valueList_nil e4
      show mkArray ctx N x y = _
      unfold mkArray
      simp only [varsAllowed, Bool.or_eq_true] at hal
      rcases hal with hal | hal
      · have := hhdr c (by simp) x e1 hal
        rw [if_pos (by simp [this])]
      · obtain ⟨t, rfl, rfl⟩ := isVar_value hal e3
        rw [if_pos (by simp [Hint.isTvar])]
  | tuple =>
    unfold index
    rw [if_pos ⟨rfl, hl⟩]

mutual
/-- What the value of a proper expression looks like. -/
theorem value_shape : ∀ (e : HExp) (h : Hint), e.proper = true → e.value ctx N = .ok h →
    h.solid = e.vars.isEmpty ∧ (e.isOpenApp = true → h.isAlias = true)
  | .lit x, h, hp, he => by
    rw [HExp.value] at he
    cases he
    exact ⟨hp, fun hh => by cases hh⟩
  | .var t, h, hp, he => by
    rw [HExp.value] at he
    cases he
    exact ⟨rfl, fun hh => by cases hh⟩
  | .app k args, h, hp, he => by
    rw [HExp.value] at he
    obtain ⟨hs, h1, h2⟩ := Except.bind_ok' he
    simp only [HExp.proper, Bool.and_eq_true, Bool.or_eq_true] at hp
    obtain ⟨hp1, hp2⟩ := hp
    obtain ⟨hl, hhdr⟩ := value_shapeList args hs hp1 h1
    by_cases hv : (HExp.varsList args).isEmpty = true
    · rw [hv] at hl
      simp only [Bool.not_true] at hl
      have := index_solid (any_solid_false.1 hl) h2
      refine ⟨by simp only [HExp.vars]; rw [this, hv], fun hh => ?_⟩
      simp only [HExp.isOpenApp, hv] at hh
      cases hh
    · have hal : varsAllowed k args = true := by
        rcases hp2 with h | h
        · exact absurd h hv
        · exact h
      have hv : (HExp.varsList args).isEmpty = false := by simpa using hv
      rw [hv] at hl
      rw [index_open hal hhdr hl h1] at h2
      cases h2
      refine ⟨?_, fun _ => rfl⟩
      simp only [HExp.vars]
      rw [hv]
      rfl
theorem value_shapeList : ∀ (es : List HExp) (hs : List Hint), HExp.properList es = true → HExp.valueList ctx N es = .ok hs →
    hs.any (fun a => !a.solid) = !(HExp.varsList es).isEmpty ∧
      ∀ c ∈ es, ∀ x, c.value ctx N = .ok x → c.isOpenApp = true → x.isAlias = true
  | [], hs, _, h => by cases h; exact ⟨rfl, fun c hc => by cases hc⟩
  | e :: es, hs, hp, h => by
    simp only [HExp.properList, Bool.and_eq_true] at hp
    obtain ⟨x, xs, rfl, h1, h2⟩ := valueList_cons h
    have a := value_shape e x hp.1.1 h1
    have b := value_shapeList es xs hp.2 h2
    constructor
    · rw [List.any_cons, b.1, a.1, HExp.varsList]
      cases e.vars <;> simp
    · intro c hc y hy ho
      rcases List.mem_cons.1 hc with rfl | hc
      · cases h1.symm.trans hy
        exact a.2 ho
      · exact b.2 c hc y hy ho
end

/-- The value of an expression with variables. -/
theorem value_open {k : AliasKind} {args : List HExp} (hp : (HExp.app k args).proper = true) (hv : HExp.varsList args ≠ []) :
    (HExp.app k args).value ctx N = (HExp.valueList ctx N args).map (.alias k) := by
  rw [HExp.value]
  cases h : HExp.valueList ctx N args with
  | error e => rfl
  | ok hs =>
    simp only [HExp.proper, Bool.and_eq_true, Bool.or_eq_true] at hp
    obtain ⟨hl, hhdr⟩ := value_shapeList args hs hp.1 h
    have hv' : (HExp.varsList args).isEmpty = false := by simpa using hv
    rw [hv'] at hl hp
    exact index_open (by simpa using hp.2) hhdr hl h

/-- The value of an expression without variables. -/
theorem value_closed {k : AliasKind} {args : List HExp} (hp : (HExp.app k args).proper = true) (hv : HExp.varsList args = []) :
    (HExp.app k args).value ctx N = (HExp.valueList ctx N args) >>= indexAlias ctx N k := by
  rw [HExp.value]
  cases h : HExp.valueList ctx N args with
  | error e => rfl
  | ok hs =>
    simp only [HExp.proper, Bool.and_eq_true, Bool.or_eq_true] at hp
    obtain ⟨hl, _⟩ := value_shapeList args hs hp.1 h
    rw [hv] at hl
    simp only [okBind, index]
    rw [if_neg (by rw [hl]; simp)]

/-- What `resolve` makes of the arguments. -/
def finishAlias (ctx : HintCtx) (N : Nat) (k : AliasKind) (rs : List Hint) : Except Err Hint :=
  if rs.any (fun a => !a.solid) then .ok (.alias k rs) else indexAlias ctx N k rs

theorem resolve_alias {n : Nat} {m : TMap} {k : AliasKind} {args : List Hint} :
    resolve ctx N (n + 1) m (.alias k args) = resolveArgs (resolve ctx N n m) m args >>= finishAlias ctx N k := by
  simp only [resolve, any_not_solid]
  rfl

theorem resolve_galias {n : Nat} {m : TMap} {c : ClassId} {own args : List Hint} :
    resolve ctx N (n + 1) m (.galias c own args) = resolveArgs (resolve ctx N n m) m args >>= fun rs =>
      if rs.any (fun a => !a.solid) then .ok (.galias c own rs) else indexGeneric c own rs := by
  simp only [resolve, any_not_solid]

/-- The value of a proper expression, from those of its arguments. -/
theorem value_app {k : AliasKind} {args : List HExp} (hp : (HExp.app k args).proper = true) :
    (HExp.app k args).value ctx N = HExp.valueList ctx N args >>= finishAlias ctx N k := by
  by_cases hv : HExp.varsList args = []
  · rw [value_closed hp hv]
    cases h : HExp.valueList ctx N args with
    | error e => rfl
    | ok hs =>
      simp only [HExp.proper, Bool.and_eq_true] at hp
      have := (value_shapeList args hs hp.1 h).1
      rw [hv] at this
      simp only [okBind, finishAlias]
      rw [if_neg (by rw [this]; simp)]
  · rw [value_open hp hv]
    cases h : HExp.valueList ctx N args with
    | error e => rfl
    | ok hs =>
      simp only [HExp.proper, Bool.and_eq_true] at hp
      have := (value_shapeList args hs hp.1 h).1
      simp only [okBind, finishAlias]
      rw [if_pos (by rw [this]; simpa using hv)]
      rfl

theorem get_solid {m : TMap} {h : Hint} (hs : h.solid = true) : m.get h = h := by
  cases h <;> first | rfl | cases hs

theorem get_alias {m : TMap} {h : Hint} (hs : h.isAlias = true) : m.get h = h := by
  cases h <;> first | rfl | cases hs

theorem solid_not_alias {h : Hint} (hs : h.solid = true) : h.isAlias = false := by
  cases h <;> first | rfl | cases hs

theorem solid_of_not {h : Hint} (ht : h.isTvar = false) (ha : h.isAlias = false) : h.solid = true := by
  simp [Hint.solid, ht, ha]

theorem mapOf_find {s : List (TVar × HExp)} {m : TMap} (h : MapOf ctx N s m) (t : TVar) :
    (s.find? (fun p => p.1 == t) = none ∧ m.find? (fun p => p.1 == t) = none) ∨
    ∃ p q, s.find? (fun p => p.1 == t) = some p ∧ m.find? (fun p => p.1 == t) = some q ∧ p ∈ s ∧ p.2.value ctx N = .ok q.2 := by
  induction s generalizing m with
  | nil => cases m with
    | nil => exact .inl ⟨rfl, rfl⟩
    | cons q m => exact h.elim
  | cons p s ih => cases m with
   | nil => exact h.elim
   | cons q m =>
    obtain ⟨hpq, h⟩ := h
    have ih := ih h
    simp only [List.find?_cons, ← hpq.1]
    by_cases hpt : (p.1 == t) = true
    · simp only [hpt]
      exact .inr ⟨p, q, rfl, rfl, by simp, hpq.2⟩
    · simp only [hpt]
      rcases ih with h | ⟨p', q', h1, h2, h3, h4⟩
      · exact .inl h
      · exact .inr ⟨p', q', h1, h2, List.mem_cons_of_mem _ h3, h4⟩

theorem find_none_of_not_mem {s : List (TVar × α)} {t : TVar} (h : t ∉ s.map (·.1)) : s.find? (fun p => p.1 == t) = none := by
  simp only [List.find?_eq_none]
  intro p hp he
  exact h (List.mem_map.2 ⟨p, hp, by simpa using he⟩)

mutual
theorem subst_id (s : List (TVar × HExp)) : ∀ e : HExp, (∀ t ∈ e.vars, t ∉ s.map (·.1)) → e.subst s = e
  | .lit _, _ => rfl
  | .var t, h => by
    simp only [HExp.subst, find_none_of_not_mem (h t (by simp [HExp.vars]))]
  | .app k args, h => by
    simp only [HExp.subst, substList_id s args h]
theorem substList_id (s : List (TVar × HExp)) : ∀ es : List HExp, (∀ t ∈ HExp.varsList es, t ∉ s.map (·.1)) → HExp.substList s es = es
  | [], _ => rfl
  | e :: es, h => by
    simp only [HExp.varsList, List.mem_append] at h
    simp only [HExp.substList, subst_id s e (fun t ht => h t (.inl ht)), substList_id s es fun t ht => h t (.inr ht)]
end

/-- One argument of an alias. -/
def resolveArg (ctx : HintCtx) (N n : Nat) (m : TMap) (a : Hint) : Except Err Hint :=
  if (m.get a).isAlias then resolve ctx N n m (m.get a) else .ok (m.get a)

theorem resolveArgs_cons {n : Nat} {m : TMap} {a : Hint} {as : List Hint} :
    resolveArgs (resolve ctx N n m) m (a :: as) = (do
      let r ← resolveArg ctx N n m a
      let rs ← resolveArgs (resolve ctx N n m) m as
      .ok (r :: rs)) := by
  rw [resolveArgs]
  unfold resolveArg
  by_cases h : (m.get a).isAlias = true
  · simp only [h, if_true]
  · simp only [h]; rfl

mutual
/-- Without variables to be replaced nothing happens. -/
theorem resolveArg_id {s : List (TVar × HExp)} {m : TMap} (hm : MapOf ctx N s m) : ∀ (e : HExp) (n : Nat) (h : Hint), e.proper = true →
    (∀ t ∈ e.vars, t ∉ s.map (·.1)) → e.value ctx N = .ok h → e.depth ≤ n → resolveArg ctx N n m h = .ok h
  | .lit x, n, h, hp, _, he, _ => by
    cases he
    unfold resolveArg
    rw [get_solid hp, if_neg (by rw [solid_not_alias hp]; simp)]
  | .var t, n, h, hp, hd, he, _ => by
    cases he
    have hn : m.find? (fun p => p.1 == t) = none := by
      rcases mapOf_find hm t with h | ⟨p, q, h1, h2, h3, h4⟩
      · exact h.2
      · exact absurd h1 (by rw [find_none_of_not_mem (hd t (by simp [HExp.vars]))]; simp)
    simp only [resolveArg, TMap.get, hn]
    rfl
  | .app k args, n, h, hp, hd, he, hn => by
    by_cases hv : HExp.varsList args = []
    · have hs := (value_shape _ _ hp he).1
      simp only [HExp.vars, hv] at hs
      have hs : h.solid = true := hs
      unfold resolveArg
      rw [get_solid hs, if_neg (by rw [solid_not_alias hs]; simp)]
    · have he' := he
      rw [value_open hp hv] at he'
      cases hl : HExp.valueList ctx N args with
      | error e => rw [hl] at he'; cases he'
      | ok hs =>
        rw [hl] at he'
        cases he'
        simp only [HExp.depth] at hn
        obtain ⟨n, rfl⟩ : ∃ k, n = k + 1 := ⟨n - 1, by omega⟩
        have hp1 : HExp.properList args = true := by
          simp only [HExp.proper, Bool.and_eq_true] at hp; exact hp.1
        have ih := resolveArgs_id hm args n hs hp1 hd hl (by omega)
        simp only [resolveArg, TMap.get, Hint.isAlias, if_true]
        rw [resolve_alias, ih]
        simp only [okBind, finishAlias]
        rw [(value_shapeList args hs hp1 hl).1, if_pos (by simpa using hv)]
theorem resolveArgs_id {s : List (TVar × HExp)} {m : TMap} (hm : MapOf ctx N s m) : ∀ (es : List HExp) (n : Nat) (hs : List Hint),
    HExp.properList es = true → (∀ t ∈ HExp.varsList es, t ∉ s.map (·.1)) → HExp.valueList ctx N es = .ok hs →
    HExp.depthList es ≤ n → resolveArgs (resolve ctx N n m) m hs = .ok hs
  | [], n, hs, _, _, h, _ => by cases h; rfl
  | e :: es, n, hs, hp, hd, h, hn => by
    simp only [HExp.properList, Bool.and_eq_true] at hp
    simp only [HExp.varsList, List.mem_append] at hd
    simp only [HExp.depthList] at hn
    obtain ⟨x, xs, rfl, h1, h2⟩ := valueList_cons h
    rw [resolveArgs_cons, resolveArg_id hm e n x hp.1.1 (fun t ht => hd t (.inl ht)) h1 (by omega),
      resolveArgs_id hm es n xs hp.2 (fun t ht => hd t (.inr ht)) h2 (by omega)]
    rfl
end

mutual
/-- Resolving is substitution. -/
theorem resolveArg_subst {s : List (TVar × HExp)} {m : TMap} (hm : MapOf ctx N s m) (ha : Apart s) :
    ∀ (e : HExp) (n : Nat) (h : Hint), e.proper = true → (e.subst s).proper = true → e.value ctx N = .ok h →
    (e.subst s).depth ≤ n → resolveArg ctx N n m h = (e.subst s).value ctx N
  | .lit x, n, h, hp, _, he, _ => by
    cases he
    unfold resolveArg
    rw [get_solid hp, if_neg (by rw [solid_not_alias hp]; simp)]
    rfl
  | .var t, n, h, hp, hp2, he, hn => by
    cases he
    simp only [HExp.subst] at hp2 hn ⊢
    rcases mapOf_find hm t with ⟨h1, h2⟩ | ⟨p, q, h1, h2, h3, h4⟩
    · simp only [resolveArg, TMap.get, h1, h2]
      rfl
    · simp only [h1] at hp2 hn ⊢
      rw [h4, ← resolveArg_id hm p.2 n q.2 hp2 (ha p h3) h4 hn]
      have hq : m.get q.2 = q.2 := by
        cases hq : q.2 with
        | tvar t' =>
          have hv : p.2.isVar = true := by
            have hsol := (value_shape _ _ hp2 h4).1
            rw [hq] at hsol
            cases he : p.2 with
            | lit x =>
              rw [he] at hp2 h4
              simp only [HExp.value, Except.ok.injEq] at h4
              rw [HExp.proper, h4, hq] at hp2
              cases hp2
            | var _ => rfl
            | app k args =>
              rw [he] at hsol hp2 h4
              have hv : HExp.varsList args ≠ [] := by
                intro hv
                simp only [HExp.vars, hv] at hsol
                cases hsol
              rw [value_open hp2 hv, hq] at h4
              cases hl : HExp.valueList ctx N args <;> rw [hl] at h4 <;> cases h4
          obtain ⟨t'', e1, e2⟩ := isVar_value hv h4
          have : t'' ∉ s.map (·.1) := ha p h3 t'' (by rw [e1]; simp [HExp.vars])
          rw [hq] at e2
          cases e2
          rcases mapOf_find hm t' with h | ⟨p', q', h1', _⟩
          · simp only [TMap.get, h.2]
          · rw [find_none_of_not_mem this] at h1'; cases h1'
        | _ => rfl
      have e1 : m.get (Hint.tvar t) = q.2 := by simp only [TMap.get, h2]
      simp only [resolveArg, e1, hq]
  | .app k args, n, h, hp, hp2, he, hn => by
    by_cases hv : HExp.varsList args = []
    · have hs := (value_shape _ _ hp he).1
      simp only [HExp.vars, hv] at hs
      have hs : h.solid = true := hs
      rw [subst_id s (.app k args) (by intro t ht; simp only [HExp.vars, hv] at ht; cases ht), he]
      unfold resolveArg
      rw [get_solid hs, if_neg (by rw [solid_not_alias hs]; simp)]
    · have he' := he
      rw [value_open hp hv] at he'
      cases hl : HExp.valueList ctx N args with
      | error e => rw [hl] at he'; cases he'
      | ok hs =>
        rw [hl] at he'
        cases he'
        simp only [HExp.subst, HExp.depth] at hn
        simp only [HExp.subst] at hp2
        obtain ⟨n, rfl⟩ : ∃ k, n = k + 1 := ⟨n - 1, by omega⟩
        have hp1 : HExp.properList args = true := by
          simp only [HExp.proper, Bool.and_eq_true] at hp; exact hp.1
        have hp3 : HExp.properList (HExp.substList s args) = true := by
          simp only [HExp.proper, Bool.and_eq_true] at hp2; exact hp2.1
        have ih := resolveArgs_subst hm ha args n hs hp1 hp3 hl (by omega)
        simp only [resolveArg, TMap.get, Hint.isAlias, if_true, HExp.subst]
        rw [resolve_alias, ih, value_app hp2]
theorem resolveArgs_subst {s : List (TVar × HExp)} {m : TMap} (hm : MapOf ctx N s m) (ha : Apart s) :
    ∀ (es : List HExp) (n : Nat) (hs : List Hint), HExp.properList es = true → HExp.properList (HExp.substList s es) = true →
    HExp.valueList ctx N es = .ok hs → HExp.depthList (HExp.substList s es) ≤ n →
    resolveArgs (resolve ctx N n m) m hs = HExp.valueList ctx N (HExp.substList s es)
  | [], n, hs, _, _, h, _ => by cases h; rfl
  | e :: es, n, hs, hp, hp2, h, hn => by
    simp only [HExp.substList, HExp.properList, Bool.and_eq_true] at hp hp2
    simp only [HExp.substList, HExp.depthList] at hn
    obtain ⟨x, xs, rfl, h1, h2⟩ := valueList_cons h
    rw [resolveArgs_cons, resolveArg_subst hm ha e n x hp.1.1 hp2.1.1 h1 (by omega),
      resolveArgs_subst hm ha es n xs hp.2 hp2.2 h2 (by omega)]
    rfl
end

mutual
/-- Closed expressions for all variables. -/
theorem subst_closed {s : List (TVar × HExp)} (hs : ∀ p ∈ s, p.2.proper = true ∧ p.2.vars = []) : ∀ e : HExp, e.proper = true →
    (∀ t ∈ e.vars, t ∈ s.map (·.1)) → (e.subst s).proper = true ∧ (e.subst s).vars = []
  | .lit _, hp, _ => ⟨hp, rfl⟩
  | .var t, _, h => by
    obtain ⟨p, hp, hpt⟩ := List.mem_map.1 (h t (by simp [HExp.vars]))
    cases hf : s.find? (fun p => p.1 == t) with
    | none => exact absurd hpt (by simpa using List.find?_eq_none.1 hf p hp)
    | some q =>
      simp only [HExp.subst, hf]
      exact hs q (List.mem_of_find?_eq_some hf)
  | .app k args, hp, h => by
    simp only [HExp.proper, Bool.and_eq_true] at hp
    have := substList_closed hs args hp.1 h
    simp only [HExp.subst, HExp.proper, HExp.vars, this.1, this.2]
    exact ⟨rfl, trivial⟩
theorem substList_closed {s : List (TVar × HExp)} (hs : ∀ p ∈ s, p.2.proper = true ∧ p.2.vars = []) : ∀ es : List HExp,
    HExp.properList es = true → (∀ t ∈ HExp.varsList es, t ∈ s.map (·.1)) →
    HExp.properList (HExp.substList s es) = true ∧ HExp.varsList (HExp.substList s es) = []
  | [], _, _ => ⟨rfl, rfl⟩
  | e :: es, hp, h => by
    simp only [HExp.properList, Bool.and_eq_true] at hp
    simp only [HExp.varsList, List.mem_append] at h
    have h1 := subst_closed hs e hp.1.1 fun t ht => h t (.inl ht)
    have h2 := substList_closed hs es hp.2 fun t ht => h t (.inr ht)
    have h3 : (e.subst s).isOpenTuple = false := by
      cases he : e.subst s with
      | app k args =>
        have := h1.2
        rw [he] at this
        simp only [HExp.vars] at this
        cases k <;> simp [HExp.isOpenTuple, this]
      | _ => rfl
    simp only [HExp.substList, HExp.properList, HExp.varsList, h1.1, h1.2, h2.1, h2.2, h3]
    exact ⟨rfl, rfl⟩
end

/-- What a result of `resolve` is. -/
theorem resolve_result {n : Nat} {m : TMap} {h r : Hint} (e : resolve ctx N n m h = .ok r) : r.isTvar = false := by
  cases n with
  | zero => cases e
  | succ n =>
    cases h <;> try (cases e; done)
    · rw [resolve_alias] at e
      obtain ⟨rs, _, e⟩ := Except.bind_ok' e
      unfold finishAlias at e
      split at e
      · cases e; rfl
      · rename_i hh
        have := indexAlias_solid (any_solid_false.1 (by simpa using hh)) e
        cases r <;> first | rfl | cases this
    · rw [resolve_galias] at e
      obtain ⟨rs, _, e⟩ := Except.bind_ok' e
      split at e
      · cases e; rfl
      · unfold indexGeneric at e
        simp only at e
        split at e
        · cases e
        · cases e; rfl

theorem get_tvar_solid {m : TMap} (hm : m.Solid) (t : TVar) : (m.get (.tvar t)).solid = true ∨ m.get (.tvar t) = .tvar t := by
  simp only [TMap.get]
  cases h : m.find? (fun p => p.1 == t) with
  | none => exact .inr rfl
  | some p => exact .inl (hm p (List.mem_of_find?_eq_some h))

/-- One argument, with solid types for the variables. -/
theorem resolveArg_cases {n : Nat} {m : TMap} (hm : m.Solid) (a : Hint) :
    (∃ t, a = .tvar t ∧ resolveArg ctx N n m a = .ok (m.get a)) ∨
    (a.isAlias = true ∧ resolveArg ctx N n m a = resolve ctx N n m a) ∨
    (a.solid = true ∧ resolveArg ctx N n m a = .ok a) := by
  cases ht : a.isTvar with
  | true =>
    cases a <;> try (cases ht; done)
    rename_i t
    refine .inl ⟨t, rfl, ?_⟩
    unfold resolveArg
    rw [if_neg]
    rcases get_tvar_solid hm t with h | h
    · rw [solid_not_alias h]; simp
    · rw [h]; simp [Hint.isAlias]
  | false => cases ha : a.isAlias with
    | true =>
      refine .inr (.inl ⟨rfl, ?_⟩)
      unfold resolveArg
      rw [get_alias ha, if_pos ha]
    | false =>
      have hs := solid_of_not ht ha
      refine .inr (.inr ⟨hs, ?_⟩)
      unfold resolveArg
      rw [get_solid hs, if_neg (by rw [ha]; simp)]

theorem resolveArgs_solid {n : Nat} {m : TMap} (hm : m.Solid) : ∀ {as : List Hint}, (∀ a ∈ as, a.solid = true) →
    resolveArgs (resolve ctx N n m) m as = .ok as
  | [], _ => rfl
  | a :: as, h => by
    rw [resolveArgs_cons, resolveArgs_solid hm fun x hx => h x (List.mem_cons_of_mem _ hx)]
    have ha := h a (by simp)
    rcases resolveArg_cases (ctx := ctx) (N := N) (n := n) hm a with ⟨t, rfl, _⟩ | ⟨h1, _⟩ | ⟨_, h1⟩
    · cases ha
    · rw [solid_not_alias ha] at h1; cases h1
    · rw [h1]; rfl

theorem get_append_none {m1 m2 : TMap} {t : TVar} (h : m1.find? (fun p => p.1 == t) = none) :
    TMap.get (m1 ++ m2) (.tvar t) = m2.get (.tvar t) := by
  simp only [TMap.get, List.find?_append, h, Option.none_or]

theorem get_append_some {m1 m2 : TMap} {t : TVar} {p : TVar × Hint} (h : m1.find? (fun p => p.1 == t) = some p) :
    TMap.get (m1 ++ m2) (.tvar t) = p.2 := by
  simp only [TMap.get, List.find?_append, h, Option.some_or]

theorem solid_append {m1 m2 : TMap} (h1 : m1.Solid) (h2 : m2.Solid) : TMap.Solid (m1 ++ m2) := by
  intro p hp
  rcases List.mem_append.1 hp with h | h
  · exact h1 p h
  · exact h2 p h

/-- What two steps do to an argument. -/
def TwoSteps (ctx : HintCtx) (N n : Nat) (m1 m2 : TMap) (h : Hint) : Except Err Hint → Prop
  | .ok h1 => (h1.isAlias = true → resolve ctx N n m2 h1 = resolve ctx N n (m1 ++ m2) h) ∧
      (h1.isAlias = false → resolve ctx N n (m1 ++ m2) h = .ok h1)
  | .error _ => ∃ e, resolve ctx N n (m1 ++ m2) h = .error e

theorem resolveArgs_two {n : Nat} {m1 m2 : TMap} (hm1 : m1.Solid) (hm2 : m2.Solid)
    (ih : ∀ h : Hint, h.isAlias = true → TwoSteps ctx N n m1 m2 h (resolve ctx N n m1 h)) : ∀ as : List Hint,
    match resolveArgs (resolve ctx N n m1) m1 as with
    | .ok rs => resolveArgs (resolve ctx N n m2) m2 rs = resolveArgs (resolve ctx N n (m1 ++ m2)) (m1 ++ m2) as
    | .error _ => ∃ e, resolveArgs (resolve ctx N n (m1 ++ m2)) (m1 ++ m2) as = .error e
  | [] => rfl
  | a :: as => by
    have ihs := resolveArgs_two hm1 hm2 ih as
    have key : match resolveArg ctx N n m1 a with
        | .ok r => resolveArg ctx N n m2 r = resolveArg ctx N n (m1 ++ m2) a
        | .error _ => ∃ e, resolveArg ctx N n (m1 ++ m2) a = .error e := by
      rcases resolveArg_cases (ctx := ctx) (N := N) (n := n) hm1 a with ⟨t, rfl, h1⟩ | ⟨h0, h1⟩ | ⟨h0, h1⟩
      · rw [h1]
        simp only
        cases hf : m1.find? (fun p => p.1 == t) with
        | none =>
          have e1 : m1.get (.tvar t) = .tvar t := by simp only [TMap.get, hf]
          simp only [e1, resolveArg, get_append_none hf]
          rcases get_tvar_solid hm2 t with h | h
          · rw [if_neg (by rw [solid_not_alias h]; simp), if_neg (by rw [solid_not_alias h]; simp)]
          · rw [h]; rfl
        | some p =>
          have e1 : m1.get (.tvar t) = p.2 := by simp only [TMap.get, hf]
          have hp := hm1 p (List.mem_of_find?_eq_some hf)
          simp only [e1, resolveArg, get_append_some hf, get_solid hp, solid_not_alias hp]
          rfl
      · rw [h1]
        have h2 := ih a h0
        rcases resolveArg_cases (ctx := ctx) (N := N) (n := n) (solid_append hm1 hm2) a with ⟨t, rfl, _⟩ | ⟨_, h3⟩ | ⟨h3, _⟩
        · cases h0
        · rw [h3]
          cases hr : resolve ctx N n m1 a with
          | error e => rw [hr] at h2; exact h2
          | ok r =>
            rw [hr] at h2
            simp only
            have ht := resolve_result hr
            cases ha : r.isAlias with
            | true => 
              rw [← h2.1 ha]
              simp only [resolveArg, get_alias ha, ha, if_true]
            | false =>
              rw [h2.2 ha]
              have hs := solid_of_not ht ha
              simp only [resolveArg, get_solid hs, ha]
              rfl
        · rw [solid_not_alias h3] at h0; cases h0
      · rw [h1]
        simp only [resolveArg, get_solid h0]
        rw [if_neg (by rw [solid_not_alias h0]; simp), if_neg (by rw [solid_not_alias h0]; simp)]
    rw [resolveArgs_cons, resolveArgs_cons]
    cases hr : resolveArg ctx N n m1 a with
    | error e =>
      rw [hr] at key
      obtain ⟨e', key⟩ := key
      exact ⟨e', by rw [key]; rfl⟩
    | ok r =>
      rw [hr] at key
      simp only at key
      cases hrs : resolveArgs (resolve ctx N n m1) m1 as with
      | error e =>
        rw [hrs] at ihs
        obtain ⟨e', ihs⟩ := ihs
        simp only [okBind]
        rw [← key, ihs]
        cases resolveArg ctx N n m2 r with
        | error e => exact ⟨_, rfl⟩
        | ok r' => exact ⟨_, rfl⟩
      | ok rs =>
        rw [hrs] at ihs
        simp only at ihs
        simp only [okBind]
        rw [resolveArgs_cons, key, ihs]

theorem resolve_two {m1 m2 : TMap} (hm1 : m1.Solid) (hm2 : m2.Solid) : ∀ (n : Nat) (h : Hint), h.isAlias = true →
    TwoSteps ctx N n m1 m2 h (resolve ctx N n m1 h)
  | 0, h, _ => ⟨_, rfl⟩
  | n + 1, h, ha => by
    have ih := resolve_two hm1 hm2 n
    cases h <;> try (cases ha; done)
    · rename_i k args
      have hl := resolveArgs_two hm1 hm2 ih args
      rw [resolve_alias]
      cases hr : resolveArgs (resolve ctx N n m1) m1 args with
      | error e =>
        rw [hr] at hl
        obtain ⟨e', hl⟩ := hl
        exact ⟨e', by rw [resolve_alias, hl]; rfl⟩
      | ok rs =>
        rw [hr] at hl
        simp only at hl
        simp only [okBind]
        cases hs : rs.any (fun a => !a.solid) with
        | true =>
          have e1 : finishAlias ctx N k rs = .ok (.alias k rs) := by unfold finishAlias; rw [if_pos hs]
          rw [e1]
          exact ⟨fun _ => by rw [resolve_alias, resolve_alias, hl], fun h => by cases h⟩
        | false =>
          rw [resolveArgs_solid hm2 (any_solid_false.1 hs)] at hl
          cases hf : finishAlias ctx N k rs with
          | error e => exact ⟨e, by rw [resolve_alias, ← hl]; exact hf⟩
          | ok h1 =>
            have hsol := indexAlias_solid (any_solid_false.1 hs) (by unfold finishAlias at hf; rw [if_neg (by rw [hs]; simp)] at hf; exact hf)
            refine ⟨fun h => ?_, fun _ => by rw [resolve_alias, ← hl]; exact hf⟩
            rw [solid_not_alias hsol] at h; cases h
    · rename_i c own args
      have hl := resolveArgs_two hm1 hm2 ih args
      rw [resolve_galias]
      cases hr : resolveArgs (resolve ctx N n m1) m1 args with
      | error e =>
        rw [hr] at hl
        obtain ⟨e', hl⟩ := hl
        exact ⟨e', by rw [resolve_galias, hl]; rfl⟩
      | ok rs =>
        rw [hr] at hl
        simp only at hl
        simp only [okBind]
        cases hs : rs.any (fun a => !a.solid) with
        | true =>
          simp only [if_true]
          exact ⟨fun _ => by rw [resolve_galias, resolve_galias, hl], fun h => by cases h⟩
        | false =>
          rw [resolveArgs_solid hm2 (any_solid_false.1 hs)] at hl
          have hh : resolve ctx N (n + 1) (m1 ++ m2) (.galias c own args) = indexGeneric c own rs := by
            rw [resolve_galias, ← hl]
            simp only [okBind, hs]
            rfl
          simp only [Bool.false_eq_true, if_false]
          cases hg : indexGeneric c own rs with
          | error e => exact ⟨e, hh.trans hg⟩
          | ok r =>
            have hr : r.isAlias = false := by
              unfold indexGeneric at hg
              simp only at hg
              split at hg <;> cases hg
              rfl
            exact ⟨fun h => (by rw [hr] at h; cases h), fun _ => hh.trans hg⟩

/-- The variables that are left. -/
def leftVars (m : TMap) (ts : List TVar) : List TVar := ts.filter fun t => (m.find? (fun p => p.1 == t)).isNone

theorem solid_vars {h : Hint} (hs : h.solid = true) : h.aliasVars = [] := by
  cases h <;> first | rfl | cases hs

theorem resolveArgs_vars {n : Nat} {m : TMap} (hm : m.Solid)
    (ih : ∀ h r : Hint, h.isAlias = true → resolve ctx N n m h = .ok r → r.aliasVars = leftVars m h.aliasVars) :
    ∀ (as rs : List Hint), resolveArgs (resolve ctx N n m) m as = .ok rs →
      Hint.aliasVarsList rs = leftVars m (Hint.aliasVarsList as)
  | [], rs, h => by cases h; rfl
  | a :: as, rs, h => by
    rw [resolveArgs_cons] at h
    obtain ⟨r, h1, h⟩ := Except.bind_ok' h
    obtain ⟨rs, h2, h⟩ := Except.bind_ok' h
    cases h
    have ihs := resolveArgs_vars hm ih as rs h2
    have key : r.aliasVars = leftVars m a.aliasVars := by
      rcases resolveArg_cases (ctx := ctx) (N := N) (n := n) hm a with ⟨t, rfl, h3⟩ | ⟨h0, h3⟩ | ⟨h0, h3⟩
      · rw [h3] at h1
        cases h1
        simp only [TMap.get, Hint.aliasVars, leftVars, List.filter_cons, List.filter_nil]
        cases hf : m.find? (fun p => p.1 == t) with
        | none => rfl
        | some p => exact solid_vars (hm p (List.mem_of_find?_eq_some hf))
      · exact ih a r h0 (h3 ▸ h1)
      · rw [h3] at h1
        cases h1
        rw [solid_vars h0]; rfl
    simp only [Hint.aliasVarsList, key, ihs, leftVars, List.filter_append]

theorem resolve_vars {m : TMap} (hm : m.Solid) : ∀ (n : Nat) (h r : Hint), h.isAlias = true → resolve ctx N n m h = .ok r →
    r.aliasVars = leftVars m h.aliasVars
  | 0, h, r, _, e => by cases e
  | n + 1, h, r, ha, e => by
    have ih := resolve_vars hm n
    have sol : ∀ {rs : List Hint}, rs.any (fun a => !a.solid) = false → Hint.aliasVarsList rs = [] := by
      intro rs hs
      have := any_solid_false.1 hs
      clear hs
      induction rs with
      | nil => rfl
      | cons a rs ih2 =>
        simp only [Hint.aliasVarsList, solid_vars (this a (by simp)), ih2 fun x hx => this x (List.mem_cons_of_mem _ hx)]
        rfl
    cases h <;> try (cases ha; done)
    · rename_i k args
      rw [resolve_alias] at e
      obtain ⟨rs, h1, e⟩ := Except.bind_ok' e
      have hl := resolveArgs_vars hm ih args rs h1
      unfold finishAlias at e
      split at e
      · cases e; exact hl
      · rename_i hs
        have hs : rs.any (fun a => !a.solid) = false := by simpa using hs
        rw [solid_vars (indexAlias_solid (any_solid_false.1 hs) e)]
        simp only [Hint.aliasVars]
        rw [← hl, sol hs]
    · rename_i c own args
      rw [resolve_galias] at e
      obtain ⟨rs, h1, e⟩ := Except.bind_ok' e
      have hl := resolveArgs_vars hm ih args rs h1
      split at e
      · cases e; exact hl
      · rename_i hs
        have hs : rs.any (fun a => !a.solid) = false := by simpa using hs
        unfold indexGeneric at e
        simp only at e
        split at e
        · cases e
        · cases e
          simp only [Hint.aliasVars]
          rw [← hl, sol hs]

theorem indexGeneric_solid {c : ClassId} {own args : List Hint} {r : Hint} (h : indexGeneric c own args = .ok r) : r.solid = true := by
  unfold indexGeneric at h
  simp only at h
  split at h <;> cases h
  rfl

theorem resolveArgs_all {n : Nat} {m : TMap} (hm : m.Solid)
    (ih : ∀ h r : Hint, h.isAlias = true → (∀ t ∈ h.aliasVars, t ∈ m.map (·.1)) → resolve ctx N n m h = .ok r → r.solid = true) :
    ∀ (as rs : List Hint), (∀ t ∈ Hint.aliasVarsList as, t ∈ m.map (·.1)) → resolveArgs (resolve ctx N n m) m as = .ok rs →
      ∀ r ∈ rs, r.solid = true
  | [], rs, _, h => by cases h; simp
  | a :: as, rs, hall, h => by
    rw [resolveArgs_cons] at h
    obtain ⟨r, h1, h⟩ := Except.bind_ok' h
    obtain ⟨rs, h2, h⟩ := Except.bind_ok' h
    cases h
    simp only [Hint.aliasVarsList, List.mem_append] at hall
    have ihs := resolveArgs_all hm ih as rs (fun t ht => hall t (.inr ht)) h2
    intro x hx
    rcases List.mem_cons.1 hx with rfl | hx
    · rcases resolveArg_cases (ctx := ctx) (N := N) (n := n) hm a with ⟨t, rfl, h3⟩ | ⟨h0, h3⟩ | ⟨h0, h3⟩
      · rw [h3] at h1
        cases h1
        obtain ⟨p, hp, hpt⟩ := List.mem_map.1 (hall t (.inl (by simp [Hint.aliasVars])))
        cases hf : m.find? (fun p => p.1 == t) with
        | none => exact absurd hpt (by simpa using List.find?_eq_none.1 hf p hp)
        | some q =>
          simp only [TMap.get, hf]
          exact hm q (List.mem_of_find?_eq_some hf)
      · exact ih a x h0 (fun t ht => hall t (.inl ht)) (h3 ▸ h1)
      · rw [h3] at h1
        cases h1
        exact h0
    · exact ihs x hx

theorem resolve_all {m : TMap} (hm : m.Solid) : ∀ (n : Nat) (h r : Hint), h.isAlias = true → (∀ t ∈ h.aliasVars, t ∈ m.map (·.1)) →
    resolve ctx N n m h = .ok r → r.solid = true
  | 0, h, r, _, _, e => by cases e
  | n + 1, h, r, ha, hall, e => by
    have ih := resolve_all hm n
    cases h <;> try (cases ha; done)
    · rename_i k args
      rw [resolve_alias] at e
      obtain ⟨rs, h1, e⟩ := Except.bind_ok' e
      have hl := resolveArgs_all hm ih args rs hall h1
      unfold finishAlias at e
      rw [if_neg (by rw [any_solid_false.2 hl]; simp)] at e
      exact indexAlias_solid hl e
    · rename_i c own args
      rw [resolve_galias] at e
      obtain ⟨rs, h1, e⟩ := Except.bind_ok' e
      have hl := resolveArgs_all hm ih args rs hall h1
      rw [if_neg (by rw [any_solid_false.2 hl]; simp)] at e
      exact indexGeneric_solid e

/-- Substituting in a list of distinct variables. -/
theorem tsubst_vars : ∀ {ts : List TVar} {xs : List Hint}, ts.Nodup → ts.length = xs.length →
    Hint.tsubstList (ts.zip xs) (ts.map .tvar) = xs := by
  have map_eq : ∀ (m : TMap) (ts : List TVar), Hint.tsubstList m (ts.map .tvar) = ts.map fun t => m.get (.tvar t) := by
    intro m ts
    induction ts with
    | nil => rfl
    | cons t ts ih => simp only [List.map_cons, Hint.tsubstList, Hint.tsubst, ih]
  intro ts xs
  rw [map_eq]
  induction ts generalizing xs with
  | nil => intro _ h; cases xs with
    | nil => rfl
    | cons => cases h
  | cons t ts ih =>
    intro hn hl
    cases xs with
    | nil => cases hl
    | cons x xs =>
      rw [List.map_cons]
      have h1 : TMap.get (((t :: ts).zip (x :: xs))) (.tvar t) = x := by simp [TMap.get]
      rw [h1]
      congr 1
      rw [List.nodup_cons] at hn
      refine Eq.trans ?_ (ih hn.2 (by simpa using hl))
      apply List.map_congr_left
      intro t' ht'
      have : (t == t') = false := by
        simp only [beq_eq_false_iff_ne]
        rintro rfl
        exact hn.1 ht'
      simp only [TMap.get, List.zip_cons_cons, List.find?_cons, this]

theorem paramsList_vars : ∀ ts : List TVar, Hint.paramsList (ts.map .tvar) = ts
  | [] => rfl
  | t :: ts => by simp only [List.map_cons, Hint.paramsList, Hint.params, paramsList_vars ts]; rfl

theorem dedup_nodup : ∀ {ts : List TVar}, ts.Nodup → dedup ts = ts
  | [], _ => rfl
  | t :: ts, h => by
    rw [List.nodup_cons] at h
    simp only [dedup, dedup_nodup h.2]
    congr 1
    apply List.filter_eq_self.2
    intro b hb
    simp only [Bool.not_eq_true', beq_eq_false_iff_ne]
    rintro rfl
    exact h.1 hb

theorem resolveArgs_vars_get {n : Nat} {m : TMap} (hm : m.Solid) : ∀ ts : List TVar,
    resolveArgs (resolve ctx N n m) m (ts.map .tvar) = .ok (ts.map fun t => m.get (.tvar t))
  | [] => rfl
  | t :: ts => by
    rw [List.map_cons, resolveArgs_cons, resolveArgs_vars_get hm ts]
    rcases resolveArg_cases (ctx := ctx) (N := N) (n := n) hm (.tvar t) with ⟨t', e, h3⟩ | ⟨h0, _⟩ | ⟨h0, _⟩
    · rw [h3]; rfl
    · cases h0
    · cases h0

/-- Variables and aliases pass through the transformation for specializations. -/
theorem transformAlias_pass {id : SerId} {h : Hint} (hh : h.isTvar = true ∨ h.isAlias = true) : transformAlias ctx N id h = .ok h := by
  cases h <;> first | rfl | (rcases hh with h | h <;> cases h)

/-- An alias or a variable in the metadata takes the place of the type before it. -/
theorem transformAlias_meta {id : SerId} {name : String} {h : Hint} (hh : h.isTvar = true ∨ h.isAlias = true) :
    transformAlias ctx N id (.annot (.plain name) [h]) = .ok h := by
  cases h <;> first | rfl | (rcases hh with h | h <;> cases h)

theorem transformAlias_tuple {id : SerId} {hs : List Hint} (hh : hs.any (fun a => !a.solid) = true) :
    transformAlias ctx N id (.tup hs false) = .ok (.alias .tuple hs) := by
  have hne : hs ≠ [] := by rintro rfl; cases hh
  have e1 : tupleStep ctx (transform ctx N) id (.tup hs false) = .ok (.alias .tuple hs) := by
    unfold tupleStep
    simp only [any_not_solid, hh]
    simp [hne]
  show steps _ (.tup hs false) [.noneT] = _
  simp only [steps, step]
  show ((tupleStep ctx (transform ctx N) id (.tup hs false) >>= _) >>= _) = _
  rw [e1]
  rfl

theorem transformAlias_gen {id : SerId} {c : ClassId} {args : List Hint} (hh : args.any Hint.isTvar = true) :
    transformAlias ctx N id (.gen c args) = .ok (.galias c args args) := by
  have e1 : structuredStep ctx id (.gen c args) = .ok (.galias c args args) := by
    simp only [structuredStep, hh, if_true]
  show ((structuredStep ctx id (.gen c args) >>= fun b => indexingStep b .noneT >>= fun b => finalStep b .noneT) >>= fun b => .ok b) = _
  rw [e1]
  rfl

end Verif
