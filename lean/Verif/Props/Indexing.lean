import Verif.Spec.Indexing
import Verif.Props.Generics
/-
C31: indexing generic types, and which of their parts are looked at.
-/
namespace Verif
open Spec Samples

variable {ctx : HintCtx} {N n : Nat} {id : SerId}

mutual
theorem params_occurs {t : TVar} : (h : Hint) → (t ∈ h.params ↔ Occurs t h)
  | .tvar s => by
    simp only [Hint.params, List.mem_singleton]
    exact ⟨fun e => e ▸ .here, fun h => by cases h; rfl⟩
  | .annot b ms => by
    simp only [Hint.params, params_occurs b]
    exact ⟨.annot, fun h => by cases h; assumption⟩
  | .gen c args => by
    simp only [Hint.params, paramsList_occurs args]
    exact ⟨fun ⟨a, h1, h2⟩ => .gen h1 h2, fun h => by cases h; exact ⟨_, ‹_›, ‹_›⟩⟩
  | .tup args v => by
    simp only [Hint.params, paramsList_occurs args]
    exact ⟨fun ⟨a, h1, h2⟩ => .tup h1 h2, fun h => by cases h; exact ⟨_, ‹_›, ‹_›⟩⟩
  | .union args => by
    simp only [Hint.params, paramsList_occurs args]
    exact ⟨fun ⟨a, h1, h2⟩ => .union h1 h2, fun h => by cases h; exact ⟨_, ‹_›, ‹_›⟩⟩
  | .noneT | .plain _ | .unindexed _ | .ser _ | .fwd _ | .cls _ | .selfT | .classVar _ | .cond .. | .serAs _ | .alias .. | .galias ..
  | .header .. | .int _ | .bytes _ | .inf | .net | .codec .. =>
    ⟨fun h => by simp [Hint.params] at h, fun h => nomatch h⟩
theorem paramsList_occurs {t : TVar} : (hs : List Hint) → (t ∈ Hint.paramsList hs ↔ ∃ a ∈ hs, Occurs t a)
  | [] => by simp [Hint.paramsList]
  | h :: hs => by
    simp only [Hint.paramsList, List.mem_append, params_occurs h, paramsList_occurs hs, List.mem_cons]
    constructor
    · rintro (h1 | ⟨a, h1, h2⟩)
      · exact ⟨_, .inl rfl, h1⟩
      · exact ⟨_, .inr h1, h2⟩
    · rintro ⟨a, rfl | h1, h2⟩
      · exact .inl h2
      · exact .inr ⟨a, h1, h2⟩
end

theorem dedup_mem (l : List TVar) (t : TVar) : t ∈ dedup l ↔ t ∈ l := by
  induction l with
  | nil => rfl
  | cons a as ih =>
    simp only [dedup, List.mem_cons, List.mem_filter, ih]
    by_cases h : t = a
    · simp [h]
    · simp [h]

theorem dedup_once (l : List TVar) : (dedup l).Nodup := by
  induction l with
  | nil => exact List.nodup_nil
  | cons a as ih =>
    simp only [dedup, List.nodup_cons, List.mem_filter]
    refine ⟨by simp, ih.filter _⟩

theorem dedup_snoc (l : List TVar) (t : TVar) : dedup (l ++ [t]) = if t ∈ l then dedup l else dedup l ++ [t] := by
  induction l with
  | nil => simp [dedup]
  | cons a as ih =>
    simp only [List.cons_append, dedup, ih, List.mem_cons]
    by_cases h1 : t = a
    · subst h1
      simp only [true_or, if_true]
      split
      · rfl
      · simp [List.filter_append]
    · by_cases h2 : t ∈ as
      · simp [h1, h2]
      · simp [h1, h2, List.filter_append]

theorem dedup_order (l : List TVar) : InOrder l (dedup l) := by
  suffices ∀ k (l : List TVar), l.length = k → InOrder l (dedup l) from this _ l rfl
  intro k
  induction k with
  | zero => intro l hl; cases l with
    | nil => exact .nil
    | cons => cases hl
  | succ k ih =>
    intro l hl
    have hne : l ≠ [] := by intro e; subst e; cases hl
    rw [← List.dropLast_concat_getLast hne, dedup_snoc]
    have h1 := ih l.dropLast (by simp [hl])
    split
    · exact .old h1 ‹_›
    · exact .new h1 ‹_›

theorem given_zip (ts : List TVar) (args : List Hint) (t : TVar) : given ts args t = ((ts.zip args).find? (fun p => p.1 == t)).map (·.2) := by
  induction ts generalizing args with
  | nil => rfl
  | cons s ts ih =>
    cases args with
    | nil => rfl
    | cons a args =>
      simp only [given, List.zip_cons_cons, List.find?_cons]
      by_cases h : s = t
      · simp [h]
      · have : (s == t) = false := by simpa using h
        simp only [if_neg h, this, ih]

mutual
theorem tsubst_replaced (m : TMap) : (h : Hint) → Replaced (fun t => (m.find? (fun p => p.1 == t)).map (·.2)) h (h.tsubst m)
  | .tvar t => by
    simp only [Hint.tsubst, TMap.get]
    cases hf : m.find? (fun p => p.1 == t) with
    | none => exact .left (by simp only [hf]; rfl)
    | some p => exact .given (by simp only [hf]; rfl)
  | .annot b ms => .annot (tsubst_replaced m b)
  | .gen c args => .gen (tsubst_replacedAll m args)
  | .tup args v => .tup (tsubst_replacedAll m args)
  | .union args => .union (tsubst_replacedAll m args)
  | .noneT | .plain _ | .unindexed _ | .ser _ | .fwd _ | .cls _ | .selfT | .classVar _ | .cond .. | .serAs _ | .alias .. | .galias ..
  | .header .. | .int _ | .bytes _ | .inf | .net | .codec .. => .closed rfl
theorem tsubst_replacedAll (m : TMap) : (hs : List Hint) → ReplacedAll (fun t => (m.find? (fun p => p.1 == t)).map (·.2)) hs (Hint.tsubstList m hs)
  | [] => .nil
  | h :: hs => .cons (tsubst_replaced m h) (tsubst_replacedAll m hs)
end

/-- **C31** (`typing`).  `Foo[own][args]`: the variables are those that stand in `own`, in the order in which they are first met; with as many
arguments as variables each variable is replaced by its argument everywhere, in types, tuples, unions and generic classes at any depth; with another
number of arguments it is a `TypeError`. -/
theorem C31_indexing (c : ClassId) (own args : List Hint) : ∃ all ts : List TVar, (∀ t, t ∈ all ↔ ∃ a ∈ own, Occurs t a) ∧ InOrder all ts ∧ ts.Nodup ∧
    (∀ t, t ∈ ts ↔ t ∈ all) ∧
    (ts.length = args.length → ∃ own', indexGeneric c own args = .ok (.gen c own') ∧ ReplacedAll (given ts args) own own') ∧
    (ts.length ≠ args.length → indexGeneric c own args = .error .typeError) := by
  refine ⟨Hint.paramsList own, dedup (Hint.paramsList own), fun t => paramsList_occurs own, dedup_order _, dedup_once _, dedup_mem _, fun h => ?_, fun h => ?_⟩
  · refine ⟨_, by unfold indexGeneric; simp only [ne_eq, h, not_true, if_false]; rfl, ?_⟩
    have : given (dedup (Hint.paramsList own)) args =
        fun t => (((dedup (Hint.paramsList own)).zip args).find? (fun p => p.1 == t)).map (·.2) := funext (given_zip _ _)
    rw [this]
    exact tsubst_replacedAll _ _
  · unfold indexGeneric
    simp only
    rw [if_pos h]

mutual
/-- The result of replacing is unique. -/
theorem replaced_unique {m : TVar → Option Hint} : {h x y : Hint} → Replaced m h x → Replaced m h y → x = y
  | .tvar _, _, _, .given e, h2 => by
    cases h2 with
    | given e' => rw [e] at e'; cases e'; rfl
    | left e' => rw [e] at e'; cases e'
    | closed e' => cases e'
  | .tvar _, _, _, .left e, h2 => by
    cases h2 with
    | given e' => rw [e] at e'; cases e'
    | left e' => rfl
    | closed e' => cases e'
  | .annot .., _, _, .annot a, h2 => by
    cases h2 with
    | annot b => rw [replaced_unique a b]
    | closed e' => cases e'
  | .gen .., _, _, .gen a, h2 => by
    cases h2 with
    | gen b => rw [replacedAll_unique a b]
    | closed e' => cases e'
  | .tup .., _, _, .tup a, h2 => by
    cases h2 with
    | tup b => rw [replacedAll_unique a b]
    | closed e' => cases e'
  | .union .., _, _, .union a, h2 => by
    cases h2 with
    | union b => rw [replacedAll_unique a b]
    | closed e' => cases e'
  | h, _, _, .closed e, h2 => by
    cases h2 with
    | closed => rfl
    | _ => cases e
theorem replacedAll_unique {m : TVar → Option Hint} : {h x y : List Hint} → ReplacedAll m h x → ReplacedAll m h y → x = y
  | _, _, _, .nil, .nil => rfl
  | _, _, _, .cons a as, .cons b bs => by rw [replaced_unique a b, replacedAll_unique as bs]
end

/-- `Foo[T, tuple[S, T], Union[S, uint8]][uint16, uint32]` -/
example : indexGeneric 5 [.tvar 0, .tup [.tvar 1, .tvar 0] false, .union [.tvar 1, uint8H]] [uint16H, uint32H] =
    .ok (.gen 5 [uint16H, .tup [uint32H, uint16H] false, .union [uint32H, uint8H]]) ∧
    indexGeneric 5 [.tvar 0, .tup [.tvar 1, .tvar 0] false] [uint16H] = .error .typeError := ⟨rfl, rfl⟩

/-- **C31** (which arguments make an alias).  `Foo[args]` in a hint waits for its variables exactly if one of the arguments is a variable itself;
otherwise a class is made for it at once, also if variables stand deeper in the arguments. -/
theorem C31_waiting (c : ClassId) (args : List Hint) :
    ((∃ t, .tvar t ∈ args) → structuredStep ctx id (.gen c args) = .ok (.galias c args args)) ∧
    ((∀ t, .tvar t ∉ args) → structuredStep ctx id (.gen c args) = (ctx.spec c args).map fun c' =>
      .ser (.structured (ctx.specIdent id c args) c')) := by
  refine ⟨fun ⟨t, ht⟩ => ?_, fun h => ?_⟩
  · simp only [structuredStep]
    rw [if_pos (List.any_eq_true.2 ⟨_, ht, rfl⟩)]
  · simp only [structuredStep]
    rw [if_neg]
    · cases ctx.spec c args <;> rfl
    · intro he
      obtain ⟨a, ha, ht⟩ := List.any_eq_true.1 he
      cases a <;> cases ht
      exact h _ ha

example : structuredStep hctx [1] (.gen 5 [.alias .char [.tvar 0]]) = .error .typeError ∧
    structuredStep { hctx with spec := fun _ _ => .ok 6 } [1] (.gen 5 [.alias .char [.tvar 0]]) = .ok (.ser (.structured [1] 6)) := ⟨rfl, rfl⟩

/-- **C31** (variables with metadata).  `Annotated[T, ...]` stands for `T` when a class is specialized, whatever variables and aliases are in its
metadata: the type in front counts first. -/
theorem C31_annotated {b : Hint} (hb : b.isTvar = true ∨ b.isAlias = true) {ms : List Hint} (hm : ∀ a ∈ ms, a.isTvar = true ∨ a.isAlias = true) :
    transformAlias ctx n id (.annot b ms) = .ok b := by
  have one : ∀ a, a = .noneT ∨ a.isTvar = true ∨ a.isAlias = true →
      step ctx (transform ctx n) id (aliasCheck b a) a = .ok b := by
    intro a ha
    have hc : aliasCheck b a = b := by
      unfold aliasCheck
      rw [if_pos (by rcases hb with h | h <;> simp [h])]
    rw [hc]
    rcases ha with rfl | ha | ha
    · rcases hb with hb | hb <;> cases b <;> first | rfl | cases hb
    · cases a <;> (try cases ha; done) <;> rcases hb with hb | hb <;> cases b <;> first | rfl | cases hb
    · cases a <;> (try cases ha; done) <;> rcases hb with hb | hb <;> cases b <;> first | rfl | cases hb
  have all : ∀ l : List Hint, (∀ a ∈ l, a = .noneT ∨ a.isTvar = true ∨ a.isAlias = true) →
      steps (fun b a => step ctx (transform ctx n) id (aliasCheck b a) a) b l = .ok b := by
    intro l
    induction l with
    | nil => intro _; rfl
    | cons a as ih =>
      intro h
      show (step ctx (transform ctx n) id (aliasCheck b a) a >>= fun b => _) = _
      rw [one a (h a (by simp))]
      exact ih (fun x hx => h x (by simp [hx]))
  have hfm : Hint.flatMetas ms = ms := by
    clear all one
    induction ms with
    | nil => rfl
    | cons a as ih =>
      have h1 : a.flatMeta = [a] := by
        rcases hm a (by simp) with h | h <;> cases a <;> first | rfl | cases h
      show a.flatMeta ++ Hint.flatMetas as = _
      rw [h1, ih (fun x hx => hm x (by simp [hx]))]; rfl
  have hfb : b.flatMeta = [b] := by rcases hb with h | h <;> cases b <;> first | rfl | cases h
  unfold transformAlias
  simp only [Hint.flatten, hfm, hfb, List.cons_append, List.nil_append]
  apply all
  intro a ha
  rcases List.mem_cons.1 ha with rfl | ha
  · exact .inl rfl
  · exact .inr (hm a ha)

/-- A type of Python with one variable or alias as metadata stands for that. -/
theorem C31_annotated_plain {x : Hint} (hx : x.isTvar = true ∨ x.isAlias = true) (name : String) (ms : List Hint)
    (hm : ∀ a ∈ ms, a.isTvar = true ∨ a.isAlias = true) : transformAlias ctx n id (.annot (.plain name) (x :: ms)) = .ok x := by
  have h := C31_annotated (ctx := ctx) (n := n) (id := id) (b := x) hx (ms := x :: ms) (by simpa using ⟨hx, hm⟩)
  have hfx : x.flatMeta = [x] := by rcases hx with h | h <;> cases x <;> first | rfl | cases h
  unfold transformAlias at h ⊢
  have e1 : (Hint.annot x (x :: ms)).flatten = x :: x :: Hint.flatMetas ms := by
    simp only [Hint.flatten, Hint.flatMetas, hfx]; rfl
  have e2 : (Hint.annot (.plain name) (x :: ms)).flatten = .plain name :: x :: Hint.flatMetas ms := by
    simp only [Hint.flatten, Hint.flatMetas, hfx]; rfl
  rw [e1] at h
  rw [e2]
  simp only at h ⊢
  have s1 : step ctx (transform ctx n) id (aliasCheck (.plain name) .noneT) .noneT = .ok (.plain name) := rfl
  have s2 : step ctx (transform ctx n) id (aliasCheck (.plain name) x) x = .ok x := by
    have hc : aliasCheck (.plain name) x = x := by
      unfold aliasCheck
      rw [if_neg (by simp [Hint.isAlias, Hint.isTvar]), if_pos (by rcases hx with h | h <;> simp [h])]
    rw [hc]
    rcases hx with h | h <;> cases x <;> first | rfl | cases h
  have t1 : step ctx (transform ctx n) id (aliasCheck x .noneT) .noneT = .ok x := by
    have hc : aliasCheck x .noneT = x := by
      unfold aliasCheck
      rw [if_pos (by rcases hx with h | h <;> simp [h])]
    rw [hc]
    rcases hx with h | h <;> cases x <;> first | rfl | cases h
  have t2 : step ctx (transform ctx n) id (aliasCheck x x) x = .ok x := by
    have hc : aliasCheck x x = x := by
      unfold aliasCheck
      rw [if_pos (by rcases hx with h | h <;> simp [h])]
    rw [hc]
    rcases hx with h | h <;> cases x <;> first | rfl | cases h
  simp only [steps, s1, s2, t1, t2, okBind] at h ⊢
  exact h

example : transformAlias hctx 3 [1] (.annot (.tvar 0) [.alias .char [.tvar 1], .tvar 2]) = .ok (.tvar 0) ∧
    transformAlias hctx 3 [1] (.annot (.plain "int") [.alias .char [.tvar 1]]) = .ok (.alias .char [.tvar 1]) := ⟨rfl, rfl⟩

/-- **C31** (bases).  A class statement with `Foo[args]` or `Generic[...]` among its bases has these bases as its generic bases; one without has those of
the class it derives from.  The arguments for a base are those written last for it. -/
theorem C31_bases (bases inherited : List BaseRef) :
    ((∃ c args, .gen c args ∈ bases) ∨ (∃ ts, .generic ts ∈ bases) → origBasesOf bases inherited = bases) ∧
    ((∀ c args, .gen c args ∉ bases) → (∀ ts, .generic ts ∉ bases) → origBasesOf bases inherited = inherited) ∧
    (∀ b args pre post, bases = pre ++ .gen b args :: post → (∀ args', .gen b args' ∉ post) → origArgs bases b = some args) ∧
    (∀ b, (∀ args, .gen b args ∉ bases) → origArgs bases b = Option.none) := by
  refine ⟨fun h => ?_, fun h1 h2 => ?_, fun b args pre post e h => ?_, fun b h => ?_⟩
  · unfold origBasesOf
    rw [if_pos]
    rcases h with ⟨c, args, h⟩ | ⟨ts, h⟩
    · exact List.any_eq_true.2 ⟨_, h, rfl⟩
    · exact List.any_eq_true.2 ⟨_, h, rfl⟩
  · unfold origBasesOf
    rw [if_neg]
    intro he
    obtain ⟨a, ha, ht⟩ := List.any_eq_true.1 he
    cases a <;> first | exact h1 _ _ ha | exact h2 _ ha | cases ht
  · subst e
    have hp : ∀ p ∈ (genericSupers post).reverse, ¬ (p.1 == b) = true := by
      intro p hp he
      rw [List.mem_reverse] at hp
      unfold genericSupers at hp
      obtain ⟨a, ha, hx⟩ := List.mem_filterMap.1 hp
      cases a <;> cases hx
      simp only [beq_iff_eq] at he
      rw [he] at ha
      exact h _ ha
    unfold origArgs
    have e1 : genericSupers (pre ++ .gen b args :: post) = genericSupers pre ++ (b, args) :: genericSupers post := by
      simp [genericSupers, List.filterMap_append]
    rw [e1, List.reverse_append, List.reverse_cons, List.append_assoc, List.find?_append, List.find?_eq_none.2 hp]
    simp
  · unfold origArgs
    have hp : ∀ p ∈ (genericSupers bases).reverse, ¬ (p.1 == b) = true := by
      intro p hp he
      rw [List.mem_reverse] at hp
      unfold genericSupers at hp
      obtain ⟨a, ha, hx⟩ := List.mem_filterMap.1 hp
      cases a <;> cases hx
      simp only [beq_iff_eq] at he
      rw [he] at ha
      exact h _ ha
    rw [List.find?_eq_none.2 hp]
    rfl

example : origBasesOf [.cls 3] [.generic [0]] = [.generic [0]] ∧ origBasesOf [.cls 3, .generic [1]] [.generic [0]] = [.cls 3, .generic [1]] ∧
    origArgs [.gen 3 [uint8H], .gen 4 [uint16H]] 3 = some [uint8H] ∧ origArgs [.cls 3] 3 = Option.none := ⟨rfl, rfl, rfl, rfl⟩

end Verif
