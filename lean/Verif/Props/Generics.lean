import Verif.Proofs.SpecHints
import Verif.Props.Override
/-
C31: specializing generic classes is substitution.
-/
namespace Verif.Samples
open Spec

/-- `array[Header[S, uint16], char[T]]` -/
def arrayE : HExp := .app .array [.app .header [.var 1, .lit uint16H], .app .char [.var 0]]

/-- `array[Header[uint32, uint16], char[uint8]]` -/
def arrayE' : HExp := .app .array [.app .header [.lit uint32H, .lit uint16H], .app .char [.lit uint8H]]

/-- `T = uint8, S = uint32` -/
def closedSub : List (TVar × HExp) := [(0, .lit uint8H), (1, .lit uint32H)]

/-- `class GA(Structured, Generic[T, S]): a: array[Header[S, uint16], char[T]]; b: T; c: tuple[T, uint16]` -/
def gaDecl : ClassDecl :=
  { bases := [.structured, .generic [0, 1]]
    anns := [("a", .alias .array [.alias .header [.tvar 1, uint16H], .alias .char [.tvar 0]]), ("b", .tvar 0),
      ("c", .tup [.tvar 0, uint16H] false)] }

/-- `class GMid(GA[U, uint32], Generic[U]): d: U` -/
def gmidDecl : ClassDecl := { bases := [.gen 20 [.tvar 2, uint32H], .generic [2]], anns := [("d", .tvar 2)] }

/-- `GA` is class 20. -/
def world20 : World := fun c => if c = 20 then (createClass hctx 5 [20] world0 gaDecl).toOption else none

/-- `GMid` is class 21. -/
def world21 : World := fun c => if c = 21 then (createClass hctx 5 [21] world20 gmidDecl).toOption else world20 c

end Verif.Samples

namespace Verif
open Spec Samples

variable {ctx : HintCtx} {N n : Nat} {id : SerId} {w : World} {d : ClassDecl} {o ob : ClassObj}

/-- **C31** (substitution).  `resolve` of the alias that a type expression is, with types for some variables, gives what the
expression with these types written in place of the variables is, at every depth.  The types may have variables themselves, if
those are others. -/
theorem C31_substitution {e : HExp} {h : Hint} {s : List (TVar × HExp)} {m : TMap} (he : e.proper = true) (hv : e.value ctx N = .ok h)
    (ha : h.isAlias = true) (hm : MapOf ctx N s m) (hs : Apart s) (hp : (e.subst s).proper = true) (hn : (e.subst s).depth ≤ n) :
    resolve ctx N n m h = (e.subst s).value ctx N := by
  have := resolveArg_subst hm hs e n h he hp hv hn
  rw [← this]
  simp only [resolveArg, get_alias ha, ha, if_true]

example : arrayE.proper = true ∧ ∃ h, arrayE.value hctx 3 = .ok h ∧ h.isAlias = true ∧
    MapOf hctx 3 closedSub [(0, uint8H), (1, uint32H)] ∧ Apart closedSub ∧ (arrayE.subst closedSub).proper = true ∧
    (arrayE.subst closedSub).depth = 2 ∧ arrayE.subst closedSub = arrayE' ∧
    (∃ r, arrayE'.value hctx 3 = .ok r ∧ resolve hctx 3 2 [(0, uint8H), (1, uint32H)] h = .ok r ∧ r.solid = true) :=
  ⟨rfl, _, rfl, rfl, ⟨⟨rfl, rfl⟩, ⟨rfl, rfl⟩, trivial⟩, by intro p hp; simp only [closedSub, List.mem_cons, List.not_mem_nil, or_false] at hp; rcases hp with rfl | rfl <;> simp [HExp.vars],
    rfl, rfl, rfl, _, rfl, rfl, rfl⟩

/-- `T = char[U]` in `array[Header[2, uint16], T]` -/
example : (HExp.app .array [.app .header [.lit (.int 2), .lit uint16H], .var 0]).value hctx 3 =
      .ok (.alias .array [.header (.static 2) (some ⟨['H'], none⟩), .tvar 0]) ∧
    resolve hctx 3 2 [(0, .tvar 5)] (.alias .array [.header (.static 2) (some ⟨['H'], none⟩), .tvar 0]) =
      .ok (.alias .array [.header (.static 2) (some ⟨['H'], none⟩), .tvar 5]) := ⟨rfl, rfl⟩

/-- **C31** (all variables).  If all variables get types without variables, the result is a type without variables: what the
expression with them in place is. -/
theorem C31_all_variables {e : HExp} {h : Hint} {s : List (TVar × HExp)} {m : TMap} (he : e.proper = true) (hv : e.value ctx N = .ok h)
    (ha : h.isAlias = true) (hm : MapOf ctx N s m) (hs : ∀ p ∈ s, p.2.proper = true ∧ p.2.vars = []) (hall : ∀ t ∈ e.vars, t ∈ s.map (·.1))
    (hn : (e.subst s).depth ≤ n) :
    resolve ctx N n m h = (e.subst s).value ctx N ∧ (e.subst s).vars = [] ∧ ∀ r, resolve ctx N n m h = .ok r → r.solid = true := by
  obtain ⟨h1, h2⟩ := subst_closed hs e he hall
  have hap : Apart s := by
    intro p hp t ht
    rw [(hs p hp).2] at ht; cases ht
  have key := C31_substitution he hv ha hm hap h1 hn
  refine ⟨key, h2, fun r hr => ?_⟩
  rw [key] at hr
  rw [(value_shape _ _ h1 hr).1, h2]
  rfl

/-- **C31** (in steps).  For every alias: resolving with `m1` and what is left with `m2` is resolving with both; if nothing is left
after `m1` then both give that; if `m1` fails then both fail. -/
theorem C31_two_steps {m1 m2 : TMap} (h1 : m1.Solid) (h2 : m2.Solid) {h : Hint} (ha : h.isAlias = true) :
    (∀ r, resolve ctx N n m1 h = .ok r → r.isAlias = true → resolve ctx N n m2 r = resolve ctx N n (m1 ++ m2) h) ∧
    (∀ r, resolve ctx N n m1 h = .ok r → r.isAlias = false → resolve ctx N n (m1 ++ m2) h = .ok r) ∧
    (∀ e, resolve ctx N n m1 h = .error e → ∃ e', resolve ctx N n (m1 ++ m2) h = .error e') := by
  have key := resolve_two (ctx := ctx) (N := N) h1 h2 n h ha
  refine ⟨fun r hr => ?_, fun r hr => ?_, fun e hr => ?_⟩
  · rw [hr] at key; exact key.1
  · rw [hr] at key; exact key.2
  · rw [hr] at key; exact key

example : ∃ h r, arrayE.value hctx 3 = .ok h ∧ h.isAlias = true ∧ TMap.Solid [(0, uint8H)] ∧ TMap.Solid [(1, uint32H)] ∧
    resolve hctx 3 2 [(0, uint8H)] h = .ok r ∧ r.isAlias = true ∧
    resolve hctx 3 2 [(1, uint32H)] r = resolve hctx 3 2 [(0, uint8H), (1, uint32H)] h ∧
    (∃ q, resolve hctx 3 2 [(1, uint32H)] r = .ok q ∧ q.solid = true) :=
  ⟨_, _, rfl, rfl, by intro p hp; simp only [List.mem_cons, List.not_mem_nil, or_false] at hp; subst hp; rfl,
    by intro p hp; simp only [List.mem_cons, List.not_mem_nil, or_false] at hp; subst hp; rfl, rfl, rfl, rfl, _, rfl, rfl⟩

/-- **C31** (what is left).  For every alias: the variables in the result are those without a type, in the same places. -/
theorem C31_left {m : TMap} (hm : m.Solid) {h r : Hint} (ha : h.isAlias = true) (hr : resolve ctx N n m h = .ok r) :
    r.aliasVars = h.aliasVars.filter fun t => decide (t ∉ m.map (·.1)) := by
  rw [resolve_vars hm n h r ha hr]
  unfold leftVars
  congr 1
  funext t
  by_cases ht : t ∈ m.map (·.1)
  · obtain ⟨p, hp, hpt⟩ := List.mem_map.1 ht
    cases hf : m.find? (fun p => p.1 == t) with
    | none => exact absurd hpt (by simpa using List.find?_eq_none.1 hf p hp)
    | some q => simp [ht]
  · rw [find_none_of_not_mem ht]
    simp [ht]

/-- **C31** (fully resolved).  For every alias: with types for all its variables, the result is neither a variable nor an alias. -/
theorem C31_no_variables {m : TMap} (hm : m.Solid) {h r : Hint} (ha : h.isAlias = true) (hall : ∀ t ∈ h.aliasVars, t ∈ m.map (·.1))
    (hr : resolve ctx N n m h = .ok r) : r.solid = true :=
  resolve_all hm n h r ha hall hr

example : (Hint.alias .array [.alias .header [.tvar 1, uint16H], .alias .char [.tvar 0]]).aliasVars = [1, 0] ∧
    (resolve hctx 3 2 [(0, uint8H)] (.alias .array [.alias .header [.tvar 1, uint16H], .alias .char [.tvar 0]])).toOption.map
      Hint.aliasVars = some [1] ∧
    (resolve hctx 3 2 [(0, uint8H), (1, .int 2)] (.alias .array [.alias .header [.tvar 1, uint16H], .alias .char [.tvar 0]])).toOption.map
      Hint.solid = some true := ⟨rfl, rfl, rfl⟩

/-- **C31** (generic classes in hints).  `Foo[T, S, ...]` with distinct variables becomes `Foo` of their types. -/
theorem C31_generic_class {m : TMap} (hm : m.Solid) {c : ClassId} {ts : List TVar} (hts : ts.Nodup) (hall : ∀ t ∈ ts, t ∈ m.map (·.1)) :
    resolve ctx N (n + 1) m (.galias c (ts.map .tvar) (ts.map .tvar)) = .ok (.gen c (ts.map fun t => m.get (.tvar t))) := by
  rw [resolve_galias, resolveArgs_vars_get hm]
  simp only [okBind]
  have hsol : ∀ r ∈ ts.map fun t => m.get (.tvar t), r.solid = true := by
    intro r hr
    obtain ⟨t, ht, rfl⟩ := List.mem_map.1 hr
    rcases get_tvar_solid hm t with h | h
    · exact h
    · obtain ⟨p, hp, hpt⟩ := List.mem_map.1 (hall t ht)
      cases hf : m.find? (fun p => p.1 == t) with
      | none => exact absurd hpt (by simpa using List.find?_eq_none.1 hf p hp)
      | some q =>
        simp only [TMap.get, hf]
        exact hm q (List.mem_of_find?_eq_some hf)
  rw [if_neg (by rw [any_solid_false.2 hsol]; simp)]
  unfold indexGeneric
  simp only [paramsList_vars, dedup_nodup hts]
  rw [if_neg (by simp), tsubst_vars hts (by simp)]

example : transformAlias hctx 3 [] (.gen 5 [.tvar 0, .tvar 1]) = .ok (.galias 5 [.tvar 0, .tvar 1] [.tvar 0, .tvar 1]) ∧
    resolve hctx 3 2 [(1, uint8H), (0, uint16H)] (.galias 5 [.tvar 0, .tvar 1] [.tvar 0, .tvar 1]) = .ok (.gen 5 [uint16H, uint8H]) := ⟨rfl, rfl⟩

/-- **C31** (classes).  In a class with the base `Base[args]`, a field of `Base` whose type is an expression `e` with variables of `Base`,
or `Annotated[type, e]`, is declared with that expression, the arguments in place of the variables.  As the field counts as declared by the derived class, this
goes on when that is generic itself. -/
theorem C31_class (hw : w.Coherent ctx) (h : createClass ctx n id w d = .ok o) {b : ClassId} {args : List Hint} {ts : List TVar}
    (hs : Specializes b args d.bases) (hb : w b = some ob) (hts : HasVars ts ob.origBases) {a : Name} (ha : a ∈ ob.anns.map (·.1))
    {e : HExp} (he : e.proper = true) (hopen : e.vars ≠ [])
    (hdecl : e.written ctx n = .ok (evalHint (lastDecl ob.decls a)) ∨ e.value ctx n = .ok (evalHint (lastDecl ob.decls a)) ∨
      ∃ t x, e.value ctx n = .ok x ∧ evalHint (lastDecl ob.decls a) = .annot (.plain t) [x])
    {s : List (TVar × HExp)} (hm : MapOf ctx n s (ts.zip args)) (hap : Apart s) (hp : (e.subst s).proper = true)
    (hall : ∀ t ∈ e.vars, t ∈ s.map (·.1)) (hn : (e.subst s).depth ≤ n) :
    ∃ r, (e.subst s).value ctx n = .ok r ∧ a ∈ o.anns.map (·.1) ∧ lastDecl o.decls a = r := by
  have hmem : ∀ t ∈ s.map (·.1), ((ts.zip args).find? (fun p => p.1 == t)).isSome = true := by
    intro t ht
    rcases mapOf_find hm t with ⟨h1, _⟩ | ⟨p, q, _, h2, _⟩
    · obtain ⟨p, hp, hpt⟩ := List.mem_map.1 ht
      exact absurd hpt (by simpa using List.find?_eq_none.1 h1 p hp)
    · rw [h2]; rfl
  have fin : ∀ {u : Hint}, e.value ctx n = .ok u → transformAlias ctx n id (evalHint (lastDecl ob.decls a)) = .ok u →
      ∃ r, (e.subst s).value ctx n = .ok r ∧ a ∈ o.anns.map (·.1) ∧ lastDecl o.decls a = r := by
    intro u hval hu
    have hk : (∃ t, u = .tvar t ∧ ((ts.zip args).find? (fun p => p.1 == t)).isSome = true) ∨ u.isAlias = true := by
      cases e with
      | lit x => exact absurd rfl hopen
      | var t =>
        cases hval
        exact .inl ⟨t, rfl, hmem t (hall t (by simp [HExp.vars]))⟩
      | app k es => exact .inr ((value_shape _ _ he hval).2 (by simpa [HExp.isOpenApp, HExp.vars] using hopen))
    obtain ⟨x, hx, h1, h2⟩ := specialized_field h (structuredBase_one (specializes_one hs)) (origArgs_specializes hs)
      (origBases_specializes hs) hb ha (coherent_mro hw hb) hu (by rw [genericVars_has hts]) hk
    refine ⟨x, ?_, h1, h2⟩
    rcases hx with ⟨t, p, rfl, hf, rfl⟩ | ⟨hal, hr⟩
    · cases e with
      | lit x => exact absurd rfl hopen
      | var t' =>
        cases hval
        rcases mapOf_find hm t with ⟨_, h4⟩ | ⟨p', q', h3, h4, h5, h6⟩
        · rw [h4] at hf; cases hf
        · rw [h4] at hf
          cases hf
          simp only [HExp.subst, h3]
          exact h6
      | app k es =>
        have := (value_shape _ _ he hval).2 (by simpa [HExp.isOpenApp, HExp.vars] using hopen)
        cases this
    · rw [← C31_substitution he hval hal hm hap hp hn]
      exact hr
  rcases hdecl with hdecl | hdecl | ⟨nm, x, hx, hdecl⟩
  · cases e with
    | lit x => exact absurd rfl hopen
    | var t => exact fin hdecl (transformAlias_pass (by rw [← Except.ok.inj (hdecl : Except.ok (Hint.tvar t) = _)]; exact .inl rfl))
    | app k es =>
      cases hk : k with
      | tuple =>
        subst hk
        simp only [HExp.written] at hdecl
        have hv := value_open (ctx := ctx) (N := n) he hopen
        cases hl : HExp.valueList ctx n es with
        | error e => rw [hl] at hdecl; cases hdecl
        | ok hs =>
          rw [hl] at hdecl hv
          simp only [HExp.proper, Bool.and_eq_true] at he
          have hsol := (value_shapeList es hs he.1 hl).1
          refine fin hv ?_
          simp only [Except.map, Except.ok.injEq] at hdecl
          rw [← hdecl]
          refine transformAlias_tuple ?_
          rw [hsol]
          simpa [HExp.vars] using hopen
      | _ =>
        subst hk
        have := (value_shape _ _ he hdecl).2 (by simpa [HExp.isOpenApp, HExp.vars] using hopen)
        exact fin hdecl (transformAlias_pass (.inr this))
  · refine fin hdecl (transformAlias_pass ?_)
    have := (value_shape _ _ he hdecl).1
    rw [show e.vars.isEmpty = false by simpa using hopen] at this
    cases hd : evalHint (lastDecl ob.decls a) <;> rw [hd] at this <;> first | exact .inl rfl | exact .inr rfl | cases this
  · refine fin hx ?_
    rw [hdecl]
    refine transformAlias_meta ?_
    have := (value_shape _ _ he hx).1
    rw [show e.vars.isEmpty = false by simpa using hopen] at this
    cases x <;> first | exact .inl rfl | exact .inr rfl | cases this

theorem made_of_toOption {x : Except Err ClassObj} (h : x.toOption = some o) : x = .ok o := by
  cases x with
  | error e => cases h
  | ok y => cases h; rfl

theorem world20_coherent : world20.Coherent hctx := by
  intro c o h
  unfold world20 at h
  split at h
  · exact ⟨_, _, _, _, made_of_toOption h⟩
  · cases h

theorem world21_coherent : world21.Coherent hctx := by
  intro c o h
  unfold world21 at h
  split at h
  · exact ⟨_, _, _, _, made_of_toOption h⟩
  · exact world20_coherent c o h

/-- `class D(GA[uint8, uint32]): pass`: the conditions are met for the field `a`, -/
example : ∃ o ob, createClass hctx 5 [22] world20 { bases := [.gen 20 [uint8H, uint32H]] } = .ok o ∧ world20 20 = some ob ∧
    Specializes 20 [uint8H, uint32H] [.gen 20 [uint8H, uint32H]] ∧ HasVars [0, 1] ob.origBases ∧ "a" ∈ ob.anns.map (·.1) ∧
    arrayE.written hctx 5 = .ok (evalHint (lastDecl ob.decls "a")) ∧ MapOf hctx 5 closedSub ([0, 1].zip [uint8H, uint32H]) ∧
    arrayE'.value hctx 5 = .ok (lastDecl o.decls "a") :=
  ⟨_, _, rfl, rfl, ⟨[], [], rfl, by simp⟩, ⟨[.structured], [], rfl, by simp⟩, by decide, rfl, ⟨⟨rfl, rfl⟩, ⟨rfl, rfl⟩, trivial⟩, rfl⟩

/-- and the class has the attributes and the serializer of the class written without variables. -/
example : ∃ o o', createClass hctx 5 [22] world20 { bases := [.gen 20 [uint8H, uint32H]] } = .ok o ∧
    createClass hctx 5 [22] world0 { bases := [.structured], anns := [("a", (arrayE'.value hctx 5).toOption.getD .noneT), ("b", uint8H),
      ("c", .tup [uint8H, uint16H] false)] } = .ok o' ∧
    o.info.attrs = ["a", "b", "c"] ∧ o'.info.attrs = ["a", "b", "c"] ∧ o.info.serializer.anon = o'.info.serializer.anon :=
  ⟨_, _, rfl, rfl, rfl, rfl, rfl⟩

/-- `class GN(Structured, Generic[T]): a: Annotated[bytes, char[T]]` and `class DN(GN[uint8]): pass` -/
example : ∃ ob o, createClass hctx 5 [30] world0
      { bases := [.structured, .generic [0]], anns := [("a", .annot (.plain "bytes") [.alias .char [.tvar 0]])] } = .ok ob ∧
    createClass hctx 5 [31] (fun c => if c = 30 then some ob else none) { bases := [.gen 30 [uint8H]] } = .ok o ∧
    (HExp.app .char [.var 0]).value hctx 5 = .ok (.alias .char [.tvar 0]) ∧
    evalHint (lastDecl ob.decls "a") = .annot (.plain "bytes") [.alias .char [.tvar 0]] ∧
    (HExp.app .char [.lit uint8H]).value hctx 5 = .ok (lastDecl o.decls "a") ∧ o.info.attrs = ["a"] :=
  ⟨_, _, rfl, rfl, rfl, rfl, rfl, rfl⟩

/-- `class D2(GMid[uint8]): pass`: through a class between. -/
example : ∃ o ob, createClass hctx 5 [22] world21 { bases := [.gen 21 [uint8H]] } = .ok o ∧ world21 21 = some ob ∧
    "a" ∈ ob.anns.map (·.1) ∧ arrayE'.value hctx 5 = .ok (lastDecl o.decls "a") ∧ lastDecl o.decls "d" = uint8H ∧
    o.info.attrs = ["a", "b", "c", "d"] :=
  ⟨_, _, rfl, rfl, by decide, rfl, rfl, rfl⟩

/-! ### Where it fails -/

/-- **C31 is false in full** (the same variable again).  `class D(Foo[char[T]], Generic[T])` for
`class Foo(Structured, Generic[T]): a: array[Header[2], T]` fails for want of stack: `resolve` replaces `T` in `char[T]` again and again
(`utils.py:93-95`), however deep the stack is. -/
theorem C31_same_variable_is_false : ∀ n N, resolve hctx N n [(0, .alias .char [.tvar 0])]
    (.alias .array [.header (.static 2) none, .tvar 0]) = .error .recursionError := by
  intro n N
  have key : ∀ n, resolve hctx N n [(0, .alias .char [.tvar 0])] (.alias .char [.tvar 0]) = .error .recursionError := by
    intro n
    induction n with
    | zero => rfl
    | succ n ih =>
      rw [resolve_alias, resolveArgs_cons]
      have : resolveArg hctx N n [(0, .alias .char [.tvar 0])] (.tvar 0) = .error .recursionError := ih
      rw [this]
      rfl
  cases n with
  | zero => rfl
  | succ n =>
    rw [resolve_alias, resolveArgs_cons, resolveArgs_cons]
    have h1 : resolveArg hctx N n [(0, .alias .char [.tvar 0])] (.header (.static 2) none) = .ok (.header (.static 2) none) := rfl
    have h2 : resolveArg hctx N n [(0, .alias .char [.tvar 0])] (.tvar 0) = .error .recursionError := key n
    rw [h1, h2]
    rfl

/-- **C31 is false in full** (some arguments given).  `Foo[T, uint8]` as the type of a field cannot be resolved: the alias is indexed with
two arguments but has one variable (`serializers/structured.py:105-109`, `utils.py:102`). -/
theorem C31_given_argument_is_false : transformAlias hctx 3 [] (.gen 5 [.tvar 0, uint8H]) = .ok (.galias 5 [.tvar 0, uint8H] [.tvar 0, uint8H]) ∧
    ∀ N n, resolve hctx N (n + 1) [(0, uint16H)] (.galias 5 [.tvar 0, uint8H] [.tvar 0, uint8H]) = .error .typeError :=
  ⟨rfl, fun _ _ => rfl⟩

/-- **C31 is false in full** (tuples in tuples).  The variable in `tuple[tuple[T], uint8]` is not replaced (`hint_types/tuples.py:13`): the
field is silently not one of the specialized class. -/
theorem C31_tuple_in_tuple_is_false : ∃ ob o, createClass hctx 5 [30] world0
      { bases := [.structured, .generic [0]], anns := [("a", .tup [.tup [.tvar 0] false, uint8H] false), ("b", .tvar 0)] } = .ok ob ∧
    createClass hctx 5 [31] (fun c => if c = 30 then some ob else none) { bases := [.gen 30 [uint8H]] } = .ok o ∧ o.info.attrs = ["b"] ∧
    ∃ o', createClass hctx 5 [31] world0
      { bases := [.structured], anns := [("a", .tup [.tup [uint8H] false, uint8H] false), ("b", uint8H)] } = .ok o' ∧ o'.info.attrs = ["a", "b"] :=
  ⟨_, _, rfl, rfl, rfl, _, rfl, rfl⟩

/-- **C31 is false in full** (generic classes in generic classes).  `Foo[Bar[T]]` is taken for fully specialized: a class is made for it at
once (`serializers/structured.py:92-104`). -/
theorem C31_nested_generic_is_false : ∀ (ctx : HintCtx) (c : ClassId), ctx.spec 5 [.gen 6 [.tvar 0]] = .ok c →
    structuredStep ctx id (.gen 5 [.gen 6 [.tvar 0]]) = .ok (.ser (.structured (ctx.specIdent id 5 [.gen 6 [.tvar 0]]) c)) := by
  intro ctx c h
  simp only [structuredStep, h]
  rfl

/-- **C31 is false in full** (items of arrays).  Arrays with a fixed header accept variables as items, but not types with variables in them:
`array[Header[2], char[T]]` is refused where it is written (`hint_types/arrays.py:93-100`). -/
theorem C31_array_item_is_false : ∀ N, mkArray hctx N (.header (.static 2) none) (.tvar 0) =
      .ok (.alias .array [.header (.static 2) none, .tvar 0]) ∧
    mkArray hctx (N + 1) (.header (.static 2) none) (.alias .char [.tvar 0]) = .error .typeError :=
  fun _ => ⟨rfl, rfl⟩

/-- **C31 is false in full** (variables of the base only).  `class Mid(GA[T, S]): pass` is generic for `typing`, but `Mid[uint8, uint32]` cannot be a
base: without `Generic[T, S]` among its bases it is "not a Generic" (`structured.py:429-438`). -/
theorem C31_base_variables_is_false : ∃ ob, createClass hctx 5 [21] world20 { bases := [.gen 20 [.tvar 0, .tvar 1]] } = .ok ob ∧
    createClass hctx 5 [22] (fun c => if c = 21 then some ob else world20 c) { bases := [.gen 21 [uint8H, uint32H]] } = .error .typeError :=
  ⟨_, rfl, rfl⟩

/-- **C31 is false in full** (byte orders).  A generic class with a byte order cannot be specialized in a type hint: the class made for
`Foo[uint8]` is declared without one (`serializers/structured.py:99-100`), which is a conflict. -/
theorem C31_byte_order_is_false : ∃ ob, createClass hctx 5 [30] world0
      { bases := [.structured, .generic [0]], anns := [("a", .tvar 0)], byteOrder := .le } = .ok ob ∧
    createClass hctx 5 [31] (fun c => if c = 30 then some ob else none) { bases := [.gen 30 [uint8H]] } = .error .valueError :=
  ⟨_, rfl, rfl⟩

end Verif
