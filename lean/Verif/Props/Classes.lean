import Verif.Proofs.ClassLemmas
import Verif.Props.Hints
/-
C27: the attributes of a class.
-/
namespace Verif.Samples

def uint32H : Hint := basicHint "int" 'I'

/-- `class Base(Structured): a: uint8; x: int; b: uint16` -/
def baseDecl : ClassDecl := { bases := [.structured], anns := [("a", uint8H), ("x", .plain "int"), ("b", uint16H)] }

/-- `class Derived(Base): c: uint8; b: uint8; a: int; x: uint16` -/
def derivedDecl : ClassDecl :=
  { bases := [.cls 10], anns := [("c", uint8H), ("b", uint8H), ("a", .plain "int"), ("x", uint16H)] }

/-- `class GBase(Structured, Generic[T]): a: T; b: uint8` -/
def gbaseDecl : ClassDecl := { bases := [.structured, .generic [0]], anns := [("a", .tvar 0), ("b", uint8H)] }

def world0 : World := fun _ => none

/-- `Base` is class 10, `GBase` is class 11. -/
def world1 : World := fun c =>
  if c = 10 then (createClass hctx 3 [10] world0 baseDecl).toOption
  else if c = 11 then (createClass hctx 3 [11] world0 gbaseDecl).toOption
  else none

theorem world1_coherent : world1.Coherent hctx := by
  intro c o h
  unfold world1 at h
  have key : ∀ {x : Except Err ClassObj}, x.toOption = some o → x = .ok o := by
    intro x h
    cases x with
    | error e => cases h
    | ok y => cases h; rfl
  split at h
  · exact ⟨3, [10], world0, baseDecl, key h⟩
  · split at h
    · exact ⟨3, [11], world0, gbaseDecl, key h⟩
    · cases h

end Verif.Samples

namespace Verif
open Spec Samples

variable {ctx : HintCtx} {n : Nat} {id : SerId} {w : World} {d : ClassDecl} {o ob : ClassObj}

theorem isField_iff {i : SerId} {h : Hint} {r : Option Ser} (hr : transformTypehint ctx n i h = .ok r) :
    IsField ctx h ↔ ∃ s, r = some s ∧ s.isPad = false := by
  constructor
  · rintro ⟨m, j, s, hs, hp⟩
    have := transformTypehint_same hs hr
    cases r with
    | none => cases this
    | some t =>
      refine ⟨t, rfl, ?_⟩
      rw [← isPad_anon t, ← Option.some.inj this, isPad_anon]
      exact hp
  · rintro ⟨s, rfl, hp⟩
    exact ⟨n, i, s, hr, hp⟩

theorem isSerialized_iff {i : SerId} {h : Hint} {r : Option Ser} (hr : transformTypehint ctx n i h = .ok r) :
    IsSerialized ctx h ↔ ∃ s, r = some s := by
  constructor
  · rintro ⟨m, j, s, hs⟩
    have := transformTypehint_same hs hr
    cases r with
    | none => cases this
    | some t => exact ⟨t, rfl⟩
  · rintro ⟨s, rfl⟩
    exact ⟨n, i, s, hr⟩

open Classical in
theorem fields_filter {g : Name → Hint} {names : List Name} {rs : List (Option Ser)}
    (hl : rs.length = names.length)
    (hr : ∀ k (hk : k < names.length), ∃ i r, rs[k]? = some r ∧ transformTypehint ctx n i (g names[k]) = .ok r) :
    let fields := ((names.map fun a => (a, g a)).zip rs).filterMap (fun p => p.2.map fun s => (p.1.1, s))
    initVars fields = names.filter (fun a => decide (a ≠ "self" ∧ IsField ctx (g a))) ∧
    fields.map (·.1) = names.filter (fun a => decide (IsSerialized ctx (g a))) ∧
    (∀ f ∈ fields, ∃ i, transformTypehint ctx n i (g f.1) = .ok (some f.2)) := by
  induction names generalizing rs with
  | nil => exact ⟨rfl, rfl, fun f hf => by cases hf⟩
  | cons a names ih =>
    cases rs with
    | nil => cases hl
    | cons r rs =>
      obtain ⟨i, r', h1, h2⟩ := hr 0 (by simp)
      cases h1
      have ih' := ih (rs := rs) (by simpa using hl) (fun k hk => hr (k + 1) (by simpa using hk))
      simp only [List.map_cons, List.zip_cons_cons] at ih' ⊢
      obtain ⟨e1, e2, e3⟩ := ih'
      cases r with
      | none =>
        have n1 : ¬ IsField ctx (g a) := fun hf => by obtain ⟨s, hs, _⟩ := (isField_iff h2).1 hf; cases hs
        have n2 : ¬ IsSerialized ctx (g a) := fun hf => by obtain ⟨s, hs⟩ := (isSerialized_iff h2).1 hf; cases hs
        refine ⟨?_, ?_, ?_⟩
        · rw [List.filter_cons_of_neg (by simp [n1])]; exact e1
        · rw [List.filter_cons_of_neg (by simp [n2])]; exact e2
        · exact e3
      | some s =>
        have n2 : IsSerialized ctx (g a) := (isSerialized_iff h2).2 ⟨s, rfl⟩
        refine ⟨?_, ?_, ?_⟩
        · by_cases hp : s.isPad = false
          · have n1 : IsField ctx (g a) := (isField_iff h2).2 ⟨s, rfl, hp⟩
            by_cases ha : a = "self"
            · rw [List.filter_cons_of_neg (by simp [ha])]
              show initVars ((a, s) :: _) = _
              rw [← e1]
              simp [initVars, ha]
            · rw [List.filter_cons_of_pos (by simp [ha, n1])]
              show initVars ((a, s) :: _) = _
              rw [← e1]
              simp [initVars, ha, hp]
          · have n1 : ¬ IsField ctx (g a) := fun hf => by
              obtain ⟨s', hs, hp'⟩ := (isField_iff h2).1 hf; cases hs; exact hp hp'
            rw [List.filter_cons_of_neg (by simp [n1])]
            show initVars ((a, s) :: _) = _
            rw [← e1]
            simp [initVars, hp]
        · rw [List.filter_cons_of_pos (by simp [n2])]
          show a :: _ = _
          rw [← e2]
        · intro f hf
          rcases List.mem_cons.1 hf with rfl | hf
          · exact ⟨i, h2⟩
          · exact e3 f hf

theorem filterHints_names {fields : Dict Ser} (h : filterHints ctx n id 0 (typeHints o.mro) = .ok fields) :
    initVars fields = attrsOf ctx o.decls ∧
    (∃ p : Name → Bool, (∀ a, p a = true ↔ IsSerialized ctx (evalHint (lastDecl o.decls a))) ∧
      fields.map (·.1) = (firsts (o.decls.map (·.1))).filter p) ∧
    (∀ f ∈ fields, ∃ i, transformTypehint ctx n i (evalHint (lastDecl o.decls f.1)) = .ok (some f.2)) := by
  obtain ⟨rs, hl, hr, he⟩ := filterHints_spec h
  rw [typeHints_eq] at he
  have hlen : rs.length = (firsts (o.mro.flatten.map (·.1))).length := by rw [hl, typeHints_eq]; simp
  have hr' : ∀ k (hk : k < (firsts (o.mro.flatten.map (·.1))).length), ∃ i r, rs[k]? = some r ∧
      transformTypehint ctx n i (evalHint (lastDecl o.mro.flatten ((firsts (o.mro.flatten.map (·.1)))[k]))) = .ok r := by
    intro k hk
    have hk' : k < (typeHints o.mro).length := by rw [typeHints_eq]; simpa using hk
    obtain ⟨i, r, h1, h2⟩ := hr k hk'
    refine ⟨i, r, h1, ?_⟩
    have : ((typeHints o.mro)[k]).2 = evalHint (lastDecl o.mro.flatten ((firsts (o.mro.flatten.map (·.1)))[k])) := by
      simp only [typeHints_eq, List.getElem_map]
    rw [this] at h2
    exact h2
  have := fields_filter (g := fun a => evalHint (lastDecl o.mro.flatten a)) hlen hr'
  simp only at this
  rw [← he] at this
  obtain ⟨e1, e2, e3⟩ := this
  refine ⟨?_, ⟨_, ?_, e2⟩, e3⟩
  · rw [e1]
    unfold attrsOf
    apply List.filter_congr
    intro a _
    exact decide_eq_decide.2 Iff.rfl
  · intro a
    simp only [decide_eq_true_iff]
    rfl

/-- **C27** (order of attributes).  The attributes of a class are the names declared along the inheritance chain, in order
of first declaration, of which the last declaration has a serializer and is not a pad (and except a field called
`self`). -/
theorem C27_attrs (h : createClass ctx n id w d = .ok o) : o.info.attrs = attrsOf ctx o.decls := by
  obtain ⟨fields, s0, h1, _, _, h4⟩ := (createClass_made h).fields
  rw [h4]
  exact (filterHints_names h1).1

/-- **C27** (serializer).  The serializer of a class is made, in the byte order of the class, of the serializers of the
last declarations of all names, in order of first declaration. -/
theorem C27_serializer (h : createClass ctx n id w d = .ok o) : ∃ (fields : List (Name × Ser)) (s0 : Ser),
    (∃ p : Name → Bool, (∀ a, p a = true ↔ IsSerialized ctx (evalHint (lastDecl o.decls a))) ∧
      fields.map (·.1) = (firsts (o.decls.map (·.1))).filter p) ∧
    (∀ f ∈ fields, ∃ i, transformTypehint ctx n i (evalHint (lastDecl o.decls f.1)) = .ok (some f.2)) ∧
    sumSers ctx.clsFinal id (fields.map (·.2)) = .ok s0 ∧ s0.withByteOrder d.byteOrder = .ok o.info.serializer := by
  obtain ⟨fields, s0, h1, h2, h3, _⟩ := (createClass_made h).fields
  obtain ⟨_, h5, h6⟩ := filterHints_names h1
  exact ⟨fields, s0, h5, h6, h2, h3⟩

example : (createClass hctx 3 [10] world0 baseDecl).map (fun o => o.info.attrs) = .ok ["a", "b"] ∧
    (createClass hctx 3 [12] world1 derivedDecl).map (fun o => o.info.attrs) = .ok ["x", "b", "c"] := ⟨by rfl, by rfl⟩

/-- The serializers of these two classes. -/
example : (createClass hctx 3 [10] world0 baseDecl).map (fun o => o.info.serializer) = .ok (.struct ⟨"BH".toList, none⟩) ∧
    (createClass hctx 3 [12] world1 derivedDecl).map (fun o => o.info.serializer) = .ok (.struct ⟨"H2B".toList, none⟩) :=
  ⟨by rfl, by rfl⟩

/-- **C27** (inheritance chain).  What is declared in a class are the declarations of its base followed by its own; a class
without base adds to those of `Structured` itself, none of which is a field. -/
theorem C27_chain (h : createClass ctx n id w d = .ok o) :
    (structuredBase d.bases = .ok none ∧ o.decls = structuredAnns ++ o.anns) ∨
    ∃ b ob, structuredBase d.bases = .ok (some b) ∧ w b = some ob ∧ o.decls = ob.decls ++ o.anns := by
  obtain ⟨body, _, h⟩ := (createClass_made h).chain
  rcases h with ⟨h1, h2, h3, _⟩ | ⟨b, ob, h1, h2, _, h4, _, _⟩
  · refine .inl ⟨h1, ?_⟩
    unfold ClassObj.decls
    rw [h2, h3]; simp
  · refine .inr ⟨b, ob, h1, h2, ?_⟩
    unfold ClassObj.decls
    rw [h4]; simp

/-! ### Derived classes -/

theorem lastDecl_append (as bs : List (Name × Hint)) (a : Name) :
    lastDecl (as ++ bs) a = if a ∈ bs.map (·.1) then lastDecl bs a else lastDecl as a := by
  unfold lastDecl
  rw [List.foldl_append]
  generalize List.foldl (fun h (d : Name × Hint) => if d.1 = a then d.2 else h) .noneT as = x
  generalize Hint.noneT = y
  induction bs generalizing x y with
  | nil => rfl
  | cons b bs ih =>
    simp only [List.foldl_cons, List.map_cons, List.mem_cons]
    by_cases hb : b.1 = a
    · rw [if_pos hb, if_pos hb, if_pos (.inl hb.symm)]
    · rw [if_neg hb, if_neg hb, ih]
      by_cases hm : a ∈ bs.map (·.1)
      · rw [if_pos hm, if_pos (.inr hm)]
      · rw [if_neg hm, if_neg (by simp only [not_or]; exact ⟨fun e => hb e.symm, hm⟩)]

theorem isAttr_append (as bs : List (Name × Hint)) (a : Name) :
    IsAttr ctx (as ++ bs) a ↔ if a ∈ bs.map (·.1) then IsAttr ctx bs a else IsAttr ctx as a := by
  unfold IsAttr
  rw [lastDecl_append]
  split <;> rfl

open Classical in
theorem attrsOf_append (as bs : List (Name × Hint)) : attrsOf ctx (as ++ bs) =
    (firsts (as.map (·.1))).filter (fun a => decide (IsAttr ctx (as ++ bs) a)) ++
    (attrsOf ctx bs).filter (fun a => !decide (a ∈ as.map (·.1))) := by
  unfold attrsOf
  rw [List.map_append, firsts_append, List.filter_append]
  congr 1
  rw [List.filter_filter, List.filter_filter]
  apply List.filter_congr
  intro a ha
  rw [mem_firsts] at ha
  have : IsAttr ctx (as ++ bs) a ↔ IsAttr ctx bs a := by rw [isAttr_append, if_pos ha]
  rw [decide_eq_decide.2 this, Bool.and_comm]

theorem mem_attrsOf (ds : List (Name × Hint)) (a : Name) : a ∈ attrsOf ctx ds ↔ a ∈ ds.map (·.1) ∧ IsAttr ctx ds a := by
  unfold attrsOf
  rw [List.mem_filter, mem_firsts]
  simp

/-- A class derived from `ob`. -/
def DerivedFrom (ctx : HintCtx) (n : Nat) (id : SerId) (w : World) (d : ClassDecl) (o ob : ClassObj) : Prop :=
  createClass ctx n id w d = .ok o ∧ ∃ b, structuredBase d.bases = .ok (some b) ∧ w b = some ob

theorem DerivedFrom.decls (h : DerivedFrom ctx n id w d o ob) : o.decls = ob.decls ++ o.anns := by
  obtain ⟨hc, b, hb, hw⟩ := h
  rcases C27_chain hc with ⟨h1, _⟩ | ⟨b', ob', h1, h2, h3⟩
  · rw [hb] at h1; cases h1
  · rw [hb] at h1; cases h1
    rw [hw] at h2; cases h2
    exact h3

theorem DerivedFrom.attrs (hw : w.Coherent ctx) (h : DerivedFrom ctx n id w d o ob) :
    o.info.attrs = attrsOf ctx (ob.decls ++ o.anns) ∧ ob.info.attrs = attrsOf ctx ob.decls := by
  constructor
  · rw [C27_attrs h.1, h.decls]
  · obtain ⟨_, b, _, hb⟩ := h
    obtain ⟨n', id', w', d', h'⟩ := hw b ob hb
    exact C27_attrs h'

/-- **C27** (redefinition).  An inherited attribute is still one unless it was redefined with a type that has no
serializer. -/
theorem C27_redefined (hw : w.Coherent ctx) (h : DerivedFrom ctx n id w d o ob) {a : Name} (ha : a ∈ ob.info.attrs) :
    a ∈ o.info.attrs ↔ (a ∈ o.anns.map (·.1) → IsField ctx (evalHint (lastDecl o.anns a))) := by
  obtain ⟨h1, h2⟩ := h.attrs hw
  rw [h2, mem_attrsOf] at ha
  rw [h1, mem_attrsOf, isAttr_append]
  by_cases hm : a ∈ o.anns.map (·.1)
  · rw [if_pos hm]
    constructor
    · exact fun ⟨_, _, hf⟩ _ => hf
    · exact fun hf => ⟨by rw [List.map_append, List.mem_append]; exact .inr hm, ha.2.1, hf hm⟩
  · rw [if_neg hm]
    constructor
    · exact fun _ hx => absurd hx hm
    · exact fun _ => ⟨by rw [List.map_append, List.mem_append]; exact .inl ha.1, ha.2⟩

/-- **C27** (position).  Attributes that a class has in common with its base are in the same order, redefined or not. -/
theorem C27_same_order (hw : w.Coherent ctx) (h : DerivedFrom ctx n id w d o ob) :
    o.info.attrs.filter (fun a => decide (a ∈ ob.info.attrs)) = ob.info.attrs.filter (fun a => decide (a ∈ o.info.attrs)) := by
  obtain ⟨h1, h2⟩ := h.attrs hw
  rw [h1, h2]
  have e1 := attrsOf_append (ctx := ctx) ob.decls o.anns
  have e2 : ((attrsOf ctx o.anns).filter (fun a => !decide (a ∈ ob.decls.map (·.1)))).filter
      (fun a => decide (a ∈ attrsOf ctx ob.decls)) = [] := by
    rw [List.filter_filter, List.filter_eq_nil_iff]
    intro a _ hp
    simp only [Bool.and_eq_true, decide_eq_true_eq, Bool.not_eq_true', decide_eq_false_iff_not, mem_attrsOf] at hp
    exact hp.2 hp.1.1
  conv => lhs; rw [e1]
  rw [List.filter_append, e2, List.append_nil]
  have e3 : attrsOf ctx ob.decls = (firsts (ob.decls.map (·.1))).filter
      (fun a => @decide _ (Classical.propDecidable (IsAttr ctx ob.decls a))) := rfl
  conv => rhs; rw [e3]
  rw [List.filter_filter, List.filter_filter]
  apply List.filter_congr
  intro a ha
  rw [mem_firsts] at ha
  rw [Bool.eq_iff_iff]
  simp only [Bool.and_eq_true, decide_eq_true_eq, mem_attrsOf]
  rw [List.map_append, List.mem_append]
  constructor
  · rintro ⟨⟨_, p⟩, q⟩
    exact ⟨⟨.inl ha, q⟩, p⟩
  · rintro ⟨⟨_, q⟩, p⟩
    exact ⟨⟨ha, p⟩, q⟩

/-- **C27** (new attributes).  Attributes with names that were not declared before come last, in the order of their
declaration. -/
theorem C27_new_last (hw : w.Coherent ctx) (h : DerivedFrom ctx n id w d o ob) : ∃ old : List Name,
    (∀ a ∈ old, a ∈ ob.decls.map (·.1)) ∧
    o.info.attrs = old ++ (attrsOf ctx o.anns).filter (fun a => !decide (a ∈ ob.decls.map (·.1))) := by
  obtain ⟨h1, _⟩ := h.attrs hw
  refine ⟨_, ?_, h1.trans (attrsOf_append ob.decls o.anns)⟩
  intro a ha
  rw [List.mem_filter, mem_firsts] at ha
  exact ha.1

/-- **C27** (nothing redefined).  If the class statement declares only new names, the attributes are those of the base
followed by the new ones. -/
theorem C27_only_new (hw : w.Coherent ctx) (h : DerivedFrom ctx n id w d o ob)
    (hn : ∀ a ∈ o.anns.map (·.1), a ∉ ob.decls.map (·.1)) :
    o.info.attrs = ob.info.attrs ++ attrsOf ctx o.anns := by
  obtain ⟨h1, h2⟩ := h.attrs hw
  rw [h1, h2, attrsOf_append]
  congr 1
  · unfold attrsOf
    apply List.filter_congr
    intro a ha
    rw [mem_firsts] at ha
    have : IsAttr ctx (ob.decls ++ o.anns) a ↔ IsAttr ctx ob.decls a := by
      rw [isAttr_append, if_neg fun hm => hn a hm ha]
    exact decide_eq_decide.2 this
  · apply List.filter_eq_self.2
    intro a ha
    rw [mem_attrsOf] at ha
    simpa using hn a ha.1

/-- The theorems on derived classes apply to `Derived`; `a` is gone, `b` kept its place, `x` has the place where it was
first declared, `c` comes last. -/
example : ∃ o ob, DerivedFrom hctx 3 [12] world1 derivedDecl o ob ∧ ob.info.attrs = ["a", "b"] ∧ o.info.attrs = ["x", "b", "c"] :=
  ⟨_, _, ⟨by rfl, 10, by rfl, by rfl⟩, by rfl, by rfl⟩

/-- `class More(Base): c: uint8; d: str` only has new names. -/
example : ∃ o ob, DerivedFrom hctx 3 [12] world1 { bases := [.cls 10], anns := [("c", uint8H), ("d", .plain "str")] } o ob ∧
    (∀ a ∈ o.anns.map (·.1), a ∉ ob.decls.map (·.1)) ∧ o.info.attrs = ["a", "b", "c"] :=
  ⟨_, _, ⟨by rfl, 10, by rfl, by rfl⟩, by decide, by rfl⟩

/-! ### What goes wrong -/

/-- **C27 is false in full** (`self`).  A field called `self` has a serializer but is not an attribute
(`structured.py:392-401`): the class has a serializer for two values and one attribute. -/
theorem C27_self_is_false : ∃ o, createClass hctx 3 [12] world0
      { bases := [.structured], anns := [("self", uint8H), ("b", uint16H)] } = .ok o ∧
    o.info.attrs = ["b"] ∧ o.info.serializer.numValues = 2 := ⟨_, by rfl, by rfl, by rfl⟩

/-- **C27 is false in full** (generic bases).  `class D(GBase[int8]): a: uint32` does not redefine `a`: the hints of the
specialization are written over those of the class (`structured.py:385-387`). -/
theorem C27_generic_redefinition_is_false : ∃ o, createClass hctx 3 [12] world1
      { bases := [.gen 11 [int8H]], anns := [("a", uint32H)] } = .ok o ∧
    o.info.attrs = ["a", "b"] ∧ o.info.serializer = .struct ⟨"bB".toList, none⟩ := ⟨_, by rfl, by rfl, by rfl⟩

end Verif
