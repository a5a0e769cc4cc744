import Verif.Spec.Override
import Verif.Proofs.OverrideLemmas
/-
C32: byte orders of a class and its base.
-/
namespace Verif
open Spec Samples

variable {ctx : HintCtx} {n : Nat} {id : SerId} {w : World} {d : ClassDecl} {o ob : ClassObj} {b : ClassId}

theorem origin_isBase {c : ClassId} {x : BaseRef} : x.origin = some c ↔ IsBase c x := by
  cases x <;> simp [BaseRef.origin, IsBase]

theorem origin_none {x : BaseRef} (h : ∀ c, ¬ IsBase c x) : x.origin = none := by
  cases hx : x.origin with
  | none => rfl
  | some c => exact absurd (origin_isBase.1 hx) (h c)

theorem structuredBase_one (h : OneBase b d.bases) : structuredBase d.bases = .ok (some b) := by
  obtain ⟨pre, x, post, e, hx, hn⟩ := h
  have none_of : ∀ l : List BaseRef, (∀ y ∈ l, ∀ c, ¬ IsBase c y) → l.filterMap BaseRef.origin = [] := by
    intro l hl
    rw [List.filterMap_eq_nil_iff]
    intro y hy
    exact origin_none (hl y hy)
  unfold structuredBase
  rw [e, List.filterMap_append, List.filterMap_cons_some (origin_isBase.2 hx), none_of pre (fun y hy => hn y (by simp [hy])),
    none_of post (fun y hy => hn y (by simp [hy]))]
  rfl

/-- **C32** (conflict).  A class statement whose byte order is not that of the base raises `ValueError`, unless the mode is
`OVERRIDE`. -/
theorem C32_conflict (hb : OneBase b d.bases) (hw : w b = some ob) (hbody : BodyRuns ctx n id d) (hm : d.override = false)
    (hne : ob.info.byteOrder ≠ d.byteOrder) : createClass ctx n id w d = .error .valueError := by
  obtain ⟨body, hbody⟩ := hbody
  unfold createClass
  simp only [hbody, structuredBase_one hb, hw, hm, bind, Except.bind]
  rw [if_pos ⟨by simp, hne⟩]

/-- **C32** (two bases).  Deriving from two `Structured` classes raises `TypeError`, whatever the byte orders. -/
theorem C32_two_bases (hb : TwoBases d.bases) (hbody : BodyRuns ctx n id d) : createClass ctx n id w d = .error .typeError := by
  obtain ⟨body, hbody⟩ := hbody
  obtain ⟨pre, x, mid, y, post, c, c', e, hx, hy⟩ := hb
  have : structuredBase d.bases = .error .typeError := by
    unfold structuredBase
    rw [e]
    simp only [List.filterMap_append, List.filterMap_cons_some (origin_isBase.2 hx), List.filterMap_cons_some (origin_isBase.2 hy)]
    generalize pre.filterMap BaseRef.origin = p
    generalize mid.filterMap BaseRef.origin = q
    generalize post.filterMap BaseRef.origin = r
    match p, q with
    | [], [] => rfl
    | [], _ :: _ => rfl
    | [_], [] => rfl
    | [_], _ :: _ => rfl
    | _ :: _ :: _, _ => rfl
  unfold createClass
  simp only [hbody, this, bind, Except.bind]

/-- **C32** (no class without agreement). -/
theorem C32_agreement (h : createClass ctx n id w d = .ok o) (hb : OneBase b d.bases) (hm : d.override = false) :
    ∃ ob, w b = some ob ∧ ob.info.byteOrder = d.byteOrder := by
  obtain ⟨body, _, hc⟩ := (createClass_made h).chain
  rcases hc with ⟨h1, _⟩ | ⟨b', ob, h1, h2, h3, _⟩
  · rw [structuredBase_one hb] at h1; cases h1
  · rw [structuredBase_one hb] at h1; cases h1
    refine ⟨ob, h2, ?_⟩
    rcases h3 with h3 | h3
    · rw [hm] at h3; cases h3
    · exact h3

/-- **C32** (`OVERRIDE`).  With `OVERRIDE` the class statement does, whatever the byte orders of the classes before, what it does
without `OVERRIDE` if they all have the byte order of the new class. -/
theorem C32_override (hm : d.override = true) :
    createClass ctx n id w d = createClass ctx n id (w.reorder fun _ => d.byteOrder) { d with override := false } := by
  have hsame : SameDecls w (w.reorder fun _ => d.byteOrder) := by
    intro c
    unfold World.reorder
    cases w c <;> rfl
  unfold createClass
  simp only [hm]
  cases hb : metaDict ctx n id d.padStart [] d.anns with
  | error e => rfl
  | ok body =>
    cases hs : structuredBase d.bases with
    | error e => rfl
    | ok base =>
      cases base with
      | none => rfl
      | some c =>
        simp only [bind, Except.bind]
        cases hc : w c with
        | none => simp only [World.reorder, hc, Option.map_none]
        | some oc =>
          simp only [specHints_congr hsame]
          simp only [World.reorder, hc, Option.map_some]
          simp only [not_true_eq_false, false_and, if_false, ne_eq, and_false]

/-- **C32** (byte order of the fields).  Every number of several bytes in the serializer of a class has the byte order of
the class statement, inherited or not, except those inside the parts of the types that keep their byte order (`Ser.deaf`: see C12). -/
theorem C32_new_order_partial (h : createClass ctx n id w d = .ok o) (hb : BasicFields ctx o) (hf : FormatsAccepted ctx o) :
    ∀ x ∈ o.info.serializer.orders, x = d.byteOrder ∨
      ∃ a m i s, a ∈ o.decls.map (·.1) ∧ transformTypehint ctx m i (evalHint (lastDecl o.decls a)) = .ok (some s) ∧ x ∈ s.deaf := by
  obtain ⟨fields, hfo, hmerge, _⟩ := class_fields h hb
  intro x hx
  obtain ⟨p, hp, hxp⟩ := orders_parts hx
  refine merge_orders hmerge (fun p => x ∈ p.orders → _) ?_ ?_ p hp hxp
  · intro z hz hx
    simp only [Ser.orders, StructSer.orders] at hx
    split at hx
    · rw [List.mem_singleton.1 hx]; exact .inl hz
    · cases hx
  · intro s hs hx
    obtain ⟨f, hfm, rfl⟩ := List.mem_map.1 hs
    obtain ⟨i, s0, h1, h2⟩ := hfo.sers f hfm
    have hmem : f.1 ∈ o.decls.map (·.1) := by
      obtain ⟨p, _, hp2⟩ := hfo.names
      have : f.1 ∈ fields.map (·.1) := List.mem_map.2 ⟨f, hfm, rfl⟩
      rw [hp2] at this
      exact (mem_firsts _ _).1 (List.mem_filter.1 this).1
    rcases (wbo_orders d.byteOrder s0 f.2 (hf f.1 _ i s0 hmem h1) h2).1 x hx with e | e
    · exact .inl e
    · exact .inr ⟨f.1, _, i, s0, hmem, h1, e⟩

/-- **C32** (inherited fields).  A field that the class statement does not redefine is the field of the base in the byte order of
the class. -/
theorem C32_inherited (h : DerivedFrom ctx n id w d o ob) (hf : FormatsAccepted ctx ob) {a : Name} {s t : Ser}
    (ha : a ∈ ob.decls.map (·.1)) (hn : a ∉ o.anns.map (·.1)) {bo : ByteOrder}
    (hs : FieldAt ctx ob bo a s) (ht : FieldAt ctx o d.byteOrder a t) :
    ∃ t', s.withByteOrder d.byteOrder = .ok t' ∧ t'.anon = t.anon := by
  obtain ⟨m1, i1, s0, h1, h2⟩ := hs
  obtain ⟨m2, i2, t0, h3, h4⟩ := ht
  have hl : lastDecl o.decls a = lastDecl ob.decls a := by
    rw [h.decls, lastDecl_append, if_neg hn]
  rw [hl] at h3
  have e := transformTypehint_same h1 h3
  have e : s0.anon = t0.anon := Option.some.inj e
  have k1 := wbo_last_wins bo d.byteOrder s0 s (hf a m1 i1 s0 ha h1) h2
  have k2 := wbo_same_anon e d.byteOrder
  have k := k1.trans k2
  rw [h4] at k
  cases hx : s.withByteOrder d.byteOrder with
  | error e => rw [hx] at k; cases k
  | ok t' =>
    rw [hx] at k
    exact ⟨t', rfl, Except.ok.inj k⟩

/-! ### Concrete cases -/

/-- A class in little endian order derived from a class in the default order, in the two modes. -/
example : createClass hctx 3 [12] world1 { bases := [.cls 10], byteOrder := .le, anns := [("c", uint32H)] } = .error .valueError ∧
    (createClass hctx 3 [12] world1 { bases := [.cls 10], byteOrder := .le, override := true, anns := [("c", uint32H)] }).map
      (fun o => (o.info.attrs, o.info.serializer)) = .ok (["a", "b", "c"], .struct ⟨"<BHI".toList, none⟩) ∧
    OneBase 10 [.cls 10] ∧ (world1 10).map (fun o => o.info.byteOrder) = some .default ∧
    BodyRuns hctx 3 [12] { bases := [.cls 10], byteOrder := .le, anns := [("c", uint32H)] } :=
  ⟨by rfl, by rfl, ⟨[], _, [], rfl, .inl rfl, by simp⟩, by rfl, _, by rfl⟩

/-- Two bases. -/
example : createClass hctx 3 [12] world1 { bases := [.cls 10, .gen 11 [uint8H]] } = .error .typeError ∧
    TwoBases [.cls 10, .gen 11 [uint8H]] :=
  ⟨by rfl, [], _, [], _, [], 10, 11, rfl, .inl rfl, .inr ⟨_, rfl⟩⟩

/-- `class Swapped(Padded, byte_order=BIG_ENDIAN, byte_order_mode=OVERRIDE): d: int8` -/
def swappedDecl : ClassDecl := { bases := [.cls 10], byteOrder := .be, override := true, anns := [("d", int8H)] }

def swapWorld : World := fun c => if c = 10 then some padded else none

/-- The hypotheses of `C32_inherited` for the field `b` of `Padded`, `<H` there and `>H` in `Swapped`. -/
example : ∃ o, DerivedFrom hctx 3 [12] swapWorld swappedDecl o padded ∧ "b" ∈ padded.decls.map (·.1) ∧ "b" ∉ o.anns.map (·.1) ∧
    FieldAt hctx padded .le "b" (.struct ⟨"<H".toList, none⟩) ∧ FieldAt hctx o .be "b" (.struct ⟨">H".toList, none⟩) ∧
    o.info.serializer = .compound [2, 12] [.struct ⟨">B3xH".toList, none⟩, .dynChar [2, 9] ⟨">B".toList, none⟩, .struct ⟨">xb".toList, none⟩] :=
  ⟨_, ⟨by rfl, 10, by rfl, by rfl⟩, by decide, by decide, ⟨3, [], _, by rfl, by rfl⟩, ⟨3, [], _, by rfl, by rfl⟩, by rfl⟩

/-- `BasicFields` and `FormatsAccepted` hold of `Padded`. -/
example : BasicFields hctx padded ∧ FormatsAccepted hctx padded := by
  refine ⟨padded_basic, ?_⟩
  intro a m i s ha hs
  have : padded.decls.map (·.1) = ["serializer", "attrs", "_attrgetter", "byte_order", "a", "4_pad_", "b", "c", "x", "5_pad_"] := by rfl
  rw [this] at ha
  simp only [List.mem_cons, List.not_mem_nil, or_false] at ha
  have key : ∀ {m' : Nat} {i' : SerId} {r : Option Ser}, transformTypehint hctx m' i' (evalHint (lastDecl padded.decls a)) = .ok r →
      (∀ t, r = some t → (∃ x, t = .struct x ∧ StructSer.formatOk x.format = true) ∨ ∃ j, t = .dynChar j ⟨['B'], none⟩) → s.FormatsOk := by
    intro m' i' r h1 h2
    have e := transformTypehint_same hs h1
    cases r with
    | none => cases e
    | some t =>
      have e : s.anon = t.anon := Option.some.inj e
      rcases h2 t rfl with ⟨x, rfl, hx⟩ | ⟨j, rfl⟩
      · have := anon_struct (x := x) e
        subst this
        intro y hy
        simp only [Ser.structs, List.mem_singleton] at hy
        rw [hy]; exact hx
      · cases s <;> cases e
        intro y hy
        simp only [Ser.structs, List.mem_singleton] at hy
        rw [hy]; rfl
  rcases ha with rfl | rfl | rfl | rfl | rfl | rfl | rfl | rfl | rfl | rfl
  · exact key (m' := 3) (i' := []) (r := none) rfl (by simp)
  · exact key (m' := 3) (i' := []) (r := none) rfl (by simp)
  · exact key (m' := 3) (i' := []) (r := none) rfl (by simp)
  · exact key (m' := 3) (i' := []) (r := none) rfl (by simp)
  · exact key (m' := 3) (i' := []) (r := some _) rfl (fun t ht => .inl ⟨_, (Option.some.inj ht).symm, rfl⟩)
  · exact key (m' := 3) (i' := []) (r := some _) rfl (fun t ht => .inl ⟨_, (Option.some.inj ht).symm, rfl⟩)
  · exact key (m' := 3) (i' := []) (r := some _) rfl (fun t ht => .inl ⟨_, (Option.some.inj ht).symm, rfl⟩)
  · exact key (m' := 3) (i' := []) (r := some _) rfl (fun t ht => .inr ⟨_, (Option.some.inj ht).symm⟩)
  · exact key (m' := 3) (i' := []) (r := none) rfl (by simp)
  · exact key (m' := 3) (i' := []) (r := some _) rfl (fun t ht => .inl ⟨_, (Option.some.inj ht).symm, rfl⟩)

/-! ### Where it fails -/

/-- **C32** fails for tuples: with `OVERRIDE` they keep the byte order they had.
`class A(Structured): t: tuple[uint16, uint8]; u: uint16`,
`class B(A, byte_order=BIG_ENDIAN, byte_order_mode=OVERRIDE): pass` -/
theorem C32_tuple_is_false : ∃ oa ob,
    createClass hctx 3 [10] world0 { bases := [.structured], anns := [("t", .tup [uint16H, uint8H] false), ("u", uint16H)] } = .ok oa ∧
    createClass hctx 3 [12] (fun c => if c = 10 then some oa else none) { bases := [.cls 10], byteOrder := .be, override := true } = .ok ob ∧
    (∃ i j, ob.info.serializer = .compound i [.tuple j (.struct ⟨"HB".toList, none⟩), .struct ⟨">H".toList, none⟩]) :=
  ⟨_, _, by rfl, by rfl, _, _, by rfl⟩

end Verif
