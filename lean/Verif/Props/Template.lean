import Verif.Proofs.Template
import Verif.Props.Generics
import Verif.Props.Extends
/-
C31: the documentation of a specialized generic class.
-/
namespace Verif
open Spec Samples Template

variable {ctx : HintCtx} {N n : Nat} {id : SerId} {w : World} {dec : ClassDecl} {o ob : ClassObj}

/-- **C31** (formats).  `class D(Base[args]): pass` for a generic class `Base` without generic base classes of its own has the fields that
the documentation of `Base` lists, with the types in place of the variables.  So all that is said of documented classes (C52, C56, C57, C62
and what follows from them) holds for `D`. -/
theorem C31_documented (hw : w.Coherent ctx) (h : createClass ctx N id w dec = .ok o) {b : ClassId} {args : List Hint} {ts : List TVar}
    (hs : Specializes b args dec.bases) (he : dec.anns = []) (hb : w b = some ob) (hts : HasVars ts ob.origBases)
    (hsup : ∀ y ∈ ob.origBases, ∀ c, ¬ IsBase c y) {s : List (TVar × HExp)} (hm : MapOf ctx N s (ts.zip args)) (hap : Spec.Apart s)
    {d : ClassDoc} (hbo : dec.byteOrder = d.byteOrder) (hgood : d.fields.all (Field.good d.byteOrder) = true)
    (hnames : (firsts (ob.decls.map (·.1))).filter (fun a => !unserialized (evalHint (lastDecl ob.decls a))) = d.fields.map Field.name)
    (hfields : ∀ f ∈ d.fields, Filled ctx N s ob f) (hself : ∀ f ∈ d.fields, f.name ≠ "self")
    (hcalls : ∀ p ∈ d.fields.flatMap Field.calls, ctx.call p.1 = fun v => .ok (p.2 v)) : Documented ctx N d o := by
  obtain ⟨hdecls, hopen⟩ := spec_names h hs he hb hsup
  have keep : ∀ a, (∀ u, transformAlias ctx N id (evalHint (lastDecl ob.decls a)) = .ok u → u.isTvar = false ∧ u.isAlias = false) →
      lastDecl o.decls a = lastDecl ob.decls a := by
    intro a ha
    rw [hdecls, lastDecl_append, if_neg]
    intro hmem
    obtain ⟨_, u, h1, h2⟩ := hopen a hmem
    obtain ⟨h3, h4⟩ := ha u h1
    rw [h3, h4] at h2
    rcases h2 with h2 | h2 <;> cases h2
  have hints : ∀ f ∈ d.fields, f.hint ctx N = .ok (evalHint (lastDecl o.decls f.name)) := by
    intro f hf
    rcases hfields f hf with h1 | ⟨ha, e, h1, h2, h3, h4, h5, h6, h7⟩
    · rw [keep, h1]
      intro u hu
      rw [alias_transform (quiet_field f h1)] at hu
      obtain ⟨x, rfl, _⟩ := field_is (List.all_eq_true.1 hgood f hf)
        (fun p hp => hcalls p (List.mem_flatMap.2 ⟨f, hf, hp⟩)) h1 hu
      exact ⟨rfl, rfl⟩
    · obtain ⟨r, k1, _, k3⟩ := C31_class hw h hs hb hts ha h1 h2 h3 hm hap h4 h5 h6
      have k4 : f.hint ctx N = .ok r := h7.trans k1
      rw [k3, (field_plain f k4).1, k4]
  refine ⟨?_, hints, hself, hcalls, ⟨N, id, w, dec, h, hbo⟩⟩
  rw [← hnames, hdecls, List.map_append, firsts_append]
  rw [show (firsts (o.anns.map (·.1))).filter (fun a => !decide (a ∈ ob.decls.map (·.1))) = [] from ?_, List.append_nil]
  · rw [← hdecls]
    apply List.filter_congr
    intro a ha
    rw [mem_firsts] at ha
    cases hu : unserialized (evalHint (lastDecl ob.decls a)) with
    | true =>
      rw [keep a, hu]
      intro u hu'
      cases hx : evalHint (lastDecl ob.decls a) <;> rw [hx] at hu hu' <;> first | cases hu; done | (cases hu'; exact ⟨rfl, rfl⟩)
    | false =>
      have : a ∈ d.fields.map Field.name := by
        rw [← hnames, List.mem_filter, mem_firsts]
        exact ⟨ha, by rw [hu]; rfl⟩
      obtain ⟨f, hf, rfl⟩ := List.mem_map.1 this
      rw [(field_plain f (hints f hf)).2]
  · rw [List.filter_eq_nil_iff]
    intro a ha
    rw [mem_firsts] at ha
    simpa using (hopen a ha).1

namespace Samples

/-- `class Couple(Structured, Generic[T]): size: uint16; first: T; second: char[T]; note: int` -/
def coupleDecl : ClassDecl :=
  { bases := [.structured, .generic [0]]
    anns := [("size", uint16H), ("first", .tvar 0), ("second", .alias .char [.tvar 0]), ("note", .plain "int")] }

def coupleBase : ClassObj := (createClass hctx 4 [60] world0 coupleDecl).toOption.getD ⟨[], [], [], ⟨[], .null, .default, .ok⟩⟩

def coupleWorld : World := fun c => if c = 60 then some coupleBase else none

/-- `class Couple8(Couple[uint8]): pass` -/
def couple8Decl : ClassDecl := { bases := [.gen 60 [uint8H]] }

def couple8 : ClassObj := (createClass hctx 4 [61] coupleWorld couple8Decl).toOption.getD ⟨[], [], [], ⟨[], .null, .default, .ok⟩⟩

/-- Its documentation. -/
def couple8Doc : ClassDoc := ⟨.default, [.value "size" (.int false .two), .value "first" (.int false .one), .value "second" (.counted .one)]⟩

end Samples

theorem coupleWorld_coherent : coupleWorld.Coherent hctx := by
  intro c o h
  unfold coupleWorld at h
  split at h
  · cases h; exact ⟨4, [60], world0, coupleDecl, by rfl⟩
  · cases h

theorem couple8_documented : Documented hctx 4 couple8Doc couple8 := by
  refine C31_documented (b := 60) (args := [uint8H]) (ts := [0]) (ob := coupleBase) (dec := couple8Decl) (s := [(0, .lit uint8H)]) coupleWorld_coherent
    (id := [61]) (by rfl) ⟨[], [], rfl, by simp⟩ rfl (by rfl) ⟨[.structured], [], by rfl, by simp⟩ ?_ ⟨⟨rfl, rfl⟩, trivial⟩ ?_ rfl (by rfl) (by rfl) ?_
    (noSelf (by decide)) ?_
  · intro y hy c
    have : y = .structured ∨ y = .generic [0] := by
      have e : coupleBase.origBases = [.structured, .generic [0]] := by rfl
      rw [e] at hy
      simpa using hy
    rcases this with rfl | rfl <;> rintro (h | ⟨_, h⟩) <;> cases h
  · intro p hp t ht
    simp only [List.mem_singleton] at hp
    subst hp; cases ht
  · intro f hf
    simp only [couple8Doc, List.mem_cons, List.not_mem_nil, or_false] at hf
    rcases hf with rfl | rfl | rfl
    · exact .inl (by rfl)
    · exact .inr ⟨by decide, .var 0, rfl, by simp [HExp.vars], .inl (by rfl), by rfl, by simp [HExp.vars], by decide, by rfl⟩
    · exact .inr ⟨by decide, .app .char [.var 0], rfl, by simp [HExp.vars, HExp.varsList], .inr (.inl (by rfl)), by rfl,
        by simp [HExp.vars, HExp.varsList], by decide, by rfl⟩
  · intro p hp; cases hp

/-- The sample class packs as its documentation says: two bytes for the size, one for `T = uint8`, and the counted string. -/
example : result (Obj.pack ⟨plat, fun c => if c = 61 then some couple8.info else none⟩ 6
      (.obj 61 none [("size", .int 258), ("first", .int 3), ("second", .bytes [7, 8])]) default) = .ok [2, 1, 3, 2, 7, 8] ∧
    writeObj plat (fun c => if c = 61 then some couple8Doc else none) 1 61
      (.obj 61 none [("size", .int 258), ("first", .int 3), ("second", .bytes [7, 8])]) = some [2, 1, 3, 2, 7, 8] := ⟨by rfl, by rfl⟩

end Verif
