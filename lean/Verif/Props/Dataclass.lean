import Verif.Proofs.DataclassMade
import Verif.Props.Pads
import Verif.Props.Instances
/-
Classes made with `init=False` and decorated with `@dataclass` (C63).
-/
namespace Verif
open Spec Samples Data

variable {ctx : HintCtx} {n : Nat} {id : SerId} {w : World} {d : ClassDecl} {o : ClassObj}

/-- **C63** (`__init__`).  If the serialized fields are the first parameters, `cls(*values)` with one value per serialized field assigns each
its value, and all other fields their defaults; then `__post_init__` is called. -/
theorem C63_init {attrs : List Name} {fs : Dict Opts} (hf : Fitting attrs fs) (cls : ClassId) (post : List (Name × Val) → Except Err (List (Name × Val)))
    {vals : List Val} (hl : vals.length = attrs.length) :
    ∃ as, Data.call cls post fs vals = (do .ok (.obj cls none (← post as))) ∧ Holds attrs vals as ∧
      ∀ f ∈ fs, f.1 ∉ attrs → getAttr? as f.1 = f.2.default := by
  obtain ⟨as, h1, h2, h3⟩ := initAttrs_fitting hf hl
  exact ⟨as, by simp [Data.call, h1, bind, Except.bind], h2, h3⟩

theorem bindArgs_iff : ∀ (fs : Dict Opts) (vals : List Val),
    ((∃ as, bindArgs fs vals = .ok as) ↔ vals.length ≤ fs.length ∧ ∀ f ∈ fs.drop vals.length, f.2.default ≠ Option.none) ∧
    ∀ e, bindArgs fs vals = .error e → e = .typeError
  | [], [] => ⟨⟨fun _ => ⟨Nat.le_refl _, fun f hf => by cases hf⟩, fun _ => ⟨_, rfl⟩⟩, fun e h => by cases h⟩
  | [], _ :: _ => ⟨⟨fun h => (by obtain ⟨_, h⟩ := h; cases h), fun h => absurd h.1 (by simp)⟩, fun e h => by cases h; rfl⟩
  | f :: fs, v :: vs => by
    obtain ⟨h1, h2⟩ := bindArgs_iff fs vs
    simp only [List.length_cons, Nat.add_le_add_iff_right, List.drop_succ_cons]
    refine ⟨⟨fun h => h1.1 ?_, fun h => ?_⟩, fun e h => ?_⟩
    · obtain ⟨as, h⟩ := h
      obtain ⟨bs, hb, _⟩ := Except.bind_ok' (show (bindArgs fs vs >>= fun _ => _) = _ from h)
      exact ⟨bs, hb⟩
    · obtain ⟨bs, hb⟩ := h1.2 h
      exact ⟨(f.1, v) :: bs, by simp [bindArgs, hb, bind, Except.bind]⟩
    · cases hb : bindArgs fs vs with
      | ok bs => simp [bindArgs, hb, bind, Except.bind] at h
      | error x =>
        simp [bindArgs, hb, bind, Except.bind] at h
        subst h
        exact h2 _ hb
  | f :: fs, [] => by
    obtain ⟨h1, h2⟩ := bindArgs_iff fs []
    simp only [List.length_nil, Nat.zero_le, List.drop_zero, true_and] at h1 ⊢
    cases hd : f.2.default with
    | none =>
      refine ⟨⟨fun h => ?_, fun h => absurd hd (h f List.mem_cons_self)⟩, fun e h => ?_⟩
      · obtain ⟨as, h⟩ := h
        simp [bindArgs, hd] at h
      · simp [bindArgs, hd] at h
        exact h.symm
    | some w =>
      refine ⟨⟨fun h => ?_, fun h => ?_⟩, fun e h => ?_⟩
      · obtain ⟨as, h⟩ := h
        cases hb : bindArgs fs [] with
        | error x => simp [bindArgs, hd, hb, bind, Except.bind] at h
        | ok bs =>
          intro g hg
          rcases List.mem_cons.1 hg with rfl | hg
          · rw [hd]; simp
          · exact h1.1 ⟨bs, hb⟩ g hg
      · obtain ⟨bs, hb⟩ := h1.2 fun g hg => h g (List.mem_cons_of_mem _ hg)
        exact ⟨(f.1, w) :: bs, by simp [bindArgs, hd, hb, bind, Except.bind]⟩
      · cases hb : bindArgs fs [] with
        | ok bs => simp [bindArgs, hd, hb, bind, Except.bind] at h
        | error x =>
          simp [bindArgs, hd, hb, bind, Except.bind] at h
          subst h
          exact h2 _ hb

/-- **C63** (arguments).  A decorated class is called with success exactly if there are not more values than positional parameters and all
other parameters have defaults; otherwise `TypeError` is raised. -/
theorem C63_arguments (fs : Dict Opts) (vals : List Val) :
    ((∃ as, initAttrs fs vals = .ok as) ↔ vals.length ≤ (positional fs).length ∧
      (∀ f ∈ (positional fs).drop vals.length, f.2.default ≠ Option.none) ∧ ∀ f ∈ keywordOnly fs, f.2.default ≠ Option.none) ∧
    ∀ e, initAttrs fs vals = .error e → e = .typeError := by
  obtain ⟨p1, p2⟩ := bindArgs_iff (positional fs) vals
  obtain ⟨k1, k2⟩ := bindArgs_iff (keywordOnly fs) []
  simp only [List.length_nil, Nat.zero_le, List.drop_zero, true_and] at k1
  cases hp : bindArgs (positional fs) vals with
  | error x =>
    have hx := p2 _ hp
    subst hx
    have e : initAttrs fs vals = .error .typeError := by simp [initAttrs, hp, bind, Except.bind]
    refine ⟨⟨fun h => (by obtain ⟨_, h⟩ := h; rw [e] at h; cases h), fun h => ?_⟩, fun y h => by rw [e] at h; cases h; rfl⟩
    obtain ⟨bs, hb⟩ := p1.2 ⟨h.1, h.2.1⟩
    rw [hp] at hb
    cases hb
  | ok bs =>
    have hp' := p1.1 ⟨bs, hp⟩
    cases hk : bindArgs (keywordOnly fs) [] with
    | error x =>
      have hx := k2 _ hk
      subst hx
      have e : initAttrs fs vals = .error .typeError := by simp [initAttrs, hp, hk, bind, Except.bind]
      refine ⟨⟨fun h => (by obtain ⟨_, h⟩ := h; rw [e] at h; cases h), fun h => ?_⟩, fun y h => by rw [e] at h; cases h; rfl⟩
      obtain ⟨bs, hb⟩ := k1.2 h.2.2
      rw [hk] at hb
      cases hb
    | ok cs =>
      have e : initAttrs fs vals = .ok (runBody (bs ++ cs) fs) := by simp [initAttrs, hp, hk, bind, Except.bind]
      exact ⟨⟨fun _ => ⟨hp'.1, hp'.2, k1.1 ⟨cs, hk⟩⟩, fun _ => ⟨_, e⟩⟩, fun y h => by rw [e] at h; cases h⟩

example : initAttrs [("a", {}), ("x", { default := some (.int 0) })] [.int 1, .int 2, .int 3] = .error .typeError := by rfl
example : initAttrs [("a", {}), ("x", { default := some (.int 0) })] [.int 1] = .ok [("a", .int 1), ("x", .int 0)] := by rfl

/-- **C63** (`create_unpack`, `create_unpack_from`, `create_unpack_read`).  They make an instance on which every serialized field has the value
that was unpacked for it, and all other fields have their defaults. -/
theorem C63_create {env : Env} {cls : ClassId} {ci : ClassInfo} {fs : Dict Opts} (hc : env.classes cls = some (decorated fs ci))
    (hf : Fitting ci.attrs fs) (hp : ci.postInit = Except.ok) {src : Src} {st st' : St} {v : Val}
    (h : createUnpack env n cls src st = .ok v st') :
    ∃ s vals st1 as, ci.serializer.preunpack ⟨cls, true, []⟩ st = .ok s st1 ∧ unpack env n (assignVals ci.attrs) s src st1 = .ok vals st' ∧
      v = .obj cls none as ∧ Holds ci.attrs vals as ∧ ∀ f ∈ fs, f.1 ∉ ci.attrs → getAttr? as f.1 = f.2.default := by
  obtain ⟨ci', s, vals, st1, h1, h2, h3, h4, h5⟩ := C29_create_unpack env n cls src st st' v h
  rw [hc] at h1
  cases h1
  have hn : ci.attrs.Nodup := by
    obtain ⟨r, hr⟩ := hf.first
    have := Data.filter_nodup (fun f => f.2.init && !f.2.kwOnly) hf.once
    rw [show (fs.filter fun f => f.2.init && !f.2.kwOnly) = positional fs from rfl, ← hr, List.nodup_append] at this
    exact this.1
  obtain ⟨as, a1, a2, a3⟩ := initAttrs_fitting hf h4
  have h6 := h5 hn
  rw [callClass, if_neg (fun e => e h4)] at h6
  change (do let attrs ← (decorated fs ci).postInit (setAll [] (ci.attrs.zip vals)); Except.ok (Val.obj cls none attrs)) = _ at h6
  rw [setAll_zip hn] at h6
  replace h4 : vals.length = ci.attrs.length := h4
  simp only [decorated, List.map_snd_zip (show vals.length ≤ ci.attrs.length by omega), a1, hp, bind, Except.bind] at h6
  cases h6
  exact ⟨s, vals, st1, as, h2, h3, rfl, a2, a3⟩

/-- **C63** (`__post_init__`).  The method of the user is called with all fields set, and the instance is what it leaves. -/
theorem C63_post_init {env : Env} {cls : ClassId} {ci : ClassInfo} {fs : Dict Opts} (hc : env.classes cls = some (decorated fs ci))
    (hf : Fitting ci.attrs fs) {src : Src} {st st' : St} {v : Val} (h : createUnpack env n cls src st = .ok v st') :
    ∃ s vals st1 as as', ci.serializer.preunpack ⟨cls, true, []⟩ st = .ok s st1 ∧
      unpack env n (assignVals ci.attrs) s src st1 = .ok vals st' ∧ Holds ci.attrs vals as ∧
      (∀ f ∈ fs, f.1 ∉ ci.attrs → getAttr? as f.1 = f.2.default) ∧ ci.postInit as = .ok as' ∧ v = .obj cls none as' := by
  obtain ⟨ci', s, vals, st1, h1, h2, h3, h4, h5⟩ := C29_create_unpack env n cls src st st' v h
  rw [hc] at h1
  cases h1
  have hn : ci.attrs.Nodup := by
    obtain ⟨r, hr⟩ := hf.first
    have := Data.filter_nodup (fun f => f.2.init && !f.2.kwOnly) hf.once
    rw [show (fs.filter fun f => f.2.init && !f.2.kwOnly) = positional fs from rfl, ← hr, List.nodup_append] at this
    exact this.1
  obtain ⟨as, a1, a2, a3⟩ := initAttrs_fitting hf h4
  have h6 := h5 hn
  rw [callClass, if_neg (fun e => e h4)] at h6
  change (do let attrs ← (decorated fs ci).postInit (setAll [] (ci.attrs.zip vals)); Except.ok (Val.obj cls none attrs)) = _ at h6
  rw [setAll_zip hn] at h6
  replace h4 : vals.length = ci.attrs.length := h4
  simp only [decorated, List.map_snd_zip (show vals.length ≤ ci.attrs.length by omega), a1] at h6
  obtain ⟨as', h7, h8⟩ := Except.bind_ok' h6
  cases h8
  exact ⟨s, vals, st1, as, as', h2, h3, a2, a3, h7, rfl⟩

/-- `x` is 0 for `__init__`, and 9 after `__post_init__`. -/
example : result (createUnpack ⟨plat, fun _ => some (decorated [("a", {}), ("x", { default := some (.int 0) })]
      { attrs := ["a"], byteOrder := .default, serializer := .struct u8, postInit := fun as => .ok (setAttr as "x" (.int 9)) })⟩ 3 0
      (.buf [5]) st0) = .ok (.obj 0 none [("a", .int 5), ("x", .int 9)]) := by rfl

/-- **C63** (`create_unpack`).  It succeeds whenever the class's serializer gives one value per serialized field. -/
theorem C63_create_ok {env : Env} {cls : ClassId} {ci : ClassInfo} {fs : Dict Opts} (hc : env.classes cls = some (decorated fs ci))
    (hf : Fitting ci.attrs fs) (hp : ci.postInit = Except.ok) {src : Src} {st st1 st' : St} {s : Ser} {vals : List Val}
    (h1 : ci.serializer.preunpack ⟨cls, true, []⟩ st = .ok s st1) (h2 : unpack env n (assignVals ci.attrs) s src st1 = .ok vals st')
    (hl : vals.length = ci.attrs.length) : ∃ as, createUnpack env n cls src st = .ok (.obj cls none as) st' ∧ Holds ci.attrs vals as := by
  obtain ⟨as, a1, a2, _⟩ := initAttrs_fitting hf hl
  refine ⟨as, ?_, a2⟩
  unfold createUnpack createUnpackWith
  simp only [hc]
  have e : M.lift (construct cls (decorated fs ci) vals) st' = .ok (.obj cls none as) st' := by
    have : construct cls (decorated fs ci) vals = .ok (.obj cls none as) := by
      rw [construct, if_pos (by simpa [decorated] using hl)]
      simp only [decorated, List.map_snd_zip (show vals.length ≤ ci.attrs.length by omega), a1, hp, bind, Except.bind]
    rw [this]; rfl
  have h1' : (decorated fs ci).serializer.preunpack ⟨cls, true, []⟩ st = .ok s st1 := h1
  have h2' : unpack env n (assignVals (decorated fs ci).attrs) s src st1 = .ok vals st' := h2
  simp only [bind, M.bind, h1', h2', e]
  rfl

/-- **C63** (the decorator).  For a class whose bases may be decorated too: if the serialized fields come first among all fields, no
serialized field with a default is before one without, and everything else that goes to `__init__` has a default, the class can be
decorated; the serializer, the attributes and the byte order stay, and `C63_init`, `C63_create` hold of it. -/
theorem C63_decorate {opts : Name → Opts} {inherited : Dict Opts} (hf : Fitting o.info.attrs (allFields inherited opts o.anns))
    (hi : ∀ f ∈ allFields inherited opts o.anns, IsIdentifier f.1)
    (hd : ((allFields inherited opts o.anns).filter fun f => o.info.attrs.contains f.1).Pairwise
      fun f g => f.2.default ≠ Option.none → g.2.default ≠ Option.none) :
    ∃ o', decorate inherited opts o = .ok o' ∧ o'.info.serializer = o.info.serializer ∧ o'.info.attrs = o.info.attrs ∧
      o'.info.byteOrder = o.info.byteOrder ∧ o'.info = decorated (allFields inherited opts o.anns) o.info := by
  have hchk : checkFields (allFields inherited opts o.anns) = .ok () := by
    unfold checkFields
    rw [if_neg, if_neg]
    · simp only [List.any_eq_true, not_exists, not_and, Bool.and_eq_true]
      intro f hm _
      rw [digitFirst_identifier (hi f hm)]
      simp
    · rw [(defaultsLast_iff (positional (allFields inherited opts o.anns)) false).2]
      · simp
      · refine ⟨by simp, defaults_prefix o.info.attrs (filter_nodup _ hf.once) hf.first ?_ ?_⟩
        · intro f hm hna
          have hm' := List.mem_filter.1 hm
          simp only [Bool.and_eq_true] at hm'
          exact hf.rest f hm'.1 hna hm'.2.1
        · exact hd.sublist (List.filter_sublist.filter _)
  refine ⟨{ o with info := decorated (allFields inherited opts o.anns) o.info }, ?_, rfl, rfl, rfl, rfl⟩
  simp [decorate, hchk, bind, Except.bind]

/-- **C63** (class statements).  A class directly derived from `Structured` in whose body the serialized fields come first, those without
defaults before those with, and everything else that goes to `__init__` has a default, can be decorated, with the conditions of `C63_init`
and `C63_create`. -/
theorem C63_partial (h : createClass ctx n id w d = .ok o) (hb : structuredBase d.bases = .ok none) (hi : ∀ a ∈ o.anns, IsIdentifier a.1)
    {opts : Name → Opts} (hf : o.info.attrs <+: o.anns.map (·.1))
    (ha : ∀ a ∈ o.info.attrs, (opts a).init = true ∧ (opts a).kwOnly = false)
    (hd : o.info.attrs.Pairwise fun a b => (opts a).default ≠ Option.none → (opts b).default ≠ Option.none)
    (hr : ∀ a, a ∉ o.info.attrs → (opts a).init = true → (opts a).default ≠ Option.none) :
    ∃ o', decorate [] opts o = .ok o' ∧ o'.info.serializer = o.info.serializer ∧ o'.info.attrs = o.info.attrs ∧
      o'.info.byteOrder = o.info.byteOrder ∧ o'.info = decorated (allFields [] opts o.anns) o.info ∧
      Fitting o.info.attrs (allFields [] opts o.anns) := by
  have hn := anns_nodup h hb
  have hfit : Fitting o.info.attrs (allFields [] opts o.anns) := by
    rw [allFields_nil hn]
    refine ⟨ownFields_nodup hn, ?_, ?_⟩
    · exact positional_prefix _ _ hf (fun x hx hm => attr_not_classVar h hb hm hx) ha
    · intro f hm hna hin
      obtain ⟨e, _⟩ := ownFields_mem hm
      rw [e] at hin ⊢
      exact hr f.1 hna hin
  obtain ⟨o', h1, h2, h3, h4, h5⟩ := C63_decorate hfit (by
    intro f hm
    rw [allFields_nil hn] at hm
    obtain ⟨x, hx, e⟩ := List.mem_map.1 (ownFields_mem hm).2
    exact e ▸ hi x hx) (by
    have hsub : ((allFields [] opts o.anns).filter fun f => o.info.attrs.contains f.1).map (·.1) = o.info.attrs :=
      filter_attrs (by rw [allFields_nil hn]; exact ownFields_nodup hn) (positional_names hfit.first)
    have : (((allFields [] opts o.anns).filter fun f => o.info.attrs.contains f.1).map (·.1)).Pairwise
        fun a b => (opts a).default ≠ Option.none → (opts b).default ≠ Option.none := by rw [hsub]; exact hd
    rw [List.pairwise_map] at this
    refine this.imp_of_mem fun {f g} hfm hgm hfg => ?_
    rw [allFields_nil hn] at hfm hgm
    rw [(ownFields_mem (List.mem_filter.1 hfm).1).1, (ownFields_mem (List.mem_filter.1 hgm).1).1]
    exact hfg)
  exact ⟨o', h1, h2, h3, h4, h5, hfit⟩

/-- **C63** (pads).  A class with a pad cannot be decorated. -/
theorem C63_pad (h : createClass ctx n id w d = .ok o) (hb : structuredBase d.bases = .ok none) {opts : Name → Opts} {k : Nat} {x : Hint}
    (hk : (padName k, x) ∈ o.anns) (hx : ∀ y, evalHint x ≠ .classVar y) (hi : (opts (padName k)).init = true) (o' : ClassObj) :
    decorate [] opts o ≠ .ok o' := by
  intro e
  unfold decorate at e
  have h1 : checkFields (allFields [] opts o.anns) = .ok () := by
    cases hu : checkFields (allFields [] opts o.anns) with
    | ok u => rfl
    | error x => simp [hu, bind, Except.bind] at e
  unfold checkFields at h1
  split at h1
  · cases h1
  · split at h1
    · cases h1
    · rename_i h2
      apply h2
      rw [allFields_nil (anns_nodup h hb), List.any_eq_true]
      refine ⟨(padName k, opts (padName k)), ?_, by simp [hi, digitFirst_pad]⟩
      unfold ownFields
      refine List.mem_map.2 ⟨_, List.mem_filter.2 ⟨hk, ?_⟩, rfl⟩
      split
      · rename_i y hy; exact absurd hy (hx y)
      · rfl

/-- **C63** (`slots=True`).  With the default byte order, a class directly derived from `Structured` stays what it was, with the generated
`__init__`. -/
theorem C63_slots_partial (h : createClass ctx n id w d = .ok o) (hb : structuredBase d.bases = .ok none) (hbo : d.byteOrder = .default)
    {opts : Name → Opts} (hc : checkFields (allFields [] opts o.anns) = .ok ()) : decorateSlots ctx n id w [] opts d o = .ok o := by
  have hn := anns_nodup h hb
  obtain ⟨body, h1, h2⟩ := (createClass_made h).chain
  have e : o.anns = body := by
    rcases h2 with ⟨_, _, h3, _⟩ | ⟨b, ob, h3, _⟩
    · exact h3
    · rw [hb] at h3; cases h3
  have h3 : metaDict ctx n id d.padStart [] o.anns = .ok body := by
    rw [metaDict_fixed hn (by simp), ← e]
    · rfl
    · rw [e]; exact metaDict_left h1 (by simp)
  have : createClass ctx n id w { bases := d.bases, anns := o.anns, padStart := d.padStart, postInit := d.postInit } = .ok o := by
    rw [← h]
    unfold createClass
    simp only [h1, h3, hb, hbo, bind, Except.bind]
  simp [decorateSlots, hc, this, bind, Except.bind]

/-- **C63** (`slots=True`).  The byte order of the class afterwards is always the default one. -/
theorem C63_slots_byte_order {opts : Name → Opts} {inherited : Dict Opts} {o' : ClassObj} (h : decorateSlots ctx n id w inherited opts d o = .ok o') :
    o'.info.byteOrder = .default := by
  unfold decorateSlots at h
  cases hu : checkFields (allFields inherited opts o.anns) with
  | error x => simp [hu, bind, Except.bind] at h
  | ok u =>
    simp only [hu, bind, Except.bind] at h
    split at h
    · rename_i o2 h2
      cases h
      exact (createClass_made h2).byteOrder
    · cases h

theorem eqItems_attrs (eq : Val → Val → Except Err Bool) {as bs : List (Name × Val)} : ∀ {names : List Name} {xs ys : List Val},
    getAttrs as names = .ok xs → getAttrs bs names = .ok ys → eqAttrs eq as bs names = eqItems eq xs ys
  | [], xs, ys, h1, h2 => by cases h1; cases h2; rfl
  | a :: names, xs, ys, h1, h2 => by
    simp only [getAttrs] at h1 h2
    split at h1 <;> split at h2
    · rename_i v hv _ u hu
      obtain ⟨xs', e1, h1⟩ := Except.bind_ok' h1
      obtain ⟨ys', e2, h2⟩ := Except.bind_ok' h2
      cases h1; cases h2
      simp only [eqAttrs, hv, hu, eqItems]
      rw [eqItems_attrs eq e1 e2]
    all_goals first | cases h1 | cases h2

/-- **C63** (equality).  For a class all of whose fields are serialized, the `__eq__` of the decorated class gives for two of its instances
what `Structured.__eq__` gives. -/
theorem C63_eq {env : Env} {userEq : Val → Val → Except Err Bool} {cls : ClassId} {ci : ClassInfo} (hc : env.classes cls = some ci)
    {fs : Dict Opts} (hf : fs.map (·.1) = ci.attrs) {as bs : List (Name × Val)} {xs ys : List Val} (h1 : getAttrs as ci.attrs = .ok xs)
    (h2 : getAttrs bs ci.attrs = .ok ys) (b1 b2 : Option ByteOrder) :
    eqFields env userEq n fs as bs = pyEq env userEq (n + 1) (.obj cls b1 as) (.obj cls b2 bs) := by
  have e : pyEq env userEq (n + 1) (.obj cls b1 as) (.obj cls b2 bs) = eqAttrs (pyEq env userEq n) as bs ci.attrs := by
    simp [pyEq, Val.isCustom, hc]
  rw [e, eqItems_attrs _ h1 h2]
  simp [eqFields, hf, h1, h2, bind, Except.bind]

/-! ### Examples -/

namespace Samples

/-- `@dataclass class Reading(Structured, init=False): a: uint8; b: uint16; label: str = ...; note: str = field(init=False)` -/
def readingDecl : ClassDecl :=
  { bases := [.structured], anns := [("a", uint8H), ("b", uint16H), ("label", .plain "str"), ("note", .plain "str")], byteOrder := .be }

def readingOpts : Name → Opts := fun a =>
  if a = "label" then { default := some (.int 7) } else if a = "note" then { init := false } else {}

/-- `@dataclass class Tagged(Structured, init=False): tag: int = 0; a: uint8 = 0` -/
def taggedDecl : ClassDecl := { bases := [.structured], anns := [("tag", .plain "int"), ("a", uint8H)] }

def zeroOpts : Name → Opts := fun _ => { default := some (.int 0) }

def dataEnv (opts : Name → Opts) (d : ClassDecl) : Env := ⟨plat, fun c => if c = 60 then
    match createClass hctx 3 [60] world0 d with
    | .ok o => match decorate [] opts o with
      | .ok o' => some o'.info
      | .error _ => none
    | .error _ => none
  else none⟩

end Samples

example : ∃ o, createClass hctx 3 [60] world0 readingDecl = .ok o ∧ (∀ a ∈ o.anns, IsIdentifier a.1) ∧ o.info.attrs = ["a", "b"] ∧
    o.info.attrs <+: o.anns.map (·.1) := by
  refine ⟨_, rfl, ?_, rfl, ⟨["label", "note"], rfl⟩⟩
  intro a ha
  change a ∈ readingDecl.anns at ha
  simp only [readingDecl, List.mem_cons, List.not_mem_nil, or_false] at ha
  rcases ha with rfl | rfl | rfl | rfl <;> (intro c cs e; cases e; rfl)

example : result (createUnpack (dataEnv readingOpts readingDecl) 5 60 (.buf [1, 2, 3]) st0) =
    .ok (.obj 60 none [("a", .int 1), ("b", .int 515), ("label", .int 7)]) := by rfl

/-- The conditions of `C63_create` hold for this class, and the conclusion says something. -/
example : ∃ ci fs, (dataEnv readingOpts readingDecl).classes 60 = some (decorated fs ci) ∧ Fitting ci.attrs fs ∧ ci.postInit = Except.ok ∧
    ci.attrs = ["a", "b"] ∧ fs.map (·.1) = ["a", "b", "label", "note"] := by
  refine ⟨_, allFields [] readingOpts readingDecl.anns, rfl, ⟨?_, ?_, ?_⟩, rfl, rfl, rfl⟩
  · show ["a", "b", "label", "note"].Nodup
    decide
  · exact ⟨["label"], rfl⟩
  · intro f hf hna hi
    change f ∈ [("a", readingOpts "a"), ("b", readingOpts "b"), ("label", readingOpts "label"), ("note", readingOpts "note")] at hf
    change f.1 ∉ ["a", "b"] at hna
    simp only [List.mem_cons, List.not_mem_nil, or_false] at hf
    rcases hf with rfl | rfl | rfl | rfl
    · simp at hna
    · simp at hna
    · simp [readingOpts]
    · cases hi

/-- Equality of the decorated class also compares `label`. -/
example : eqFields (dataEnv readingOpts readingDecl) (fun _ _ => .ok false) 3 [("a", {}), ("b", {})] [("a", .int 1), ("b", .int 2)] [("b", .int 2), ("a", .int 1)] =
      .ok true ∧
    eqFields (dataEnv readingOpts readingDecl) (fun _ _ => .ok false) 3 [("a", {}), ("label", {})] [("a", .int 1), ("label", .int 2)] [("a", .int 1), ("label", .int 3)] =
      .ok false := ⟨by rfl, by rfl⟩

/-- **C63** (class variables).  The fields are the annotations that are no class variables. -/
theorem C63_fields (opts : Name → Opts) (anns : Dict Hint) (a : Name) :
    a ∈ (ownFields opts anns).map (·.1) ↔ ∃ h, (a, h) ∈ anns ∧ ∀ x, evalHint h ≠ .classVar x := by
  simp only [ownFields, List.map_map, List.mem_map, List.mem_filter]
  constructor
  · rintro ⟨⟨b, h⟩, ⟨hm, hb⟩, rfl⟩
    refine ⟨h, hm, fun x e => ?_⟩
    rw [e] at hb
    cases hb
  · rintro ⟨h, hm, hx⟩
    refine ⟨(a, h), ⟨hm, ?_⟩, rfl⟩
    split
    · rename_i x e; exact absurd e (hx x)
    · rfl

example : (ownFields (fun _ => {}) [("a", uint8H), ("n", .classVar (.plain "int")), ("b", .plain "str")]).map (·.1) = ["a", "b"] := by rfl

/-- **C63** is false if other fields come before the serialized ones: `Tagged.create_unpack(b'\x05')` has 5 as `tag`, and `a` is 0. -/
theorem C63_order_is_false : result (createUnpack (dataEnv zeroOpts taggedDecl) 5 60 (.buf [5]) st0) =
    .ok (.obj 60 none [("tag", .int 5), ("a", .int 0)]) := by rfl

/-- **C63** is false for a field before the serialized ones that has no default: `create_unpack` raises `TypeError`. -/
theorem C63_missing_is_false : result (createUnpack (dataEnv (fun _ => {}) taggedDecl) 5 60 (.buf [5]) st0) = .error .typeError := by rfl

/-- `@dataclass class Longer(Base, init=False): c: uint8; label: str = ...` for the decorated class `Base(Structured): a: uint8; x: int; b: uint16`
with `x = field(init=False)`. -/
example : ∃ o o', createClass hctx 3 [60] world1 { bases := [.cls 10], anns := [("c", uint8H), ("label", .plain "str")] } = .ok o ∧
    Fitting o.info.attrs (allFields [("a", {}), ("x", { init := false }), ("b", {})] readingOpts o.anns) ∧
    decorate [("a", {}), ("x", { init := false }), ("b", {})] readingOpts o = .ok o' ∧ o'.info.attrs = ["a", "b", "c"] := by
  refine ⟨_, _, rfl, ⟨?_, ?_, ?_⟩, rfl, rfl⟩
  · show ["a", "x", "b", "c", "label"].Nodup
    decide
  · exact ⟨["label"], rfl⟩
  · intro f hf hna hi
    change f ∈ [("a", ({} : Opts)), ("x", { init := false }), ("b", {}), ("c", readingOpts "c"), ("label", readingOpts "label")] at hf
    change f.1 ∉ ["a", "b", "c"] at hna
    simp only [List.mem_cons, List.not_mem_nil, or_false] at hf
    rcases hf with rfl | rfl | rfl | rfl | rfl
    · simp at hna
    · cases hi
    · simp at hna
    · simp at hna
    · simp [readingOpts]

/-- **C63** is false for classes derived from one that has other fields: with `class Short(Structured, init=False): a: uint8; x: int = 0`,
both decorated, `class Longer(Short, init=False): c: uint8` is a `TypeError`. -/
theorem C63_derived_is_false : ∃ b o, createClass hctx 3 [62] world0 { bases := [.structured], anns := [("a", uint8H), ("x", .plain "int")] } = .ok b ∧
    createClass hctx 3 [60] (fun c => if c = 62 then some b else none) { bases := [.cls 62], anns := [("c", uint8H)] } = .ok o ∧
    o.info.attrs = ["a", "c"] ∧ (match decorate [] (fun a => { default := if a = "x" then some (.int 0) else none }) b with
      | .ok b' => b'.info.attrs = ["a"]
      | .error _ => False) ∧
    (match decorate (allFields [] (fun a => { default := if a = "x" then some (.int 0) else none }) b.anns) (fun _ => {}) o with
      | .error e => e = .raised .typeError
      | .ok _ => False) := ⟨_, _, rfl, rfl, rfl, rfl, rfl⟩

/-- **C63** is false for classes with pads: `@dataclass class P(Structured, init=False): a: uint8; _: pad[3]` is a `SyntaxError`. -/
theorem C63_pad_is_false : ∃ o, createClass hctx 3 [60] world0 { bases := [.structured], anns := [("a", uint8H), ("_", padH 3)] } = .ok o ∧
    (match decorate [] (fun _ => {}) o with
      | .error e => e = .syntaxError
      | .ok _ => False) := ⟨_, rfl, rfl⟩

/-- **C63** is false for `@dataclass(slots=True)`: the big endian class is a native one afterwards. -/
theorem C63_slots_is_false : ∃ o o', createClass hctx 3 [60] world0 readingDecl = .ok o ∧ o.info.serializer = .struct ⟨">BH".toList, none⟩ ∧
    decorateSlots hctx 3 [60] world0 [] readingOpts readingDecl o = .ok o' ∧ o'.info.serializer = .struct ⟨"BH".toList, none⟩ :=
  ⟨_, _, rfl, rfl, rfl, rfl⟩

end Verif
