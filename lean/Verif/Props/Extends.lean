import Verif.Proofs.Extends
import Verif.Props.Puts
import Verif.Props.FormatParse
/-
**C71** A class that is derived from another one and declares new fields only extends its format.
-/
namespace Verif
open Spec Sem Samples Extends

variable {ctx : HintCtx} {N M : Nat} {env : Env} {docs : ClassId → Option ClassDoc}

/-- **C71** (class statements).  A class statement that only declares names that are new in its base class, with documented type hints,
in the byte order of the base class, makes a class whose fields are those of the base followed by its own. -/
theorem C71_documented {n : Nat} {id : SerId} {w : World} {dec : ClassDecl} {o ob : ClassObj} (h : DerivedFrom ctx n id w dec o ob)
    {d : ClassDoc} (hb : Documented ctx N d ob) (hbo : dec.byteOrder = d.byteOrder) (hnew : ∀ a ∈ o.anns.map (·.1), a ∉ ob.decls.map (·.1))
    {more : List Field}
    (hnames : (firsts (o.anns.map (·.1))).filter (fun a => !unserialized (evalHint (lastDecl o.anns a))) = more.map Field.name)
    (hhints : ∀ f ∈ more, f.hint ctx N = .ok (evalHint (lastDecl o.anns f.name))) (hself : ∀ f ∈ more, f.name ≠ "self")
    (hcalls : ∀ p ∈ more.flatMap Field.calls, ctx.call p.1 = fun v => .ok (p.2 v)) :
    Documented ctx N ⟨d.byteOrder, d.fields ++ more⟩ o := by
  have hdecls := h.decls
  have old : ∀ a ∈ ob.decls.map (·.1), lastDecl o.decls a = lastDecl ob.decls a := by
    intro a ha
    rw [hdecls, lastDecl_append, if_neg fun hm => hnew a hm ha]
  have new : ∀ a ∈ o.anns.map (·.1), lastDecl o.decls a = lastDecl o.anns a := by
    intro a ha
    rw [hdecls, lastDecl_append, if_pos ha]
  have memOld : ∀ f ∈ d.fields, f.name ∈ ob.decls.map (·.1) := by
    intro f hf
    have : f.name ∈ d.fields.map Field.name := List.mem_map_of_mem hf
    rw [← hb.names, List.mem_filter, mem_firsts] at this
    exact this.1
  have memNew : ∀ f ∈ more, f.name ∈ o.anns.map (·.1) := by
    intro f hf
    have : f.name ∈ more.map Field.name := List.mem_map_of_mem hf
    rw [← hnames, List.mem_filter, mem_firsts] at this
    exact this.1
  refine ⟨?_, ?_, ?_, ?_, ⟨n, id, w, dec, h.1, hbo⟩⟩
  · rw [List.map_append, ← hb.names, ← hnames]
    conv => lhs; rw [hdecls]
    rw [List.map_append, firsts_append, List.filter_append]
    congr 1
    · apply List.filter_congr
      intro a ha
      rw [mem_firsts] at ha
      rw [← hdecls, old a ha]
    · rw [show (firsts (o.anns.map (·.1))).filter (fun a => !decide (a ∈ ob.decls.map (·.1))) = firsts (o.anns.map (·.1)) from List.filter_eq_self.2 ?_]
      · apply List.filter_congr
        intro a ha
        rw [mem_firsts] at ha
        rw [← hdecls, new a ha]
      · intro a ha
        rw [mem_firsts] at ha
        simpa using hnew a ha
  · intro f hf
    rcases List.mem_append.1 hf with hf | hf
    · rw [old _ (memOld f hf)]; exact hb.hints f hf
    · rw [new _ (memNew f hf)]; exact hhints f hf
  · intro f hf
    rcases List.mem_append.1 hf with hf | hf
    · exact hb.self f hf
    · exact hself f hf
  · intro p hp
    rw [List.flatMap_append] at hp
    rcases List.mem_append.1 hp with hp | hp
    · exact hb.calls p hp
    · exact hcalls p hp

/-- What reading an object of a class comes to, when reading an object of the class that it extends came to `r`. -/
def FrontObj (c c' : ClassId) (d : ClassDoc) (r r' : Parsed (Val × Nat)) : Prop :=
  r' = .odd ∨ match r with
    | .ok (v, m) => ∀ v' m', r' = .ok (v', m') →
        ∃ attrs more, attrs.map (·.1) = d.attrs ∧ v = .obj c Option.none attrs ∧ v' = .obj c' Option.none (attrs ++ more) ∧ m ≤ m'
    | .err e => r' = .err e
    | .deep => r' = .deep
    | .odd => False

/-- **C71** (the formats).  Reading any bytes as a class whose format extends that of another one begins with reading them as the
latter. -/
theorem C71_formats {P : Platform} {c c' : ClassId} {d d' : ClassDoc} (hd : docs c = some d) (hd' : docs c' = some d') (he : d.Extends d')
    (k : Nat) (b : Bytes) : FrontObj c c' d (readObj P docs k c b) (readObj P docs k c' b) := by
  cases k with
  | zero => exact .inr rfl
  | succ k =>
    obtain ⟨more, hm⟩ := he.fields
    have hno : d.fields.any Field.usesSelf = false := noSelf_within he.within
    simp only [readObj, hd, hd', hno, he.order]
    split
    · rename_i h; simp at h
    · split
      · exact .inl rfl
      · have hf := readFields_front (P := P) (bo := d.byteOrder) (cls := readObj P docs k) more d.fields he.within ⟨c, true, []⟩ ⟨c', true, []⟩ ⟨rfl, fun _ _ => rfl⟩ 0 b
        rw [← hm] at hf
        cases hr : readFields P d.byteOrder (readObj P docs k) ⟨c, true, []⟩ 0 d.fields b with
        | ok x =>
          obtain ⟨vs, n⟩ := x
          rw [hr] at hf
          have hl : vs.length = d.attrs.length := by rw [readFields_length hr]; simp [ClassDoc.attrs]
          simp only [Bind.bind, Parsed.bind]
          refine .inr fun v' m' hr' => ?_
          cases hr2 : readFields P d.byteOrder (readObj P docs k) ⟨c', true, []⟩ 0 d'.fields b with
          | ok x' =>
            obtain ⟨ws, m⟩ := x'
            rw [hr2] at hr'
            simp only [Parsed.ok.injEq, Prod.mk.injEq] at hr'
            obtain ⟨rfl, rfl⟩ := hr'
            obtain ⟨⟨ws2, rfl⟩, h2⟩ := hf ws m hr2
            refine ⟨d.attrs.zip vs, ((more.filter (!·.isPad)).map Field.name).zip ws2, ?_, rfl, ?_, h2⟩
            · rw [List.map_fst_zip]; omega
            · rw [attrs_append hm, List.zip_append hl.symm]
          | err | deep | odd => rw [hr2] at hr'; cases hr'
        | err => rw [hr] at hf; simp only [Front] at hf; rw [hf]; exact .inr rfl
        | deep => rw [hr] at hf; simp only [Front] at hf; rw [hf]; exact .inr rfl
        | odd => rw [hr] at hf; simp only [Front] at hf; rw [hf]; exact .inl rfl

/-- **C71** (`create_unpack`, partial).  Whatever bytes are read as an object of the derived class are read as one of the base class, which
has the same values in its fields.  Missing, and false: `Self` in the base class, deciders and conditions of the base class that look at
more than its fields (see below), and what is missing in C56. -/
theorem C71_unpack_partial (h : AllDocumented env ctx N docs) {own : ClassId → List SerId} (hs : env.settled own) {c c' : ClassId} {d d' : ClassDoc}
    (hd : docs c = some d) (hd' : docs c' = some d') (he : d.Extends d') {n : Nat} {b : Bytes} {st : St} {v : Val}
    (hr : result (createUnpack env n c' (.buf b) st) = .ok v) (ho : readObj env.plat docs (n + 1) c' b ≠ .odd) :
    ∃ attrs more, attrs.map (·.1) = d.attrs ∧ v = .obj c' Option.none (attrs ++ more) ∧
      ∃ K, ∀ n ≥ K, ∀ st, result (createUnpack env n c (.buf b) st) = .ok (.obj c Option.none attrs) := by
  have h1 := C56_unpack_partial h hs n c' b st
  rw [hr] at h1
  rcases h1 with h1 | h1
  · cases h1
  · have hf := C71_formats (P := env.plat) hd hd' he (n + 1) b
    cases hr' : readObj env.plat docs (n + 1) c' b with
    | ok x =>
      obtain ⟨v', m'⟩ := x
      rw [hr'] at h1 hf
      simp only [Parsed.Is, Except.ok.injEq] at h1
      subst h1
      rcases hf with hf | hf
      · cases hf
      · cases hb : readObj env.plat docs (n + 1) c b with
        | ok y =>
          obtain ⟨vb, m⟩ := y
          rw [hb] at hf
          obtain ⟨attrs, more, e1, rfl, rfl, _⟩ := hf v m' rfl
          obtain ⟨K, hK⟩ := C56_unpack_limit_partial h hs (n + 1) c b (by rw [hb]; nofun)
          rw [hb] at hK
          exact ⟨attrs, more, e1, rfl, K, hK⟩
        | err => rw [hb] at hf; cases hf
        | deep => rw [hb] at hf; cases hf
        | odd => rw [hb] at hf; cases hf
    | err => rw [hr'] at h1; cases h1
    | deep => rw [hr'] at h1; cases h1
    | odd => exact absurd hr' ho

/-- **C71** (exceptions, partial).  What the base class does not read is not read by the derived class either; the exception is the same. -/
theorem C71_raises_partial (h : AllDocumented env ctx N docs) {own : ClassId → List SerId} (hs : env.settled own) {c c' : ClassId} {d d' : ClassDoc}
    (hd : docs c = some d) (hd' : docs c' = some d') (he : d.Extends d') {n : Nat} {b : Bytes} {st : St} {e : Err}
    (hr : result (createUnpack env n c (.buf b) st) = .error e) (hne : e ≠ .recursionError) (ho : readObj env.plat docs (n + 1) c' b ≠ .odd) :
    ∃ K, ∀ n ≥ K, ∀ st, result (createUnpack env n c' (.buf b) st) = .error e := by
  have h1 := C56_unpack_partial h hs n c b st
  rw [hr] at h1
  rcases h1 with h1 | h1
  · cases h1; exact absurd rfl hne
  · have hf := (C71_formats (P := env.plat) hd hd' he (n + 1) b).resolve_left ho
    cases hb : readObj env.plat docs (n + 1) c b with
    | ok y => rw [hb] at h1; cases h1
    | err e' =>
      rw [hb] at h1 hf
      cases h1
      simp only at hf
      obtain ⟨K, hK⟩ := C56_unpack_limit_partial h hs (n + 1) c' b (by rw [hf]; nofun)
      rw [hf] at hK
      exact ⟨K, hK⟩
    | deep => rw [hb] at h1; cases h1
    | odd => rw [hb] at hf; cases hf

/-- **C71** (`create_unpack_from`, partial).  The same at any offset, with the limits of C56. -/
theorem C71_from_partial (h : AllDocumented env ctx N docs) {own : ClassId → List SerId} (hs : env.settled own) (hst : env.steady false) {c c' : ClassId}
    {d d' : ClassDoc} (hd : docs c = some d) (hd' : docs c' = some d') (he : d.Extends d') {n : Nat} {x : Bytes} {off : Nat} (hoff : off ≤ x.length)
    {st : St} {v : Val} (hr : result (createUnpack env n c' (.at x off) st) = .ok v) (ho : readObj env.plat docs (n + 1) c' (x.drop off) ≠ .odd) :
    ∃ attrs more, attrs.map (·.1) = d.attrs ∧ v = .obj c' Option.none (attrs ++ more) ∧
      ∃ K, ∀ n ≥ K, ∀ st, result (createUnpack env n c (.at x off) st) = .ok (.obj c Option.none attrs) := by
  rw [C03_from_partial env own hs hst n c' x off hoff st st] at hr
  obtain ⟨attrs, more, h1, h2, K, hK⟩ := C71_unpack_partial h hs hd hd' he hr ho
  refine ⟨attrs, more, h1, h2, K, fun n hn st => ?_⟩
  rw [C03_from_partial env own hs hst n c x off hoff st st]
  exact hK n hn st

/-- **C71** (`create_unpack_read`, partial).  The same for streams; the base class does not read further than the derived class. -/
theorem C71_read_partial (h : AllDocumented env ctx N docs) {own : ClassId → List SerId} (hs : env.settled own) (hst : env.steady true) {c c' : ClassId}
    {d d' : ClassDoc} (hd : docs c = some d) (hd' : docs c' = some d') (he : d.Extends d') {n : Nat} {st st' : St} {v : Val}
    (hr : createUnpack env n c' .io st = .ok v st') (ho : readObj env.plat docs (n + 1) c' (st.io.data.drop st.io.pos) ≠ .odd) :
    ∃ attrs more, attrs.map (·.1) = d.attrs ∧ v = .obj c' Option.none (attrs ++ more) ∧
      ∃ K, ∀ n ≥ K, ∃ st2, createUnpack env n c .io st = .ok (.obj c Option.none attrs) st2 ∧
        st2.io.data = st.io.data ∧ st2.io.pos ≤ st'.io.pos := by
  rcases C56_read_partial h hs hst n c' st with h1 | ⟨h1, h2⟩
  · rw [hr] at h1; cases h1
  · rw [hr] at h1
    have hf := (C71_formats (P := env.plat) hd hd' he (n + 1) (st.io.data.drop st.io.pos)).resolve_left ho
    cases hr' : readObj env.plat docs (n + 1) c' (st.io.data.drop st.io.pos) with
    | ok x =>
      obtain ⟨v', m'⟩ := x
      obtain ⟨_, hp⟩ := h2 v' m' v st' hr' hr
      rw [hr'] at h1 hf
      simp only [Parsed.Is, result, Except.ok.injEq] at h1
      subst h1
      cases hb : readObj env.plat docs (n + 1) c (st.io.data.drop st.io.pos) with
      | ok y =>
        obtain ⟨vb, m⟩ := y
        rw [hb] at hf
        obtain ⟨attrs, more, e1, rfl, rfl, hm⟩ := hf v m' rfl
        obtain ⟨K, hK⟩ := C56_read_limit_partial h hs hst hb
        refine ⟨attrs, more, e1, rfl, K, fun j hj => ?_⟩
        obtain ⟨st2, g1, g2, g3⟩ := hK j hj
        exact ⟨st2, g1, g2, by omega⟩
      | err => rw [hb] at hf; cases hf
      | deep => rw [hb] at hf; cases hf
      | odd => rw [hb] at hf; cases hf
    | err => rw [hr'] at h1; cases h1
    | deep => rw [hr'] at h1; cases h1
    | odd => exact absurd hr' ho

/-- **C71** (packing, partial).  Two objects of the derived class and of the base class have the same values in the fields of the latter.
If the former is packed so is the latter, and the bytes of the former begin with those of the latter.  If packing the latter raises an
exception then so does packing the former, unless it is not even complete.  Missing, and false: as above, and what is missing in C62. -/
theorem C71_pack_partial (h : Describes env ctx M docs) (hall : ∀ c, (env.classes c).isSome = true → (docs c).isSome = true) {c c' : ClassId}
    {d d' : ClassDoc} (hd : docs c = some d) (hd' : docs c' = some d') (he : d.Extends d') {own : Option ByteOrder} {attrs attrs' : List (Name × Val)}
    (ha : ∀ a ∈ d.attrs, attrs.lookup a = attrs'.lookup a) (hc : Calm env (Val.obj c own attrs).nodes) (hc' : Calm env (Val.obj c' own attrs').nodes) :
    ∃ K, ∀ n ≥ K, ∀ st st',
      (∀ b', result (Obj.pack env n (.obj c' own attrs') st') = .ok b' →
        ∃ b more, result (Obj.pack env n (.obj c own attrs) st) = .ok b ∧ b' = b ++ more) ∧
      ((∀ a ∈ d'.attrs, (attrs'.lookup a).isSome = true) → ∀ e, result (Obj.pack env n (.obj c own attrs) st) = .error e →
        result (Obj.pack env n (.obj c' own attrs') st') = .error e) := by
  let k := max (Val.obj c own attrs).nodes.length (Val.obj c' own attrs').nodes.length
  have hk : (Val.obj c own attrs).nodes.length < k + 1 := by omega
  have hk' : (Val.obj c' own attrs').nodes.length < k + 1 := by omega
  obtain ⟨K1, h1⟩ := C62_partial h hall hc hk
  obtain ⟨K2, h2⟩ := C62_partial h hall hc' hk'
  refine ⟨max K1 K2, fun n hn st st' => ?_⟩
  have h1 := h1 n (by omega) st
  have h2 := h2 n (by omega) st'
  obtain ⟨more, hm⟩ := he.fields
  have hpk := pick_congr ha
  simp only [putObj, hd, hd'] at h1 h2
  rw [attrs_append hm, pick_append, ← hpk, he.order, hm] at h2
  cases hp : pick attrs d.attrs with
  | none =>
    rw [hp] at h1 h2
    simp only [PutsAs] at h1 h2
    rw [h1, h2]
    exact ⟨nofun, fun _ e he => he⟩
  | some vs =>
    rw [hp] at h1 h2
    cases hq : pick attrs' ((more.filter (!·.isPad)).map Field.name) with
    | none =>
      rw [hq] at h2
      simp only [PutsAs] at h1 h2
      rw [h2]
      refine ⟨nofun, fun hx => ?_⟩
      obtain ⟨ws, hw⟩ := pick_some fun a ha' => hx a (by rw [attrs_append hm]; exact List.mem_append_right _ ha')
      rw [hw] at hq
      cases hq
    | some ws =>
      rw [hq] at h2
      simp only at h1 h2
      have hf := putFields_front (P := env.plat) (bo := own.getD d.byteOrder) (cls := fun _ => putObj env.plat docs k) (o := ⟨c, false, attrs⟩) (o' := ⟨c', false, attrs'⟩)
        ⟨rfl, ha⟩ more ws d.fields he.within 0 vs
      cases hr : putFields env.plat (own.getD d.byteOrder) (fun _ => putObj env.plat docs k) ⟨c, false, attrs⟩ 0 d.fields vs with
      | ok b =>
        rw [hr] at h1 hf
        simp only [PutsAs] at h1
        rw [h1]
        refine ⟨fun b' hb' => ?_, fun _ e he => by cases he⟩
        cases hr' : putFields env.plat (own.getD d.byteOrder) (fun _ => putObj env.plat docs k) ⟨c', false, attrs'⟩ 0 (d.fields ++ more) (vs ++ ws) with
        | ok b2 =>
          rw [hr'] at h2
          simp only [PutsAs] at h2
          rw [h2] at hb'
          cases hb'
          obtain ⟨t, ht⟩ := hf _ hr'
          exact ⟨b, t, rfl, ht.symm⟩
        | err => rw [hr'] at h2; simp only [PutsAs] at h2; rw [h2] at hb'; cases hb'
        | deep => rw [hr'] at h2; cases h2
        | odd => rw [hr'] at h2; cases h2
      | err e =>
        rw [hr] at h1 hf
        simp only [PutsAs] at h1
        simp only [FrontB] at hf
        rw [hf] at h2
        simp only [PutsAs] at h2
        rw [h1, h2]
        exact ⟨nofun, fun _ e he => he⟩
      | deep => rw [hr] at h1; cases h1
      | odd => rw [hr] at h1; cases h1

/-- **C71** (headers, partial).  The base class reads the bytes of an object of the derived class, whatever follows, as the object of the base class with
the same values. -/
theorem C71_header_partial (h : Describes env ctx M docs) (hall : ∀ c, (env.classes c).isSome = true → (docs c).isSome = true)
    (hdoc : Documents env ctx N docs) (hp : ∀ c ci, env.classes c = some ci → ci.postInit = Except.ok) {c c' : ClassId}
    {d d' : ClassDoc} (hd : docs c = some d) (hd' : docs c' = some d') (he : d.Extends d') {attrs attrs' : List (Name × Val)}
    (ha : ∀ a ∈ d.attrs, attrs.lookup a = attrs'.lookup a) (hc : Calm env (Val.obj c Option.none attrs).nodes)
    (hc' : Calm env (Val.obj c' Option.none attrs').nodes) {k : Nat} {b : Bytes} {v : Val}
    (hw : writeObj env.plat docs k c (.obj c Option.none attrs) = some b) (hb : backObj env.plat true docs k false c (.obj c Option.none attrs) = some v) :
    ∃ K, ∀ n ≥ K, ∀ st b', result (Obj.pack env n (.obj c' Option.none attrs') st) = .ok b' → ∀ rest st2,
      result (createUnpack env n c (.buf (b' ++ rest)) st2) = .ok v := by
  obtain ⟨K1, h1⟩ := C71_pack_partial h hall hd hd' he ha hc hc'
  obtain ⟨K2, h2⟩ := C52_pack_partial hdoc hw hc
  obtain ⟨K3, h3⟩ := C52_unpack_partial hdoc hp hw hb hc
  refine ⟨max K1 (max K2 K3), fun n hn st b' hb' rest st2 => ?_⟩
  obtain ⟨b1, more, e1, rfl⟩ := (h1 n (by omega) st st).1 b' hb'
  rw [h2 n (by omega) st] at e1
  cases e1
  rw [List.append_assoc]
  exact h3 n (by omega) (more ++ rest) nofun st2

end Verif

namespace Verif.Samples
open Spec

/-- The world with one class made by a statement for `d`. -/
def baseWorld (d : ClassDoc) : World := fun c => if c = 70 then some (madeBy [70] (stmt d)) else Option.none

/-- The class made in it. -/
def madeFrom (d : ClassDoc) (dec : ClassDecl) : ClassObj := match createClass hctx 4 [71] (baseWorld d) dec with
  | .ok o => o
  | .error _ => ⟨[], [], [], ⟨[], .null, .default, .ok⟩⟩

/-- `class Derived(Base): ...` -/
def subStmt (bo : ByteOrder) (fs : List Field) : ClassDecl :=
  { bases := [.cls 70], byteOrder := bo, anns := fs.map fun f => (f.name, writtenField f) }

/-- Both classes. -/
def familyEnv (d : ClassDoc) (dec : ClassDecl) : Env := ⟨plat, fun
  | 70 => some (madeBy [70] (stmt d)).info
  | 71 => some (madeFrom d dec).info
  | _ => Option.none⟩
def familyDocs (d d' : ClassDoc) : ClassId → Option ClassDoc
  | 70 => some d
  | 71 => some d'
  | _ => Option.none

/-- `class Record(Structured): kind: uint8; size: uint16; flag: Annotated[uint8, Condition(lambda obj: obj.kind == 2, 0)]; name: char[uint8]` -/
def headDoc : ClassDoc := ⟨.default, [.value "kind" (.int false .one), .value "size" (.int false .two),
  .when "flag" (fun o => match o.attrs.lookup "kind" with
    | some (.int i) => .ok (.bool (i == 2))
    | _ => .error .attributeError) (.int false .one) (.int 0), .value "name" (.counted .one)]⟩

/-- `class Message(Record): code: uint32; body: array[Header[uint8], Record]; rest: char[math.inf]` -/
def messageFields : List Field := [.value "code" (.int false .four), .value "body" (.list .one (.obj 70)), .value "rest" .rest]
def messageDoc : ClassDoc := ⟨.default, headDoc.fields ++ messageFields⟩

abbrev familyEnv' : Env := familyEnv headDoc (subStmt .default messageFields)
abbrev familyDocs' : ClassId → Option ClassDoc := familyDocs headDoc messageDoc

theorem headDocumented : Documented hctx 4 headDoc (madeBy [70] (stmt headDoc)) := documented (by rfl) (by rfl) (by rfl) (by decide)

/-- `C71_documented` applies. -/
theorem messageDocumented : Documented hctx 4 messageDoc (madeFrom headDoc (subStmt .default messageFields)) :=
  C71_documented (n := 4) (id := [71]) (w := baseWorld headDoc) (dec := subStmt .default messageFields) ⟨by rfl, 70, by rfl, by rfl⟩
    headDocumented rfl (by decide +kernel) (by rfl) (each (by rfl)) (noSelf (by decide)) (by rw [show messageFields.flatMap Field.calls = [] from rfl]; nofun)

theorem message_extends : headDoc.Extends messageDoc where
  order := rfl
  fields := ⟨messageFields, rfl⟩
  within := by
    intro f hf
    simp only [headDoc, List.mem_cons, List.not_mem_nil, or_false] at hf
    rcases hf with rfl | rfl | rfl | rfl
    · simp [Field.within, Fmt.within]
    · simp [Field.within, Fmt.within]
    · refine ⟨fun o o' h => ?_, by simp [Fmt.within]⟩
      have := h.2 "kind" (by decide)
      simp only [this]
    · simp [Field.within, Fmt.within]

theorem family_documented : AllDocumented familyEnv' hctx 4 familyDocs' where
  documents := by
    intro c d h
    match c with
    | 70 => cases h; exact ⟨by rfl, _, rfl, headDocumented⟩
    | 71 => cases h; exact ⟨by rfl, _, rfl, messageDocumented⟩
    | c' + 72 => cases h
  others := by
    intro c h
    by_cases h1 : c = 70
    · subst h1; cases h
    · by_cases h2 : c = 71
      · subst h2; cases h
      · simp only [familyEnv]
  init := by
    intro c ci h
    simp only [familyEnv] at h
    split at h
    · cases h; rfl
    · cases h; rfl
    · cases h

theorem family_describes : Describes familyEnv' hctx 4 familyDocs' := by
  intro c d h
  match c with
  | 70 => cases h; exact ⟨by rfl, _, rfl, headDocumented⟩
  | 71 => cases h; exact ⟨by rfl, _, rfl, messageDocumented⟩
  | c' + 72 => cases h

theorem family_settled : familyEnv'.settled fun
    | 70 => (madeBy [70] (stmt headDoc)).info.serializer.keepers
    | 71 => (madeFrom headDoc (subStmt .default messageFields)).info.serializer.keepers
    | _ => [] := by
  intro c ci h
  simp only [familyEnv] at h
  split at h
  · cases h
    refine ⟨rfl, rfl, ?_, ?_⟩ <;> decide
  · cases h
    refine ⟨rfl, rfl, ?_, ?_⟩ <;> decide
  · cases h

theorem family_all : ∀ c, (familyEnv'.classes c).isSome = true → (familyDocs' c).isSome = true := by
  intro c h
  cases hd : familyDocs' c with
  | some => rfl
  | none => rw [family_documented.others c hd] at h; cases h

/-- `Record(2, 300, 5, b'ab')` -/
def headRecord : Val := .obj 70 Option.none [("kind", .int 2), ("size", .int 300), ("flag", .int 5), ("name", .bytes [97, 98])]
/-- `Message(2, 300, 5, b'ab', 7, [Record(1, 1, 0, b'c')], b'xyz')` -/
def message : Val := .obj 71 Option.none [("kind", .int 2), ("size", .int 300), ("flag", .int 5), ("name", .bytes [97, 98]), ("code", .int 7),
  ("body", .list [.obj 70 Option.none [("kind", .int 1), ("size", .int 1), ("flag", .int 0), ("name", .bytes [99])]]), ("rest", .bytes [120, 121, 122])]

end Verif.Samples

namespace Verif
open Spec Sem Samples Extends

/-- The hypotheses of the theorems hold: both classes are documented, the format of one extends that of the other, the objects are as they should be. -/
example : AllDocumented familyEnv' hctx 4 familyDocs' ∧ Describes familyEnv' hctx 4 familyDocs' ∧ headDoc.Extends messageDoc ∧
    (∀ a ∈ headDoc.attrs, ([("kind", .int 2), ("size", .int 300), ("flag", .int 5), ("name", .bytes [97, 98])] : List (Name × Val)).lookup a =
      ([("kind", .int 2), ("size", .int 300), ("flag", .int 5), ("name", .bytes [97, 98]), ("code", .int 7)] : List (Name × Val)).lookup a) ∧
    writeObj plat familyDocs' 3 70 headRecord = some [2, 0, 44, 1, 5, 2, 97, 98] ∧ backObj plat true familyDocs' 3 false 70 headRecord = some headRecord :=
  ⟨family_documented, family_describes, message_extends,
    each (l := headDoc.attrs) (f := fun a => List.lookup a _) (g := fun a => List.lookup a _) (by rfl), by rfl, by rfl⟩

/-- The bytes of a message begin with those of the record. -/
example (st : St) : result (Obj.pack familyEnv' 12 headRecord st) = .ok [2, 0, 44, 1, 5, 2, 97, 98] ∧
    result (Obj.pack familyEnv' 12 message st) = .ok ([2, 0, 44, 1, 5, 2, 97, 98] ++ [7, 0, 0, 0, 1, 1, 0, 1, 0, 1, 99, 120, 121, 122]) :=
  ⟨by rfl, by rfl⟩

/-- The record is read from the bytes of the message; what is too short for a record is too short for a message. -/
example (st : St) :
    result (createUnpack familyEnv' 12 71 (.buf [2, 0, 44, 1, 5, 2, 97, 98, 7, 0, 0, 0, 1, 1, 0, 1, 0, 1, 99, 120, 121, 122]) st) = .ok message ∧
    result (createUnpack familyEnv' 12 70 (.buf [2, 0, 44, 1, 5, 2, 97, 98, 7, 0, 0, 0, 1, 1, 0, 1, 0, 1, 99, 120, 121, 122]) st) = .ok headRecord ∧
    result (createUnpack familyEnv' 12 70 (.buf [2, 0, 44]) st) = .error .structError ∧
    result (createUnpack familyEnv' 12 71 (.buf [2, 0, 44]) st) = .error .structError :=
  ⟨by rfl, by rfl, by rfl, by rfl⟩

/-! ### What goes wrong -/

/-- `class Tree(Structured): kind: uint8; kids: array[Header[uint8], Self]` -/
def treeDoc : ClassDoc := ⟨.default, [.value "kind" (.int false .one), .value "kids" (.list .one .me)]⟩
def treeMore : List Field := [.value "extra" (.int false .one)]

/-- **C71** is false for `Self`: in objects of a derived class it is the derived class.  The base class reads other values from the bytes of
such an object. -/
theorem C71_self_is_false : Documented hctx 4 treeDoc (madeBy [70] (stmt treeDoc)) ∧
    Documented hctx 4 ⟨.default, treeDoc.fields ++ treeMore⟩ (madeFrom treeDoc (subStmt .default treeMore)) ∧
    (∀ st, result (createUnpack (familyEnv treeDoc (subStmt .default treeMore)) 12 71 (.buf [1, 2, 3, 0, 4, 5, 0, 6, 7]) st) =
      .ok (.obj 71 Option.none [("kind", .int 1), ("kids", .list [
        .obj 71 Option.none [("kind", .int 3), ("kids", .list []), ("extra", .int 4)],
        .obj 71 Option.none [("kind", .int 5), ("kids", .list []), ("extra", .int 6)]]), ("extra", .int 7)])) ∧
    ∀ st, result (createUnpack (familyEnv treeDoc (subStmt .default treeMore)) 12 70 (.buf [1, 2, 3, 0, 4, 5, 0, 6, 7]) st) = .error .structError :=
  ⟨documented (by rfl) (by rfl) (by rfl) (by decide),
    C71_documented (d := treeDoc) (more := treeMore) (o := madeFrom treeDoc (subStmt .default treeMore)) (n := 4) (id := [71])
      (w := baseWorld treeDoc) (dec := subStmt .default treeMore) ⟨by rfl, 70, by rfl, by rfl⟩
      (documented (by rfl) (by rfl) (by rfl) (by decide)) rfl (by decide +kernel) (by rfl) (each (by rfl)) (noSelf (by decide))
      (by rw [show treeMore.flatMap Field.calls = [] from rfl]; nofun),
    fun st => by rfl, fun st => by rfl⟩

/-- A field unless there is an attribute `extra`. -/
def shyDoc : ClassDoc := ⟨.default, [.value "kind" (.int false .one),
  .when "opt" (fun o => .ok (.bool (o.attrs.lookup "extra").isNone)) (.int false .one) (.int 0), .value "end" (.int false .one)]⟩

/-- **C71** is false if a condition (or a decider) looks at attributes of the derived class. -/
theorem C71_condition_is_false : Documented hctx 4 shyDoc (madeBy [70] (stmt shyDoc)) ∧
    Documented hctx 4 ⟨.default, shyDoc.fields ++ treeMore⟩ (madeFrom shyDoc (subStmt .default treeMore)) ∧
    (∀ st, result (Obj.pack (familyEnv shyDoc (subStmt .default treeMore)) 12
      (.obj 71 Option.none [("kind", .int 1), ("opt", .int 2), ("end", .int 3), ("extra", .int 4)]) st) = .ok [1, 3, 4]) ∧
    ∀ st, result (Obj.pack (familyEnv shyDoc (subStmt .default treeMore)) 12
      (.obj 70 Option.none [("kind", .int 1), ("opt", .int 2), ("end", .int 3)]) st) = .ok [1, 2, 3] :=
  ⟨documented (by rfl) (by rfl) (by rfl) (by decide),
    C71_documented (d := shyDoc) (more := treeMore) (o := madeFrom shyDoc (subStmt .default treeMore)) (n := 4) (id := [71])
      (w := baseWorld shyDoc) (dec := subStmt .default treeMore) ⟨by rfl, 70, by rfl, by rfl⟩
      (documented (by rfl) (by rfl) (by rfl) (by decide)) rfl (by decide +kernel) (by rfl) (each (by rfl)) (noSelf (by decide))
      (by rw [show treeMore.flatMap Field.calls = [] from rfl]; nofun),
    fun st => by rfl, fun st => by rfl⟩

/-- `class Wide(Structured, byte_order=ByteOrder.LE): kind: uint16` -/
def wideDoc : ClassDoc := ⟨.le, [.value "kind" (.int false .two)]⟩

/-- **C71** is false for a derived class in another byte order (`byte_order_mode=ByteOrderMode.OVERRIDE`). -/
theorem C71_order_is_false : ∃ o, DerivedFrom hctx 4 [71] (baseWorld wideDoc) { subStmt .be treeMore with override := true } o (madeBy [70] (stmt wideDoc)) ∧
    (∀ st, result (createUnpack (familyEnv wideDoc { subStmt .be treeMore with override := true }) 12 71 (.buf [1, 0, 5]) st) =
      .ok (.obj 71 Option.none [("kind", .int 256), ("extra", .int 5)])) ∧
    ∀ st, result (createUnpack (familyEnv wideDoc { subStmt .be treeMore with override := true }) 12 70 (.buf [1, 0, 5]) st) =
      .ok (.obj 70 Option.none [("kind", .int 1)]) :=
  ⟨_, ⟨by rfl, 70, by rfl, by rfl⟩, fun st => by rfl, fun st => by rfl⟩

/-- **C71** is false for a derived class that declares a name again with another type. -/
theorem C71_again_is_false : ∃ o, DerivedFrom hctx 4 [71] (baseWorld wideDoc) (subStmt .le [.value "kind" (.int false .one), .value "extra" (.int false .one)]) o
      (madeBy [70] (stmt wideDoc)) ∧
    (∀ st, result (Obj.pack (familyEnv wideDoc (subStmt .le [.value "kind" (.int false .one), .value "extra" (.int false .one)])) 12
      (.obj 71 Option.none [("kind", .int 1), ("extra", .int 5)]) st) = .ok [1, 5]) ∧
    ∀ st, result (Obj.pack (familyEnv wideDoc (subStmt .le [.value "kind" (.int false .one), .value "extra" (.int false .one)])) 12
      (.obj 70 Option.none [("kind", .int 1)]) st) = .ok [1, 0] :=
  ⟨_, ⟨by rfl, 70, by rfl, by rfl⟩, fun st => by rfl, fun st => by rfl⟩

end Verif
