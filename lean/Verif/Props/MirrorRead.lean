import Verif.Proofs.MirrorRead
import Verif.Props.Patch
/-
**C73** (reading): another byte order turns the numbers around and changes nothing else.
-/
namespace Verif
open Spec Sem Samples Extends Places Near Mirrors

variable {ctx : HintCtx} {N : Nat} {env : Env} {docs : ClassId → Option ClassDoc}

/-- What reading comes to in the other class. -/
theorem Mirrors.readObj_turns {P : Platform} {S : ClassId → Prop} (hS : NearDocs docs S) {c c' : ClassId} {d d' : ClassDoc} (hd : docs c = some d)
    (hd' : docs c' = some d') (hf : d'.fields = d.fields) (hb : aligned d.byteOrder = false) (hb' : aligned d'.byteOrder = false)
    (hw : ∀ f ∈ d.fields, f.within d.attrs) (hn : ∀ f ∈ d.fields, f.near S c) {k : Nat} {x y : Bytes} {v : Val}
    (hr : readObj P docs (k + 1) c (x ++ y) = .ok (v, x.length)) :
    ∃ attrs t, v = .obj c Option.none attrs ∧ Mirrored x t ∧ ∀ y', readObj P docs (k + 1) c' (t ++ y') = .ok (.obj c' Option.none attrs, x.length) := by
  have ha : d'.attrs = d.attrs := by unfold ClassDoc.attrs; rw [hf]
  simp only [readObj, hd] at hr
  split at hr
  · cases hr
  · rename_i hu
    cases h1 : readFields P d.byteOrder (readObj P docs k) ⟨c, true, []⟩ 0 d.fields (x ++ y) with
    | err | deep | odd => rw [h1] at hr; cases hr
    | ok p =>
    obtain ⟨vs, m⟩ := p
    rw [h1] at hr
    simp only [ok_bind, Parsed.ok.injEq, Prod.mk.injEq] at hr
    obtain ⟨rfl, rfl⟩ := hr
    obtain ⟨t, h3, h4⟩ := readFields_turns (bo' := d'.byteOrder) hb hb' (readObj_local hS k) d.fields ⟨c, true, []⟩ hn 0 0 x y vs h1
    refine ⟨d.attrs.zip vs, t, rfl, h3, fun y' => ?_⟩
    simp only [readObj, hd', hf, ha, if_neg hu]
    rw [readFields_within d.fields hw ⟨c', true, []⟩ ⟨c, true, []⟩ ⟨rfl, fun _ _ => rfl⟩, h4 y']
    simp only [ok_bind]

/-- **C73** (`create_unpack`, partial).  Two classes with the same fields in different byte orders without alignment: where the one reads an object from some
bytes, there are as many bytes that differ from them in that numbers are turned around, and from these, whatever follows them, the other reads an object with
the same values.  Missing, and false: fields that depend on the class, read-to-end strings and unions that read ahead; and what is missing in C56. -/
theorem C73_unpack_partial (h : AllDocumented env ctx N docs) {own : ClassId → List SerId} (hs : env.settled own) {S : ClassId → Prop} (hS : NearDocs docs S)
    {c c' : ClassId} {d d' : ClassDoc} (hd : docs c = some d) (hd' : docs c' = some d') (hf : d'.fields = d.fields) (hb : aligned d.byteOrder = false)
    (hb' : aligned d'.byteOrder = false) (hw : ∀ f ∈ d.fields, f.within d.attrs) (hn : ∀ f ∈ d.fields, f.near S c) {k : Nat} {x y : Bytes} {v : Val}
    (hr : readObj env.plat docs (k + 1) c (x ++ y) = .ok (v, x.length)) :
    ∃ attrs t, Mirrored x t ∧ ∀ y', ∃ K, ∀ n ≥ K, ∀ st st', result (createUnpack env n c (.buf (x ++ y)) st) = .ok (.obj c Option.none attrs) ∧
      result (createUnpack env n c' (.buf (t ++ y')) st') = .ok (.obj c' Option.none attrs) := by
  obtain ⟨attrs, t, rfl, h1, h2⟩ := Mirrors.readObj_turns hS hd hd' hf hb hb' hw hn hr
  refine ⟨attrs, t, h1, fun y' => ?_⟩
  obtain ⟨K1, g1⟩ := C56_unpack_limit_partial h hs (k + 1) c (x ++ y) (by rw [hr]; nofun)
  obtain ⟨K2, g2⟩ := C56_unpack_limit_partial h hs (k + 1) c' (t ++ y') (by rw [h2]; nofun)
  refine ⟨max K1 K2, fun n hn st st' => ?_⟩
  have g1 := g1 n (by omega) st
  have g2 := g2 n (by omega) st'
  rw [hr] at g1
  rw [h2] at g2
  exact ⟨g1, g2⟩

/-- **C73** (`create_unpack_from`, partial).  The same at offsets, whatever is in front, for programs without terminated strings and strings with a length in
front (which C03 does not cover). -/
theorem C73_from_partial (h : AllDocumented env ctx N docs) {own : ClassId → List SerId} (hs : env.settled own) (hst : env.steady false) {S : ClassId → Prop}
    (hS : NearDocs docs S) {c c' : ClassId} {d d' : ClassDoc} (hd : docs c = some d) (hd' : docs c' = some d') (hf : d'.fields = d.fields)
    (hb : aligned d.byteOrder = false) (hb' : aligned d'.byteOrder = false) (hw : ∀ f ∈ d.fields, f.within d.attrs) (hn : ∀ f ∈ d.fields, f.near S c) {k : Nat}
    {x y : Bytes} {v : Val} (hr : readObj env.plat docs (k + 1) c (x ++ y) = .ok (v, x.length)) :
    ∃ attrs t, Mirrored x t ∧ ∀ y', ∃ K, ∀ n ≥ K, ∀ (p p' : Bytes) st st',
      result (createUnpack env n c (.at (p ++ (x ++ y)) p.length) st) = .ok (.obj c Option.none attrs) ∧
      result (createUnpack env n c' (.at (p' ++ (t ++ y')) p'.length) st') = .ok (.obj c' Option.none attrs) := by
  obtain ⟨attrs, t, h1, h2⟩ := C73_unpack_partial h hs hS hd hd' hf hb hb' hw hn hr
  refine ⟨attrs, t, h1, fun y' => ?_⟩
  obtain ⟨K, hK⟩ := h2 y'
  refine ⟨K, fun n hn p p' st st' => ?_⟩
  rw [C03_from_partial env own hs hst n c (p ++ (x ++ y)) p.length (by simp) st st, List.drop_left,
    C03_from_partial env own hs hst n c' (p' ++ (t ++ y')) p'.length (by simp) st' st', List.drop_left]
  exact hK n hn st st'

/-- **C73** (`create_unpack_read`, partial).  The same for two streams, for programs without strings with a length in front. -/
theorem C73_read_partial (h : AllDocumented env ctx N docs) {own : ClassId → List SerId} (hs : env.settled own) (hst : env.steady true) {S : ClassId → Prop}
    (hS : NearDocs docs S) {c c' : ClassId} {d d' : ClassDoc} (hd : docs c = some d) (hd' : docs c' = some d') (hf : d'.fields = d.fields)
    (hb : aligned d.byteOrder = false) (hb' : aligned d'.byteOrder = false) (hw : ∀ f ∈ d.fields, f.within d.attrs) (hn : ∀ f ∈ d.fields, f.near S c) {k : Nat}
    {x y : Bytes} {v : Val} (hr : readObj env.plat docs (k + 1) c (x ++ y) = .ok (v, x.length)) :
    ∃ attrs t, Mirrored x t ∧ ∀ y', ∃ K, ∀ n ≥ K, ∀ st st' : St, st.io.data.drop st.io.pos = x ++ y → st'.io.data.drop st'.io.pos = t ++ y' →
      result (createUnpack env n c .io st) = .ok (.obj c Option.none attrs) ∧ result (createUnpack env n c' .io st') = .ok (.obj c' Option.none attrs) := by
  obtain ⟨attrs, t, h1, h2⟩ := C73_unpack_partial h hs hS hd hd' hf hb hb' hw hn hr
  refine ⟨attrs, t, h1, fun y' => ?_⟩
  obtain ⟨K, hK⟩ := h2 y'
  refine ⟨K, fun n hn st st' e1 e2 => ?_⟩
  rw [(C03_read_partial env own hs hst n c st st).1, (C03_read_partial env own hs hst n c' st' st').1, e1, e2]
  exact hK n hn st st'

theorem turn_documented : AllDocumented turnEnv hctx 4 turnDocs where
  documents := by
    intro c d h
    match c with
    | 70 => cases h; exact ⟨by rfl, _, rfl, documented (by rfl) (by rfl) (by rfl) (by decide)⟩
    | 71 => cases h; exact ⟨by rfl, _, rfl, documented (by rfl) (by rfl) (by rfl) (by decide)⟩
    | c' + 72 => cases h
  others := by
    intro c h
    by_cases h1 : c = 70
    · subst h1; cases h
    · by_cases h2 : c = 71
      · subst h2; cases h
      · simp only [turnEnv]
  init := by
    intro c ci h
    simp only [turnEnv] at h
    split at h
    · cases h; rfl
    · cases h; rfl
    · cases h

theorem turn_settled : turnEnv.settled fun
    | 70 => (madeBy [70] (stmt (turnDoc .le))).info.serializer.keepers
    | 71 => (madeBy [71] (stmt (turnDoc .be))).info.serializer.keepers
    | _ => [] := by
  intro c ci h
  simp only [turnEnv] at h
  split at h
  · cases h
    refine ⟨rfl, rfl, ?_, ?_⟩ <;> decide
  · cases h
    refine ⟨rfl, rfl, ?_, ?_⟩ <;> decide
  · cases h

theorem turn_steady {t : Bool} : turnEnv.steady t := by
  intro c ci h
  simp only [turnEnv] at h
  split at h
  · cases h; rfl
  · cases h; rfl
  · cases h

/-- The three theorems apply to the two classes of the examples for packing. -/
example : NearDocs turnDocs (fun _ => False) ∧ (∀ f ∈ (turnDoc .le).fields, f.within (turnDoc .le).attrs) ∧ (∀ f ∈ (turnDoc .le).fields, f.near (fun _ => False) 70) ∧
    readObj plat turnDocs 2 70 ([2, 1, 0, 0, 0, 0, 0, 0, 4, 64, 1, 0, 0, 0, 4, 3, 2, 1, 97, 98, 99] ++ [7]) = .ok (.obj 70 Option.none turnAttrs, 21) ∧
    (∀ st, result (createUnpack turnEnv 12 71 (.buf ([1, 2, 64, 4, 0, 0, 0, 0, 0, 0, 0, 0, 0, 1, 1, 2, 3, 4, 97, 98, 99] ++ [8, 9])) st) =
      .ok (.obj 71 Option.none turnAttrs)) :=
  ⟨fun _ _ h => h.elim, by simp [turnDoc, Field.within, Fmt.within], by simp [turnDoc, Field.near, Fmt.near], by rfl, fun st => by rfl⟩

example : ∃ attrs t, Mirrored [2, 1, 0, 0, 0, 0, 0, 0, 4, 64, 1, 0, 0, 0, 4, 3, 2, 1, 97, 98, 99] t ∧ ∀ y', ∃ K, ∀ n ≥ K, ∀ (p p' : Bytes) st st',
    result (createUnpack turnEnv n 70 (.at (p ++ ([2, 1, 0, 0, 0, 0, 0, 0, 4, 64, 1, 0, 0, 0, 4, 3, 2, 1, 97, 98, 99] ++ [7])) p.length) st) =
      .ok (.obj 70 Option.none attrs) ∧
    result (createUnpack turnEnv n 71 (.at (p' ++ (t ++ y')) p'.length) st') = .ok (.obj 71 Option.none attrs) :=
  C73_from_partial turn_documented turn_settled turn_steady (S := fun _ => False) (fun _ _ h => h.elim) (d := turnDoc .le) (d' := turnDoc .be) rfl rfl rfl rfl rfl
    (by simp [turnDoc, Field.within, Fmt.within]) (by simp [turnDoc, Field.near, Fmt.near]) (k := 1) (v := .obj 70 Option.none turnAttrs) (by rfl)

end Verif
