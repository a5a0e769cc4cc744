import Verif.Proofs.Renames
import Verif.Props.Extends
import Verif.Props.Names
/-
**C75** The names of the fields are not part of the format.
-/
namespace Verif
open Spec Sem Samples Extends Renames

variable {ctx : HintCtx} {M N : Nat} {env : Env} {docs : ClassId → Option ClassDoc}

/-- The object with the same values under other names. -/
def underNames (c : ClassId) (names : List Name) : Val → Val
  | .obj _ own attrs => .obj c own (names.zip (attrs.map (·.2)))
  | v => v

/-- **C75** (the formats).  Reading any bytes as a class with the same fields under other names comes to the same values. -/
theorem C75_formats {P : Platform} {c c' : ClassId} {d d' : ClassDoc} (hd : docs c = some d) (hd' : docs c' = some d') (he : d.Renamed d')
    (k : Nat) (b : Bytes) : readObj P docs k c' b = readObj P docs k c b >>= fun p => .ok (underNames c' d'.attrs p.1, p.2) := by
  cases k with
  | zero => rfl
  | succ k =>
    obtain ⟨n1, n2⟩ := noSelf_renamed he.fields
    simp only [readObj, hd, hd', n1, n2, he.order, Bool.false_eq_true, false_and, if_false]
    rw [readFields_renamed (P := P) (bo := d.byteOrder) (cls := readObj P docs k) he.apart he.fields (o := ⟨c, true, []⟩) (o' := ⟨c', true, []⟩) ⟨rfl, fun _ _ => rfl⟩]
    cases hr : readFields P d.byteOrder (readObj P docs k) ⟨c', true, []⟩ 0 d'.fields b with
    | ok x =>
      obtain ⟨vs, m⟩ := x
      have hl : vs.length = d'.attrs.length := by rw [readFields_length hr]; simp [ClassDoc.attrs]
      have hl2 := attrs_renamed he
      simp only [Bind.bind, Parsed.bind, underNames]
      rw [List.map_snd_zip (by omega)]
    | err | deep | odd => rfl

/-- **C75** (`create_unpack`, partial).  Whatever bytes are read as an object of a class are read as an object of the class with the same
fields under other names, with the same values.  Missing: `Self`, and what is missing in C56. -/
theorem C75_unpack_partial (h : AllDocumented env ctx N docs) {own : ClassId → List SerId} (hs : env.settled own) {c c' : ClassId} {d d' : ClassDoc}
    (hd : docs c = some d) (hd' : docs c' = some d') (he : d.Renamed d') {n : Nat} {b : Bytes} {st : St} {v : Val}
    (hr : result (createUnpack env n c (.buf b) st) = .ok v) (ho : readObj env.plat docs (n + 1) c b ≠ .odd) :
    ∃ K, ∀ n ≥ K, ∀ st, result (createUnpack env n c' (.buf b) st) = .ok (underNames c' d'.attrs v) := by
  have h1 := C56_unpack_partial h hs n c b st
  rw [hr] at h1
  rcases h1 with h1 | h1
  · cases h1
  · have hf := C75_formats (P := env.plat) hd hd' he (n + 1) b
    cases hb : readObj env.plat docs (n + 1) c b with
    | ok x =>
      obtain ⟨v', m⟩ := x
      rw [hb] at h1 hf
      cases h1
      obtain ⟨K, hK⟩ := C56_unpack_limit_partial h hs (n + 1) c' b (by rw [hf]; nofun)
      rw [hf] at hK
      exact ⟨K, hK⟩
    | err => rw [hb] at h1; cases h1
    | deep => rw [hb] at h1; cases h1
    | odd => exact absurd hb ho

/-- **C75** (exceptions, partial).  What is not read as the one is not read as the other; the exception is the same. -/
theorem C75_raises_partial (h : AllDocumented env ctx N docs) {own : ClassId → List SerId} (hs : env.settled own) {c c' : ClassId} {d d' : ClassDoc}
    (hd : docs c = some d) (hd' : docs c' = some d') (he : d.Renamed d') {n : Nat} {b : Bytes} {st : St} {e : Err}
    (hr : result (createUnpack env n c (.buf b) st) = .error e) (hne : e ≠ .recursionError) (ho : readObj env.plat docs (n + 1) c b ≠ .odd) :
    ∃ K, ∀ n ≥ K, ∀ st, result (createUnpack env n c' (.buf b) st) = .error e := by
  have h1 := C56_unpack_partial h hs n c b st
  rw [hr] at h1
  rcases h1 with h1 | h1
  · cases h1; exact absurd rfl hne
  · have hf := C75_formats (P := env.plat) hd hd' he (n + 1) b
    cases hb : readObj env.plat docs (n + 1) c b with
    | ok => rw [hb] at h1; cases h1
    | err e' =>
      rw [hb] at h1 hf
      cases h1
      obtain ⟨K, hK⟩ := C56_unpack_limit_partial h hs (n + 1) c' b (by rw [hf]; nofun)
      rw [hf] at hK
      exact ⟨K, hK⟩
    | deep => rw [hb] at h1; cases h1
    | odd => exact absurd hb ho

/-- **C75** (`create_unpack_from`, partial).  The same at any offset, with the limits of C56. -/
theorem C75_from_partial (h : AllDocumented env ctx N docs) {own : ClassId → List SerId} (hs : env.settled own) (hst : env.steady false) {c c' : ClassId}
    {d d' : ClassDoc} (hd : docs c = some d) (hd' : docs c' = some d') (he : d.Renamed d') {n : Nat} {x : Bytes} {off : Nat} (hoff : off ≤ x.length)
    {st : St} {v : Val} (hr : result (createUnpack env n c (.at x off) st) = .ok v) (ho : readObj env.plat docs (n + 1) c (x.drop off) ≠ .odd) :
    ∃ K, ∀ n ≥ K, ∀ st, result (createUnpack env n c' (.at x off) st) = .ok (underNames c' d'.attrs v) := by
  rw [C03_from_partial env own hs hst n c x off hoff st st] at hr
  obtain ⟨K, hK⟩ := C75_unpack_partial h hs hd hd' he hr ho
  refine ⟨K, fun n hn st => ?_⟩
  rw [C03_from_partial env own hs hst n c' x off hoff st st]
  exact hK n hn st

/-- **C75** (`create_unpack_read`, partial).  The same for streams, which are left at the same place. -/
theorem C75_read_partial (h : AllDocumented env ctx N docs) {own : ClassId → List SerId} (hs : env.settled own) (hst : env.steady true) {c c' : ClassId}
    {d d' : ClassDoc} (hd : docs c = some d) (hd' : docs c' = some d') (he : d.Renamed d') {n : Nat} {st st' : St} {v : Val}
    (hr : createUnpack env n c .io st = .ok v st') (ho : readObj env.plat docs (n + 1) c (st.io.data.drop st.io.pos) ≠ .odd) :
    ∃ K, ∀ n ≥ K, ∃ st2, createUnpack env n c' .io st = .ok (underNames c' d'.attrs v) st2 ∧ st2.io.data = st'.io.data ∧ st2.io.pos = st'.io.pos := by
  rcases C56_read_partial h hs hst n c st with h1 | ⟨h1, h2⟩
  · rw [hr] at h1; cases h1
  · rw [hr] at h1
    have hf := C75_formats (P := env.plat) hd hd' he (n + 1) (st.io.data.drop st.io.pos)
    cases hb : readObj env.plat docs (n + 1) c (st.io.data.drop st.io.pos) with
    | ok x =>
      obtain ⟨v', m⟩ := x
      obtain ⟨hdat, hpos⟩ := h2 v' m v st' hb hr
      rw [hb] at h1 hf
      simp only [Parsed.Is, result, Except.ok.injEq] at h1
      subst h1
      obtain ⟨K, hK⟩ := C56_read_limit_partial h hs hst hf
      refine ⟨K, fun j hj => ?_⟩
      obtain ⟨st2, g1, g2, g3⟩ := hK j hj
      exact ⟨st2, g1, by rw [g2, hdat], by rw [g3, hpos]⟩
    | err => rw [hb] at h1; cases h1
    | deep => rw [hb] at h1; cases h1
    | odd => exact absurd hb ho

/-- **C75** (`pack`, partial).  Two objects with the same values under the old and under the new names are packed to the same bytes, or
raise the same exception.  Missing: `Self`, and what is missing in C62. -/
theorem C75_pack_partial (h : Describes env ctx M docs) (hall : ∀ c, (env.classes c).isSome = true → (docs c).isSome = true) {c c' : ClassId}
    {d d' : ClassDoc} (hd : docs c = some d) (hd' : docs c' = some d') (he : d.Renamed d') {own : Option ByteOrder} {attrs attrs' : List (Name × Val)}
    (ha : ∀ p ∈ d.attrs.zip d'.attrs, attrs.lookup p.1 = attrs'.lookup p.2) (hc : Calm env (Val.obj c own attrs).nodes)
    (hc' : Calm env (Val.obj c' own attrs').nodes) :
    ∃ K, ∀ n ≥ K, ∀ st st', result (Obj.pack env n (.obj c' own attrs') st') = result (Obj.pack env n (.obj c own attrs) st) := by
  let k := max (Val.obj c own attrs).nodes.length (Val.obj c' own attrs').nodes.length
  have hk : (Val.obj c own attrs).nodes.length < k + 1 := by omega
  have hk' : (Val.obj c' own attrs').nodes.length < k + 1 := by omega
  obtain ⟨K1, h1⟩ := C62_partial h hall hc hk
  obtain ⟨K2, h2⟩ := C62_partial h hall hc' hk'
  refine ⟨max K1 K2, fun n hn st st' => ?_⟩
  have h1 := h1 n (by omega) st
  have h2 := h2 n (by omega) st'
  have hpk := pick_renamed (attrs_renamed he) ha
  simp only [putObj, hd, hd', ← hpk, he.order] at h1 h2
  cases hp : pick attrs d.attrs with
  | none =>
    rw [hp] at h1 h2
    simp only [PutsAs] at h1 h2
    rw [h1, h2]
  | some vs =>
    rw [hp] at h1 h2
    simp only at h1 h2
    rw [← putFields_renamed (P := env.plat) (bo := own.getD d.byteOrder) (cls := fun _ => putObj env.plat docs k) (o := ⟨c, false, attrs⟩) (o' := ⟨c', false, attrs'⟩)
      ⟨rfl, ha⟩ he.fields] at h2
    cases hr : putFields env.plat (own.getD d.byteOrder) (fun _ => putObj env.plat docs k) ⟨c, false, attrs⟩ 0 d.fields vs with
    | ok b => rw [hr] at h1 h2; simp only [PutsAs] at h1 h2; rw [h1, h2]
    | err e => rw [hr] at h1 h2; simp only [PutsAs] at h1 h2; rw [h1, h2]
    | deep => rw [hr] at h1; cases h1
    | odd => rw [hr] at h1; cases h1

/-! ### Two such classes -/

/-- `lambda obj: obj.<name>` -/
def getName (a : Name) : Decider := fun o => match o.attrs.lookup a with
  | some v => .ok v
  | Option.none => .error .attributeError
/-- `lambda obj: obj.<name> == 2` -/
def twoAt (a : Name) : Decider := fun o => match o.attrs.lookup a with
  | some (.int i) => .ok (.bool (i == 2))
  | some _ => .ok (.bool false)
  | Option.none => .error .attributeError

/-- A class with a field that tells how the others are read, under these names; the union is the object `id`. -/
def parcelDoc (id : SerId) (a b pad c e : Name) : ClassDoc := ⟨.default, [.value a (.int false .one),
  .when b (twoAt a) (.int false .two) (.int 0), .pad pad 1,
  .value c (.choice id [uint16H, written (.counted .one)] Option.none (getName a) [.int 1, .int 2] [.int false .two, .counted .one] []),
  .value e (.int true .one)]⟩
abbrev parcelA : ClassDoc := parcelDoc [80] "kind" "flag" "skip" "body" "last"
/-- The names of some fields are those of others before. -/
abbrev parcelB : ClassDoc := parcelDoc [81] "last" "kind" "gap" "content" "flag"

def parcelEnv : Env := ⟨plat, fun
  | 70 => some (madeBy [70] (stmt parcelA)).info
  | 71 => some (madeBy [71] (stmt parcelB)).info
  | _ => Option.none⟩
def parcelDocs : ClassId → Option ClassDoc
  | 70 => some parcelA
  | 71 => some parcelB
  | _ => Option.none

theorem parcel_renamed : parcelA.Renamed parcelB where
  order := rfl
  fields := by
    have hz : parcelA.attrs.zip parcelB.attrs = [("kind", "last"), ("flag", "kind"), ("body", "content"), ("last", "flag")] := by rfl
    rw [hz]
    refine ⟨_, _, rfl, ⟨_, _, rfl, by decide, rfl⟩, _, _, rfl, ⟨_, _, _, rfl, by decide, fun o o' h => ?_, rfl⟩, _, _, rfl, ⟨_, rfl⟩, _, _, rfl,
      ⟨_, _, rfl, by decide, [81], _, _, _, _, rfl, fun o o' h => ?_, ⟨_, _, rfl, rfl, _, _, rfl, rfl, rfl⟩, rfl⟩, _, _, rfl, ⟨_, _, rfl, by decide, rfl⟩, rfl⟩
    · simp only [twoAt, h.2 ("kind", "last") (by decide)]
    · simp only [getName, h.2 ("kind", "last") (by decide)]
  apart := by decide

theorem parcel_documented : AllDocumented parcelEnv hctx 4 parcelDocs where
  documents := by
    intro c d h
    match c with
    | 70 => cases h; exact ⟨by rfl, _, rfl, documented (by rfl) (by rfl) (by rfl) (by decide)⟩
    | 71 => cases h; exact ⟨by rfl, _, rfl, documented (by rfl) (by rfl) (by rfl) (by decide)⟩
    | c' + 72 => cases h
  others := by
    intro c h
    by_cases h1 : c = 70
    · subst h1; cases h
    · by_cases h2 : c = 71
      · subst h2; cases h
      · simp only [parcelEnv]
  init := by
    intro c ci h
    simp only [parcelEnv] at h
    split at h
    · cases h; rfl
    · cases h; rfl
    · cases h

theorem parcel_settled : parcelEnv.settled fun
    | 70 => (madeBy [70] (stmt parcelA)).info.serializer.keepers
    | 71 => (madeBy [71] (stmt parcelB)).info.serializer.keepers
    | _ => [] := by
  intro c ci h
  simp only [parcelEnv] at h
  split at h
  · cases h
    refine ⟨rfl, rfl, ?_, ?_⟩ <;> decide
  · cases h
    refine ⟨rfl, rfl, ?_, ?_⟩ <;> decide
  · cases h

/-- `C75_unpack_partial` applies to them. -/
example : ∃ K, ∀ n ≥ K, ∀ st, result (createUnpack parcelEnv n 71 (.buf [2, 44, 1, 0, 2, 97, 98, 255]) st) =
    .ok (.obj 71 Option.none [("last", .int 2), ("kind", .int 300), ("content", .bytes [97, 98]), ("flag", .int (-1))]) :=
  C75_unpack_partial parcel_documented parcel_settled (c := 70) rfl rfl parcel_renamed (n := 12) (st := default)
    (v := .obj 70 Option.none [("kind", .int 2), ("flag", .int 300), ("body", .bytes [97, 98]), ("last", .int (-1))]) (by rfl) (by
      rw [show readObj parcelEnv.plat parcelDocs 13 70 [2, 44, 1, 0, 2, 97, 98, 255] =
        .ok (.obj 70 Option.none [("kind", .int 2), ("flag", .int 300), ("body", .bytes [97, 98]), ("last", .int (-1))], 8) from by rfl]
      nofun)

/-- The same bytes are read and written, and the same exceptions raised. -/
example : ∀ st,
    result (createUnpack parcelEnv 12 70 (.buf [2, 44, 1, 0, 2, 97, 98, 255]) st) =
      .ok (.obj 70 Option.none [("kind", .int 2), ("flag", .int 300), ("body", .bytes [97, 98]), ("last", .int (-1))]) ∧
    result (createUnpack parcelEnv 12 71 (.buf [2, 44, 1, 0, 2, 97, 98, 255]) st) =
      .ok (.obj 71 Option.none [("last", .int 2), ("kind", .int 300), ("content", .bytes [97, 98]), ("flag", .int (-1))]) ∧
    result (createUnpack parcelEnv 12 70 (.buf [3, 0, 1]) st) = .error .valueError ∧
    result (createUnpack parcelEnv 12 71 (.buf [3, 0, 1]) st) = .error .valueError ∧
    result (Obj.pack parcelEnv 12 (.obj 70 Option.none [("kind", .int 1), ("flag", .int 9), ("body", .int 258), ("last", .int 3)]) st) =
      .ok [1, 0, 2, 1, 3] ∧
    result (Obj.pack parcelEnv 12 (.obj 71 Option.none [("last", .int 1), ("kind", .int 9), ("content", .int 258), ("flag", .int 3)]) st) =
      .ok [1, 0, 2, 1, 3] :=
  fun st => ⟨by rfl, by rfl, by rfl, by rfl, by rfl, by rfl⟩

/-! ### What goes wrong -/

/-- One class with a field of this name. -/
def namedEnv (a : Name) : Env := ⟨plat, fun
  | 70 => some (madeBy [70] (stmt ⟨.default, [.value a (.int false .one), .value "b" (.int false .one)]⟩)).info
  | _ => Option.none⟩

/-- **C75** is false for a field called `self`: it is no attribute, and the class cannot be unpacked. -/
theorem C75_self_is_false : ∀ st,
    result (createUnpack (namedEnv "a") 12 70 (.buf [1, 2]) st) = .ok (.obj 70 Option.none [("a", .int 1), ("b", .int 2)]) ∧
    result (createUnpack (namedEnv "self") 12 70 (.buf [1, 2]) st) = .error .valueError :=
  fun st => ⟨by rfl, by rfl⟩

/-- **C75** is false for a field called like a method: what packs under another name is a `TypeError` (see C64). -/
theorem C75_method_is_false : ∀ st,
    result (Names.pack (namedEnv "a") 12 (.obj 70 Option.none [("a", .int 1), ("b", .int 2)]) st) = .ok [1, 2] ∧
    result (Names.pack (namedEnv "pack") 12 (.obj 70 Option.none [("pack", .int 1), ("b", .int 2)]) st) = .error .typeError :=
  fun st => ⟨by rfl, by rfl⟩

end Verif
