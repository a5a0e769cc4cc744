import Verif.Proofs.Grows
import Verif.Props.Extends
/-
**C74** Old data stay readable when unions get new members.
-/
namespace Verif
open Spec Sem Samples Extends Grow

variable {ctx ctx' : HintCtx} {M M' N N' : Nat} {env env' : Env} {docs docs' : ClassId → Option ClassDoc}

/-- **C74** (`create_unpack`, partial).  In a later version of a program, unions have further members and there are further classes.  Whatever bytes the old
version reads the new version reads, as the same object.  Missing: what is missing in C56. -/
theorem C74_unpack_partial (h : AllDocumented env ctx N docs) {own : ClassId → List SerId} (hs : env.settled own) (h' : AllDocumented env' ctx' N' docs')
    {own' : ClassId → List SerId} (hs' : env'.settled own') (hp : env'.plat = env.plat) (hg : DocsGrow docs docs') {n : Nat} {c : ClassId} {b : Bytes} {st : St}
    {v : Val} (hr : result (createUnpack env n c (.buf b) st) = .ok v) (ho : readObj env.plat docs (n + 1) c b ≠ .odd) :
    ∃ K, ∀ n ≥ K, ∀ st, result (createUnpack env' n c (.buf b) st) = .ok v := by
  have h1 := C56_unpack_partial h hs n c b st
  rw [hr] at h1
  rcases h1 with h1 | h1
  · cases h1
  · cases hb : readObj env.plat docs (n + 1) c b with
    | ok x =>
      rw [hb] at h1
      cases h1
      have hk := readObj_keeps (P := env.plat) hg (n + 1) c b x hb
      obtain ⟨K, hK⟩ := C56_unpack_limit_partial h' hs' (n + 1) c b (by rw [hp, hk]; nofun)
      rw [hp, hk] at hK
      exact ⟨K, hK⟩
    | err => rw [hb] at h1; cases h1
    | deep => rw [hb] at h1; cases h1
    | odd => exact absurd hb ho

/-- **C74** (`create_unpack_from`, partial).  The same at any offset, with the limits of C56. -/
theorem C74_from_partial (h : AllDocumented env ctx N docs) {own : ClassId → List SerId} (hs : env.settled own) (hst : env.steady false)
    (h' : AllDocumented env' ctx' N' docs') {own' : ClassId → List SerId} (hs' : env'.settled own') (hst' : env'.steady false) (hp : env'.plat = env.plat)
    (hg : DocsGrow docs docs') {n : Nat} {c : ClassId} {x : Bytes} {off : Nat} (hoff : off ≤ x.length) {st : St} {v : Val}
    (hr : result (createUnpack env n c (.at x off) st) = .ok v) (ho : readObj env.plat docs (n + 1) c (x.drop off) ≠ .odd) :
    ∃ K, ∀ n ≥ K, ∀ st, result (createUnpack env' n c (.at x off) st) = .ok v := by
  rw [C03_from_partial env own hs hst n c x off hoff st st] at hr
  obtain ⟨K, hK⟩ := C74_unpack_partial h hs h' hs' hp hg hr ho
  refine ⟨K, fun n hn st => ?_⟩
  rw [C03_from_partial env' own' hs' hst' n c x off hoff st st]
  exact hK n hn st

/-- **C74** (`create_unpack_read`, partial).  The same for streams, which are left at the same place. -/
theorem C74_read_partial (h : AllDocumented env ctx N docs) {own : ClassId → List SerId} (hs : env.settled own) (hst : env.steady true)
    (h' : AllDocumented env' ctx' N' docs') {own' : ClassId → List SerId} (hs' : env'.settled own') (hst' : env'.steady true) (hp : env'.plat = env.plat)
    (hg : DocsGrow docs docs') {n : Nat} {c : ClassId} {st st' : St} {v : Val}
    (hr : createUnpack env n c .io st = .ok v st') (ho : readObj env.plat docs (n + 1) c (st.io.data.drop st.io.pos) ≠ .odd) :
    ∃ K, ∀ n ≥ K, ∃ st2, createUnpack env' n c .io st = .ok v st2 ∧ st2.io.data = st'.io.data ∧ st2.io.pos = st'.io.pos := by
  rcases C56_read_partial h hs hst n c st with h1 | ⟨h1, h2⟩
  · rw [hr] at h1; cases h1
  · rw [hr] at h1
    cases hb : readObj env.plat docs (n + 1) c (st.io.data.drop st.io.pos) with
    | ok x =>
      obtain ⟨v', m⟩ := x
      obtain ⟨hd, hpos⟩ := h2 v' m v st' hb hr
      rw [hb] at h1
      simp only [Parsed.Is, result, Except.ok.injEq] at h1
      subst h1
      have hk := readObj_keeps (P := env.plat) hg (n + 1) c _ _ hb
      rw [← hp] at hk
      obtain ⟨K, hK⟩ := C56_read_limit_partial h' hs' hst' hk
      refine ⟨K, fun j hj => ?_⟩
      obtain ⟨st2, g1, g2, g3⟩ := hK j hj
      exact ⟨st2, g1, by rw [g2, hd], by rw [g3, hpos]⟩
    | err => rw [hb] at h1; cases h1
    | deep => rw [hb] at h1; cases h1
    | odd => exact absurd hb ho

/-- **C74** (`pack`, partial).  Whatever the old version packs the new version packs to the same bytes. -/
theorem C74_pack_partial (h : Describes env ctx M docs) (hall : ∀ c, (env.classes c).isSome = true → (docs c).isSome = true)
    (h' : Describes env' ctx' M' docs') (hall' : ∀ c, (env'.classes c).isSome = true → (docs' c).isSome = true) (hp : env'.plat = env.plat)
    (hg : DocsGrow docs docs') {v : Val} (hc : Calm env v.nodes) (hc' : Calm env' v.nodes) :
    ∃ K, ∀ n ≥ K, ∀ st st' b, result (Obj.pack env n v st) = .ok b → result (Obj.pack env' n v st') = .ok b := by
  obtain ⟨K1, h1⟩ := C62_partial h hall hc (k := v.nodes.length + 1) (by omega)
  obtain ⟨K2, h2⟩ := C62_partial h' hall' hc' (k := v.nodes.length + 1) (by omega)
  refine ⟨max K1 K2, fun n hn st st' b hb => ?_⟩
  have h1 := h1 n (by omega) st
  have h2 := h2 n (by omega) st'
  rw [hb] at h1
  cases hr : putObj env.plat docs (v.nodes.length + 1) v with
  | ok x =>
    rw [hr] at h1
    cases h1
    rw [hp, putObj_keeps hg _ _ _ hr] at h2
    exact h2
  | err => rw [hr] at h1; cases h1
  | deep => rw [hr] at h1; cases h1
  | odd => rw [hr] at h1; cases h1

/-! ### A program and its later version -/

/-- `class Packet(Structured): kind: uint8; body: Annotated[Union[...], LookbackDecider(lambda obj: obj.kind, {1: uint16, 2: char[uint8]})]; last: uint8` -/
def packetDoc : ClassDoc := ⟨.default, [.value "kind" (.int false .one),
  .value "body" (.choice [80] [uint16H, written (.counted .one)] Option.none byKind [.int 1, .int 2] [.int false .two, .counted .one] []),
  .value "last" (.int false .one)]⟩
/-- The same with `{1: uint16, 2: char[uint8], 3: Point}` and a default. -/
def packetDoc' : ClassDoc := ⟨.default, [.value "kind" (.int false .one),
  .value "body" (.choice [80] [uint16H, written (.counted .one), .cls 71, uint8H] Option.none byKind [.int 1, .int 2, .int 3]
    [.int false .two, .counted .one, .obj 71] [.int false .one]),
  .value "last" (.int false .one)]⟩
/-- `class Point(Structured): x: uint8; y: uint8` -/
def spotDoc : ClassDoc := ⟨.default, [.value "x" (.int false .one), .value "y" (.int false .one)]⟩

def packetEnv : Env := ⟨plat, fun
  | 70 => some (madeBy [70] (stmt packetDoc)).info
  | _ => Option.none⟩
def packetDocs : ClassId → Option ClassDoc
  | 70 => some packetDoc
  | _ => Option.none
def packetEnv' : Env := ⟨plat, fun
  | 70 => some (madeBy [70] (stmt packetDoc')).info
  | 71 => some (madeBy [71] (stmt spotDoc)).info
  | _ => Option.none⟩
def packetDocs' : ClassId → Option ClassDoc
  | 70 => some packetDoc'
  | 71 => some spotDoc
  | _ => Option.none

theorem packet_grows : DocsGrow packetDocs packetDocs' := by
  intro c d h
  match c with
  | 70 =>
    cases h
    refine ⟨_, rfl, rfl, ?_, fun _ => by rfl⟩
    exact ⟨_, _, rfl, ⟨_, rfl, rfl⟩, _, _, rfl, ⟨_, rfl, [80], _, [.int 3], _, _, rfl, ⟨_, _, rfl, rfl, _, _, rfl, rfl, trivial⟩, .inl rfl⟩, _, _, rfl,
      ⟨_, rfl, rfl⟩, rfl⟩
  | c' + 71 => cases h

theorem packet_documented : AllDocumented packetEnv hctx 4 packetDocs where
  documents := by
    intro c d h
    match c with
    | 70 => cases h; exact ⟨by rfl, _, rfl, documented (by rfl) (by rfl) (by rfl) (by decide)⟩
    | c' + 71 => cases h
  others := by
    intro c h
    by_cases h1 : c = 70
    · subst h1; cases h
    · simp only [packetEnv]
  init := by
    intro c ci h
    simp only [packetEnv] at h
    split at h
    · cases h; rfl
    · cases h

theorem packet_documented' : AllDocumented packetEnv' hctx 4 packetDocs' where
  documents := by
    intro c d h
    match c with
    | 70 => cases h; exact ⟨by rfl, _, rfl, documented (by rfl) (by rfl) (by rfl) (by decide)⟩
    | 71 => cases h; exact ⟨by rfl, _, rfl, documented (by rfl) (by rfl) (by rfl) (by decide)⟩
    | c' + 72 => cases h
  others := by
    intro c h
    by_cases h1 : c = 70
    · subst h1; cases h
    · by_cases h2 : c = 71
      · subst h2; cases h
      · simp only [packetEnv']
  init := by
    intro c ci h
    simp only [packetEnv'] at h
    split at h
    · cases h; rfl
    · cases h; rfl
    · cases h

theorem packet_settled : packetEnv.settled fun
    | 70 => (madeBy [70] (stmt packetDoc)).info.serializer.keepers
    | _ => [] := by
  intro c ci h
  simp only [packetEnv] at h
  split at h
  · cases h
    refine ⟨rfl, rfl, ?_, ?_⟩ <;> decide
  · cases h

theorem packet_settled' : packetEnv'.settled fun
    | 70 => (madeBy [70] (stmt packetDoc')).info.serializer.keepers
    | 71 => (madeBy [71] (stmt spotDoc)).info.serializer.keepers
    | _ => [] := by
  intro c ci h
  simp only [packetEnv'] at h
  split at h
  · cases h
    refine ⟨rfl, rfl, ?_, ?_⟩ <;> decide
  · cases h
    refine ⟨rfl, rfl, ?_, ?_⟩ <;> decide
  · cases h

/-- `C74_unpack_partial` applies to them. -/
example : ∃ K, ∀ n ≥ K, ∀ st, result (createUnpack packetEnv' n 70 (.buf [2, 2, 97, 98, 5, 6]) st) =
    .ok (.obj 70 Option.none [("kind", .int 2), ("body", .bytes [97, 98]), ("last", .int 5)]) :=
  C74_unpack_partial packet_documented packet_settled packet_documented' packet_settled' rfl packet_grows (n := 12) (st := default) (by rfl) (by
    rw [show readObj packetEnv.plat packetDocs 13 70 [2, 2, 97, 98, 5, 6] =
      .ok (.obj 70 Option.none [("kind", .int 2), ("body", .bytes [97, 98]), ("last", .int 5)], 5) from by rfl]
    nofun)

/-- What the old version does not read the new version may read. -/
example : ∀ st, result (createUnpack packetEnv 12 70 (.buf [3, 8, 9, 5]) st) = .error .valueError ∧
    result (createUnpack packetEnv' 12 70 (.buf [3, 8, 9, 5]) st) =
      .ok (.obj 70 Option.none [("kind", .int 3), ("body", .obj 71 Option.none [("x", .int 8), ("y", .int 9)]), ("last", .int 5)]) ∧
    result (Obj.pack packetEnv 12 (.obj 70 Option.none [("kind", .int 2), ("body", .bytes [97]), ("last", .int 5)]) st) = .ok [2, 1, 97, 5] ∧
    result (Obj.pack packetEnv' 12 (.obj 70 Option.none [("kind", .int 2), ("body", .bytes [97]), ("last", .int 5)]) st) = .ok [2, 1, 97, 5] :=
  fun st => ⟨by rfl, by rfl, by rfl, by rfl⟩

/-- One class 70 with a union with a default. -/
def spareEnv (keys : List Val) (opts : List Fmt) : Env := ⟨plat, fun
  | 70 => some (madeBy [70] (stmt ⟨.default, [.value "kind" (.int false .one),
      .value "body" (.choice [80] [uint16H, uint8H] Option.none byKind keys opts [.int false .one])]⟩)).info
  | _ => Option.none⟩

/-- **C74** is false if there was a default: the old version reads a new kind by it. -/
theorem C74_default_is_false : ∀ st,
    result (createUnpack (spareEnv [.int 1] [.int false .two]) 12 70 (.buf [2, 7, 8]) st) = .ok (.obj 70 Option.none [("kind", .int 2), ("body", .int 7)]) ∧
    result (createUnpack (spareEnv [.int 1, .int 2] [.int false .two, .int false .two]) 12 70 (.buf [2, 7, 8]) st) =
      .ok (.obj 70 Option.none [("kind", .int 2), ("body", .int 0x0807)]) :=
  fun st => ⟨by rfl, by rfl⟩

end Verif
