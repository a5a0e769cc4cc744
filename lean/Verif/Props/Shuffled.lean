import Verif.Proofs.Shuffled
import Verif.Props.Grows
/-
**C78** The order in which a union lists its members does not matter.
-/
namespace Verif
open Spec Sem Samples Extends Shuffle

variable {ctx ctx' : HintCtx} {M M' N N' : Nat} {env env' : Env} {docs docs' : ClassId → Option ClassDoc}

/-- **C78** (`create_unpack`, partial).  Two programs that differ in the order of the members of their unions: whatever bytes the first one reads, the second
one reads as the same object, and where the first one raises an exception the second one raises the same.  Missing: what is missing in C56. -/
theorem C78_unpack_partial (h : AllDocumented env ctx N docs) {own : ClassId → List SerId} (hs : env.settled own) (h' : AllDocumented env' ctx' N' docs')
    {own' : ClassId → List SerId} (hs' : env'.settled own') (hp : env'.plat = env.plat) (hg : DocsShuffled docs docs') {k : Nat} {c : ClassId} {b : Bytes}
    (ho : readObj env.plat docs k c b ≠ .odd) (hk : readObj env.plat docs k c b ≠ .deep) :
    ∃ K, ∀ n ≥ K, ∀ st st', result (createUnpack env' n c (.buf b) st') = result (createUnpack env n c (.buf b) st) := by
  obtain ⟨K1, h1⟩ := C56_unpack_limit_partial h hs k c b hk
  obtain ⟨K2, h2⟩ := C56_unpack_limit_partial h' hs' k c b (by rw [hp, readObj_same hg]; exact hk)
  refine ⟨max K1 K2, fun n hn st st' => ?_⟩
  have h1 := h1 n (by omega) st
  have h2 := h2 n (by omega) st'
  rw [hp, readObj_same hg] at h2
  revert h1 h2 ho hk
  cases readObj env.plat docs k c b with
  | ok x => intro _ _ h1 h2; exact Eq.trans h2 h1.symm
  | err e => intro _ _ h1 h2; exact Eq.trans h2 h1.symm
  | deep => intro _ hk; exact absurd rfl hk
  | odd => intro ho; exact absurd rfl ho

/-- **C78** (`create_unpack_from`, partial).  The same at any offset, with the limits of C56. -/
theorem C78_from_partial (h : AllDocumented env ctx N docs) {own : ClassId → List SerId} (hs : env.settled own) (hst : env.steady false)
    (h' : AllDocumented env' ctx' N' docs') {own' : ClassId → List SerId} (hs' : env'.settled own') (hst' : env'.steady false) (hp : env'.plat = env.plat)
    (hg : DocsShuffled docs docs') {k : Nat} {c : ClassId} {x : Bytes} {off : Nat} (hoff : off ≤ x.length)
    (ho : readObj env.plat docs k c (x.drop off) ≠ .odd) (hk : readObj env.plat docs k c (x.drop off) ≠ .deep) :
    ∃ K, ∀ n ≥ K, ∀ st st', result (createUnpack env' n c (.at x off) st') = result (createUnpack env n c (.at x off) st) := by
  obtain ⟨K, hK⟩ := C78_unpack_partial h hs h' hs' hp hg ho hk
  refine ⟨K, fun n hn st st' => ?_⟩
  rw [C03_from_partial env' own' hs' hst' n c x off hoff st' st', C03_from_partial env own hs hst n c x off hoff st st]
  exact hK n hn st st'

/-- **C78** (`create_unpack_read`, partial).  The same for streams. -/
theorem C78_read_partial (h : AllDocumented env ctx N docs) {own : ClassId → List SerId} (hs : env.settled own) (hst : env.steady true)
    (h' : AllDocumented env' ctx' N' docs') {own' : ClassId → List SerId} (hs' : env'.settled own') (hst' : env'.steady true) (hp : env'.plat = env.plat)
    (hg : DocsShuffled docs docs') {n : Nat} {c : ClassId} {st st' : St} {v : Val}
    (hr : createUnpack env n c .io st = .ok v st') (ho : readObj env.plat docs (n + 1) c (st.io.data.drop st.io.pos) ≠ .odd) :
    ∃ K, ∀ n ≥ K, ∃ st2, createUnpack env' n c .io st = .ok v st2 ∧ st2.io.data = st'.io.data ∧ st2.io.pos = st'.io.pos := by
  rcases C56_read_partial h hs hst n c st with h1 | ⟨h1, h2⟩
  · rw [hr] at h1; cases h1
  · rw [hr] at h1
    cases hb : readObj env.plat docs (n + 1) c (st.io.data.drop st.io.pos) with
    | ok x =>
      obtain ⟨v', m⟩ := x
      obtain ⟨hd, hpos⟩ := h2 v' m v st' hb hr
      rw [hb] at h1
      simp only [Parsed.Is, result, Except.ok.injEq] at h1
      subst h1
      have hk := hb
      rw [← readObj_same hg, ← hp] at hk
      obtain ⟨K, hK⟩ := C56_read_limit_partial h' hs' hst' hk
      refine ⟨K, fun j hj => ?_⟩
      obtain ⟨st2, g1, g2, g3⟩ := hK j hj
      exact ⟨st2, g1, by rw [g2, hd], by rw [g3, hpos]⟩
    | err => rw [hb] at h1; cases h1
    | deep => rw [hb] at h1; cases h1
    | odd => exact absurd hb ho

/-- **C78** (`create_unpack_read`, partial).  Both raise the same exceptions for the same data in streams. -/
theorem C78_read_outcome_partial (h : AllDocumented env ctx N docs) {own : ClassId → List SerId} (hs : env.settled own) (hst : env.steady true)
    (h' : AllDocumented env' ctx' N' docs') {own' : ClassId → List SerId} (hs' : env'.settled own') (hst' : env'.steady true) (hp : env'.plat = env.plat)
    (hg : DocsShuffled docs docs') {k : Nat} {c : ClassId} {x : Bytes} {off : Nat}
    (ho : readObj env.plat docs k c (x.drop off) ≠ .odd) (hk : readObj env.plat docs k c (x.drop off) ≠ .deep) :
    ∃ K, ∀ n ≥ K, ∀ st st' : St, st.io = ⟨x, off⟩ → st'.io = ⟨x, off⟩ → result (createUnpack env' n c .io st') = result (createUnpack env n c .io st) := by
  obtain ⟨K, hK⟩ := C78_unpack_partial h hs h' hs' hp hg ho hk
  refine ⟨K, fun n hn st st' h1 h2 => ?_⟩
  rw [(C03_read_partial env' own' hs' hst' n c st' st').1, (C03_read_partial env own hs hst n c st st).1, h1, h2]
  exact hK n hn st st'

/-- **C78** (`pack`, partial).  Both programs pack every object to the same bytes or raise the same exception.  Missing: what is missing in C62. -/
theorem C78_pack_partial (h : Describes env ctx M docs) (hall : ∀ c, (env.classes c).isSome = true → (docs c).isSome = true)
    (h' : Describes env' ctx' M' docs') (hall' : ∀ c, (env'.classes c).isSome = true → (docs' c).isSome = true) (hp : env'.plat = env.plat)
    (hg : DocsShuffled docs docs') {v : Val} (hc : Calm env v.nodes) (hc' : Calm env' v.nodes) :
    ∃ K, ∀ n ≥ K, ∀ st st', result (Obj.pack env' n v st') = result (Obj.pack env n v st) := by
  obtain ⟨K1, h1⟩ := C62_partial h hall hc (k := v.nodes.length + 1) (by omega)
  obtain ⟨K2, h2⟩ := C62_partial h' hall' hc' (k := v.nodes.length + 1) (by omega)
  refine ⟨max K1 K2, fun n hn st st' => ?_⟩
  have h1 := h1 n (by omega) st
  have h2 := h2 n (by omega) st'
  rw [hp, putObj_same hg] at h2
  revert h1 h2
  cases putObj env.plat docs (v.nodes.length + 1) v with
  | ok b => intro h1 h2; exact Eq.trans h2 h1.symm
  | err e => intro h1 h2; exact Eq.trans h2 h1.symm
  | deep | odd => intro h1; exact h1.elim

/-! ### `Packet` with the members of its union in another order -/

/-- `{3: Point, 2: char[uint8], 1: uint16}` -/
def packetDoc2 : ClassDoc := ⟨.default, [.value "kind" (.int false .one),
  .value "body" (.choice [80] [.cls 71, written (.counted .one), uint16H, uint8H] Option.none byKind [.int 3, .int 2, .int 1]
    [.obj 71, .counted .one, .int false .two] [.int false .one]),
  .value "last" (.int false .one)]⟩
def packetEnv2 : Env := ⟨plat, fun
  | 70 => some (madeBy [70] (stmt packetDoc2)).info
  | 71 => some (madeBy [71] (stmt spotDoc)).info
  | _ => Option.none⟩
def packetDocs2 : ClassId → Option ClassDoc
  | 70 => some packetDoc2
  | 71 => some spotDoc
  | _ => Option.none

theorem packet_shuffled : DocsShuffled packetDocs' packetDocs2 := by
  intro c
  by_cases h1 : c = 70
  · subst h1
    refine .inr ⟨_, _, rfl, rfl, rfl, ?_, fun h => absurd h (by decide)⟩
    refine ⟨_, _, rfl, ⟨_, rfl, rfl⟩, _, _, rfl, ⟨_, rfl, [80], _, _, [.int false .two, .counted .one, .obj 71], _, _, rfl, ?_, rfl, rfl, ?_, ?_, ?_⟩, _, _, rfl,
      ⟨_, rfl, rfl⟩, rfl⟩
    · exact ⟨_, _, rfl, rfl, _, _, rfl, rfl, _, _, rfl, rfl, rfl⟩
    · exact (List.reverse_perm [(Val.int 3, Fmt.obj 71), (.int 2, .counted .one), (.int 1, .int false .two)])
    · exact unlike_of_atoms (by simp [Val.atom]) (by decide)
    · exact ⟨_, _, rfl, rfl, rfl⟩
  · by_cases h2 : c = 71
    · subst h2
      refine .inr ⟨_, _, rfl, rfl, rfl, ?_, fun h => absurd h (by decide)⟩
      exact ⟨_, _, rfl, ⟨_, rfl, rfl⟩, _, _, rfl, ⟨_, rfl, rfl⟩, rfl⟩
    · exact .inl ⟨by simp only [packetDocs'], by simp only [packetDocs2]⟩

theorem packet_documented2 : AllDocumented packetEnv2 hctx 4 packetDocs2 where
  documents := by
    intro c d h
    match c with
    | 70 => cases h; exact ⟨by rfl, _, rfl, documented (by rfl) (by rfl) (by rfl) (by decide)⟩
    | 71 => cases h; exact ⟨by rfl, _, rfl, documented (by rfl) (by rfl) (by rfl) (by decide)⟩
    | c' + 72 => cases h
  others := by
    intro c h
    by_cases h1 : c = 70
    · subst h1; cases h
    · by_cases h2 : c = 71
      · subst h2; cases h
      · simp only [packetEnv2]
  init := by
    intro c ci h
    simp only [packetEnv2] at h
    split at h
    · cases h; rfl
    · cases h; rfl
    · cases h

theorem packet_settled2 : packetEnv2.settled fun
    | 70 => (madeBy [70] (stmt packetDoc2)).info.serializer.keepers
    | 71 => (madeBy [71] (stmt spotDoc)).info.serializer.keepers
    | _ => [] := by
  intro c ci h
  simp only [packetEnv2] at h
  split at h
  · cases h
    refine ⟨rfl, rfl, ?_, ?_⟩ <;> decide
  · cases h
    refine ⟨rfl, rfl, ?_, ?_⟩ <;> decide
  · cases h

/-- `C78_unpack_partial` applies to them. -/
example : ∃ K, ∀ n ≥ K, ∀ st st', result (createUnpack packetEnv2 n 70 (.buf [3, 8, 9, 5]) st') = result (createUnpack packetEnv' n 70 (.buf [3, 8, 9, 5]) st) :=
  have : readObj packetEnv'.plat packetDocs' 12 70 [3, 8, 9, 5] =
      .ok (.obj 70 Option.none [("kind", .int 3), ("body", .obj 71 Option.none [("x", .int 8), ("y", .int 9)]), ("last", .int 5)], 4) := by rfl
  C78_unpack_partial packet_documented' packet_settled' packet_documented2 packet_settled2 rfl packet_shuffled (k := 12) (by rw [this]; nofun) (by rw [this]; nofun)

/-- What they read and write. -/
example : ∀ st, result (createUnpack packetEnv2 12 70 (.buf [3, 8, 9, 5]) st) =
      .ok (.obj 70 Option.none [("kind", .int 3), ("body", .obj 71 Option.none [("x", .int 8), ("y", .int 9)]), ("last", .int 5)]) ∧
    result (createUnpack packetEnv' 12 70 (.buf [3, 8, 9, 5]) st) =
      .ok (.obj 70 Option.none [("kind", .int 3), ("body", .obj 71 Option.none [("x", .int 8), ("y", .int 9)]), ("last", .int 5)]) ∧
    result (Obj.pack packetEnv2 12 (.obj 70 Option.none [("kind", .int 2), ("body", .bytes [97]), ("last", .int 5)]) st) = .ok [2, 1, 97, 5] ∧
    result (Obj.pack packetEnv' 12 (.obj 70 Option.none [("kind", .int 2), ("body", .bytes [97]), ("last", .int 5)]) st) = .ok [2, 1, 97, 5] :=
  fun st => ⟨by rfl, by rfl, by rfl, by rfl⟩

/-- `class Pick(Structured): kind: uint8; body: Annotated[Union[...], LookbackDecider(lambda obj: obj.kind, {...})]` -/
def pickDoc (keys : List Val) (hints : List Hint) (opts : List Fmt) : ClassDoc := ⟨.default, [.value "kind" (.int false .one),
  .value "body" (.choice [80] hints Option.none byKind keys opts [])]⟩
/-- `{1: uint16, 2: uint8}` and `{2: uint8, 1: uint16}` -/
def pick12 : ClassDoc := pickDoc [.int 1, .int 2] [uint16H, uint8H] [.int false .two, .int false .one]
def pick21 : ClassDoc := pickDoc [.int 2, .int 1] [uint8H, uint16H] [.int false .one, .int false .two]

theorem pick_shuffled : DocsShuffled (oneDocs pick12) (oneDocs pick21) := by
  intro c
  simp only [oneDocs]
  split
  · refine .inr ⟨_, _, rfl, rfl, rfl, ?_, fun h => absurd h (by decide)⟩
    refine ⟨_, _, rfl, ⟨_, rfl, rfl⟩, _, _, rfl, ⟨_, rfl, [80], _, _, [.int false .two, .int false .one], _, _, rfl, ?_, rfl, rfl, ?_, ?_, rfl⟩, rfl⟩
    · exact ⟨_, _, rfl, rfl, _, _, rfl, rfl, rfl⟩
    · exact List.Perm.swap _ _ _
    · exact unlike_of_atoms (by simp [Val.atom]) (by decide)
  · exact .inl ⟨rfl, rfl⟩

theorem pick12_documented : AllDocumented (oneEnv plat pick12) hctx 4 (oneDocs pick12) :=
  one_documented (documented (by rfl) (by rfl) (by rfl) (by decide)) (by rfl) (by rfl)
theorem pick21_documented : AllDocumented (oneEnv plat pick21) hctx 4 (oneDocs pick21) :=
  one_documented (documented (by rfl) (by rfl) (by rfl) (by decide)) (by rfl) (by rfl)

/-- The theorems for offsets and streams apply to them, for good data and for an unknown kind. -/
example : (∃ K, ∀ n ≥ K, ∀ st st', result (createUnpack (oneEnv plat pick21) n 70 (.at [7, 1, 4, 5] 1) st') =
      result (createUnpack (oneEnv plat pick12) n 70 (.at [7, 1, 4, 5] 1) st)) ∧
    ∃ K, ∀ n ≥ K, ∀ st st' : St, st.io = ⟨[7, 3, 9], 1⟩ → st'.io = ⟨[7, 3, 9], 1⟩ →
      result (createUnpack (oneEnv plat pick21) n 70 .io st') = result (createUnpack (oneEnv plat pick12) n 70 .io st) :=
  have h1 : readObj (oneEnv plat pick12).plat (oneDocs pick12) 9 70 (List.drop 1 [7, 1, 4, 5]) = .ok (.obj 70 Option.none [("kind", .int 1), ("body", .int 0x504)], 3) := by rfl
  have h2 : readObj (oneEnv plat pick12).plat (oneDocs pick12) 9 70 (List.drop 1 [7, 3, 9]) = .err .valueError := by rfl
  ⟨C78_from_partial pick12_documented (one_settled (by rfl) (by rfl)) (one_steady (by rfl)) pick21_documented (one_settled (by rfl) (by rfl)) (one_steady (by rfl)) rfl
      pick_shuffled (k := 9) (by decide) (by rw [h1]; nofun) (by rw [h1]; nofun),
    C78_read_outcome_partial pick12_documented (one_settled (by rfl) (by rfl)) (one_steady (by rfl)) pick21_documented (one_settled (by rfl) (by rfl))
      (one_steady (by rfl)) rfl pick_shuffled (k := 9) (by rw [h2]; nofun) (by rw [h2]; nofun)⟩

end Verif
