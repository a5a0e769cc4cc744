import Verif.Proofs.Spelled
import Verif.Props.Grows
/-
**C79** Alignment is padding, and how padding is divided does not matter.
-/
namespace Verif
open Spec Sem Samples Extends Spell

variable {ctx ctx' : HintCtx} {M M' N N' : Nat} {env env' : Env} {docs docs' : ClassId → Option ClassDoc}

/-- **C79** (`create_unpack`, partial).  Two programs of the same classes, but for how padding is written down: one has pads where the other leaves it to the
alignment, or has several pads where the other has one.  Both read every byte string as the same object or raise the same exception.  Missing: what is missing in C56. -/
theorem C79_unpack_partial (h : AllDocumented env ctx N docs) {own : ClassId → List SerId} (hs : env.settled own) (h' : AllDocumented env' ctx' N' docs')
    {own' : ClassId → List SerId} (hs' : env'.settled own') (hp : env'.plat = env.plat) (hg : SamePadding docs docs') {k : Nat} {c : ClassId} {b : Bytes}
    (ho : readObj env.plat docs k c b ≠ .odd) (hk : readObj env.plat docs k c b ≠ .deep) :
    ∃ K, ∀ n ≥ K, ∀ st st', result (createUnpack env' n c (.buf b) st') = result (createUnpack env n c (.buf b) st) := by
  obtain ⟨K1, h1⟩ := C56_unpack_limit_partial h hs k c b hk
  obtain ⟨K2, h2⟩ := C56_unpack_limit_partial h' hs' k c b (by rw [hp, readObj_padding hg]; exact hk)
  refine ⟨max K1 K2, fun n hn st st' => ?_⟩
  have h1 := h1 n (by omega) st
  have h2 := h2 n (by omega) st'
  rw [hp, readObj_padding hg] at h2
  revert h1 h2 ho hk
  cases readObj env.plat docs k c b with
  | ok x => intro _ _ h1 h2; exact Eq.trans h2 h1.symm
  | err e => intro _ _ h1 h2; exact Eq.trans h2 h1.symm
  | deep => intro _ hk; exact absurd rfl hk
  | odd => intro ho; exact absurd rfl ho

/-- **C79** (`create_unpack_from`, partial).  The same at any offset, with the limits of C56. -/
theorem C79_from_partial (h : AllDocumented env ctx N docs) {own : ClassId → List SerId} (hs : env.settled own) (hst : env.steady false)
    (h' : AllDocumented env' ctx' N' docs') {own' : ClassId → List SerId} (hs' : env'.settled own') (hst' : env'.steady false) (hp : env'.plat = env.plat)
    (hg : SamePadding docs docs') {k : Nat} {c : ClassId} {x : Bytes} {off : Nat} (hoff : off ≤ x.length)
    (ho : readObj env.plat docs k c (x.drop off) ≠ .odd) (hk : readObj env.plat docs k c (x.drop off) ≠ .deep) :
    ∃ K, ∀ n ≥ K, ∀ st st', result (createUnpack env' n c (.at x off) st') = result (createUnpack env n c (.at x off) st) := by
  obtain ⟨K, hK⟩ := C79_unpack_partial h hs h' hs' hp hg ho hk
  refine ⟨K, fun n hn st st' => ?_⟩
  rw [C03_from_partial env' own' hs' hst' n c x off hoff st' st', C03_from_partial env own hs hst n c x off hoff st st]
  exact hK n hn st st'

/-- **C79** (`create_unpack_read`, partial).  The same for streams, which are left at the same place. -/
theorem C79_read_partial (h : AllDocumented env ctx N docs) {own : ClassId → List SerId} (hs : env.settled own) (hst : env.steady true)
    (h' : AllDocumented env' ctx' N' docs') {own' : ClassId → List SerId} (hs' : env'.settled own') (hst' : env'.steady true) (hp : env'.plat = env.plat)
    (hg : SamePadding docs docs') {n : Nat} {c : ClassId} {st st' : St} {v : Val}
    (hr : createUnpack env n c .io st = .ok v st') (ho : readObj env.plat docs (n + 1) c (st.io.data.drop st.io.pos) ≠ .odd) :
    ∃ K, ∀ n ≥ K, ∃ st2, createUnpack env' n c .io st = .ok v st2 ∧ st2.io.data = st'.io.data ∧ st2.io.pos = st'.io.pos := by
  rcases C56_read_partial h hs hst n c st with h1 | ⟨h1, h2⟩
  · rw [hr] at h1; cases h1
  · rw [hr] at h1
    cases hb : readObj env.plat docs (n + 1) c (st.io.data.drop st.io.pos) with
    | ok x =>
      obtain ⟨v', m⟩ := x
      obtain ⟨hd, hpos⟩ := h2 v' m v st' hb hr
      rw [hb] at h1
      simp only [Parsed.Is, result, Except.ok.injEq] at h1
      subst h1
      have hk := hb
      rw [← readObj_padding hg, ← hp] at hk
      obtain ⟨K, hK⟩ := C56_read_limit_partial h' hs' hst' hk
      refine ⟨K, fun j hj => ?_⟩
      obtain ⟨st2, g1, g2, g3⟩ := hK j hj
      exact ⟨st2, g1, by rw [g2, hd], by rw [g3, hpos]⟩
    | err => rw [hb] at h1; cases h1
    | deep => rw [hb] at h1; cases h1
    | odd => exact absurd hb ho

/-- **C79** (`create_unpack_read`, partial).  Both raise the same exceptions for the same data in streams. -/
theorem C79_read_outcome_partial (h : AllDocumented env ctx N docs) {own : ClassId → List SerId} (hs : env.settled own) (hst : env.steady true)
    (h' : AllDocumented env' ctx' N' docs') {own' : ClassId → List SerId} (hs' : env'.settled own') (hst' : env'.steady true) (hp : env'.plat = env.plat)
    (hg : SamePadding docs docs') {k : Nat} {c : ClassId} {x : Bytes} {off : Nat}
    (ho : readObj env.plat docs k c (x.drop off) ≠ .odd) (hk : readObj env.plat docs k c (x.drop off) ≠ .deep) :
    ∃ K, ∀ n ≥ K, ∀ st st' : St, st.io = ⟨x, off⟩ → st'.io = ⟨x, off⟩ → result (createUnpack env' n c .io st') = result (createUnpack env n c .io st) := by
  obtain ⟨K, hK⟩ := C79_unpack_partial h hs h' hs' hp hg ho hk
  refine ⟨K, fun n hn st st' h1 h2 => ?_⟩
  rw [(C03_read_partial env' own' hs' hst' n c st' st').1, (C03_read_partial env own hs hst n c st st).1, h1, h2]
  exact hK n hn st st'

/-- **C79** (`pack`, partial).  Both programs pack every object without a byte order of its own to the same bytes or raise the same exception.  Missing: objects
with a byte order of their own, for which it is false; and what is missing in C62. -/
theorem C79_pack_partial (h : Describes env ctx M docs) (hall : ∀ c, (env.classes c).isSome = true → (docs c).isSome = true)
    (h' : Describes env' ctx' M' docs') (hall' : ∀ c, (env'.classes c).isSome = true → (docs' c).isSome = true) (hp : env'.plat = env.plat)
    (hg : SamePadding docs docs') {v : Val} (hv : ownless v) (hc : Calm env v.nodes) (hc' : Calm env' v.nodes) :
    ∃ K, ∀ n ≥ K, ∀ st st', result (Obj.pack env' n v st') = result (Obj.pack env n v st) := by
  obtain ⟨K1, h1⟩ := C62_partial h hall hc (k := v.nodes.length + 1) (by omega)
  obtain ⟨K2, h2⟩ := C62_partial h' hall' hc' (k := v.nodes.length + 1) (by omega)
  refine ⟨max K1 K2, fun n hn st st' => ?_⟩
  have h1 := h1 n (by omega) st
  have h2 := h2 n (by omega) st'
  rw [hp, putObj_padding hg _ _ hv] at h2
  revert h1 h2
  cases putObj env.plat docs (v.nodes.length + 1) v with
  | ok b => intro h1 h2; exact Eq.trans h2 h1.symm
  | err e => intro h1 h2; exact Eq.trans h2 h1.symm
  | deep | odd => intro h1; exact h1.elim

/-- **C79** (`pack`, dividing pads).  If only pads are divided in another way, the same for all objects, also those with a byte order of their own. -/
theorem C79_pads_partial (h : Describes env ctx M docs) (hall : ∀ c, (env.classes c).isSome = true → (docs c).isSome = true)
    (h' : Describes env' ctx' M' docs') (hall' : ∀ c, (env'.classes c).isSome = true → (docs' c).isSome = true) (hp : env'.plat = env.plat)
    (hg : SamePads docs docs') {v : Val} (hc : Calm env v.nodes) (hc' : Calm env' v.nodes) :
    ∃ K, ∀ n ≥ K, ∀ st st', result (Obj.pack env' n v st') = result (Obj.pack env n v st) := by
  obtain ⟨K1, h1⟩ := C62_partial h hall hc (k := v.nodes.length + 1) (by omega)
  obtain ⟨K2, h2⟩ := C62_partial h' hall' hc' (k := v.nodes.length + 1) (by omega)
  refine ⟨max K1 K2, fun n hn st st' => ?_⟩
  have h1 := h1 n (by omega) st
  have h2 := h2 n (by omega) st'
  rw [hp, putObj_pads hg] at h2
  revert h1 h2
  cases putObj env.plat docs (v.nodes.length + 1) v with
  | ok b => intro h1 h2; exact Eq.trans h2 h1.symm
  | err e => intro h1 h2; exact Eq.trans h2 h1.symm
  | deep | odd => intro h1; exact h1.elim

/-! ### One class, its padding written down in two ways -/

/-- `class Slot(Structured): kind: uint8; size: uint32; _0: pad[3]; sum: uint16; name: char[uint8]` -/
def slotDoc : ClassDoc := ⟨.default, [.value "kind" (.int false .one), .value "size" (.int false .four), .pad "_0" 3, .value "sum" (.int false .two),
  .value "name" (.counted .one)]⟩
/-- `class Slot(Structured): kind: uint8; _1: pad[2]; _2: pad[1]; size: uint32; _3: pad[4]; sum: uint16; name: char[uint8]` -/
def slotDoc' : ClassDoc := ⟨.default, [.value "kind" (.int false .one), .pad "_1" 2, .pad "_2" 1, .value "size" (.int false .four), .pad "_3" 4,
  .value "sum" (.int false .two), .value "name" (.counted .one)]⟩

def slotEnv (d : ClassDoc) : Env := ⟨plat, fun
  | 70 => some (madeBy [70] (stmt d)).info
  | _ => Option.none⟩
def slotDocs (d : ClassDoc) : ClassId → Option ClassDoc
  | 70 => some d
  | _ => Option.none

theorem slot_padding : SamePadding (slotDocs slotDoc) (slotDocs slotDoc') := by
  intro c
  by_cases h1 : c = 70
  · subst h1
    exact .inr ⟨_, _, rfl, rfl, rfl, by rfl⟩
  · exact .inl ⟨by simp only [slotDocs], by simp only [slotDocs]⟩

theorem slot_documented : AllDocumented (slotEnv slotDoc) hctx 4 (slotDocs slotDoc) where
  documents := by
    intro c d h
    match c with
    | 70 => cases h; exact ⟨by rfl, _, rfl, documented (by rfl) (by rfl) (by rfl) (by decide)⟩
    | c' + 71 => cases h
  others := by
    intro c h
    by_cases h1 : c = 70
    · subst h1; cases h
    · simp only [slotEnv]
  init := by
    intro c ci h
    simp only [slotEnv] at h
    split at h
    · cases h; rfl
    · cases h

theorem slot_documented' : AllDocumented (slotEnv slotDoc') hctx 4 (slotDocs slotDoc') where
  documents := by
    intro c d h
    match c with
    | 70 => cases h; exact ⟨by rfl, _, rfl, documented (by rfl) (by rfl) (by rfl) (by decide)⟩
    | c' + 71 => cases h
  others := by
    intro c h
    by_cases h1 : c = 70
    · subst h1; cases h
    · simp only [slotEnv]
  init := by
    intro c ci h
    simp only [slotEnv] at h
    split at h
    · cases h; rfl
    · cases h

theorem slot_settled : (slotEnv slotDoc).settled fun
    | 70 => (madeBy [70] (stmt slotDoc)).info.serializer.keepers
    | _ => [] := by
  intro c ci h
  simp only [slotEnv] at h
  split at h
  · cases h
    refine ⟨rfl, rfl, ?_, ?_⟩ <;> decide
  · cases h

theorem slot_settled' : (slotEnv slotDoc').settled fun
    | 70 => (madeBy [70] (stmt slotDoc')).info.serializer.keepers
    | _ => [] := by
  intro c ci h
  simp only [slotEnv] at h
  split at h
  · cases h
    refine ⟨rfl, rfl, ?_, ?_⟩ <;> decide
  · cases h

/-- `C79_unpack_partial` applies to them. -/
example : ∃ K, ∀ n ≥ K, ∀ st st', result (createUnpack (slotEnv slotDoc') n 70 (.buf [1, 9, 9, 9, 2, 0, 0, 0, 9, 9, 9, 9, 3, 0, 1, 97]) st') =
    result (createUnpack (slotEnv slotDoc) n 70 (.buf [1, 9, 9, 9, 2, 0, 0, 0, 9, 9, 9, 9, 3, 0, 1, 97]) st) :=
  have : readObj (slotEnv slotDoc).plat (slotDocs slotDoc) 12 70 [1, 9, 9, 9, 2, 0, 0, 0, 9, 9, 9, 9, 3, 0, 1, 97] =
      .ok (.obj 70 Option.none [("kind", .int 1), ("size", .int 2), ("sum", .int 3), ("name", .bytes [97])], 16) := by rfl
  C79_unpack_partial slot_documented slot_settled slot_documented' slot_settled' rfl slot_padding (k := 12) (by rw [this]; nofun) (by rw [this]; nofun)

theorem slot_all (d : ClassDoc) : ∀ c, ((slotEnv d).classes c).isSome = true → (slotDocs d c).isSome = true := by
  intro c h
  simp only [slotEnv] at h
  split at h
  · rfl
  · cases h

theorem slot_describes : Describes (slotEnv slotDoc) hctx 4 (slotDocs slotDoc) := by
  intro c d h
  unfold slotDocs at h
  split at h
  · cases h; exact ⟨by rfl, _, rfl, documented (by rfl) (by rfl) (by rfl) (by decide)⟩
  · cases h

theorem slot_plain : Plain (slotEnv slotDoc) := by
  intro c bo ci ser h
  by_cases h1 : c = 70
  · subst h1
    cases bo with
    | none => cases h; exact ⟨rfl, rfl⟩
    | some b => cases b <;> cases h <;> exact ⟨rfl, rfl⟩
  · simp only [objSer, slotEnv] at h
    cases h

theorem slot'_describes : Describes (slotEnv slotDoc') hctx 4 (slotDocs slotDoc') := by
  intro c d h
  unfold slotDocs at h
  split at h
  · cases h; exact ⟨by rfl, _, rfl, documented (by rfl) (by rfl) (by rfl) (by decide)⟩
  · cases h

theorem slot'_plain : Plain (slotEnv slotDoc') := by
  intro c bo ci ser h
  by_cases h1 : c = 70
  · subst h1
    cases bo with
    | none => cases h; exact ⟨rfl, rfl⟩
    | some b => cases b <;> cases h <;> exact ⟨rfl, rfl⟩
  · simp only [objSer, slotEnv] at h
    cases h

/-- So does `C79_pack_partial`, for all values of the fields. -/
example (a b c : Int) (s : Bytes) : ∃ K, ∀ n ≥ K, ∀ st st',
    result (Obj.pack (slotEnv slotDoc') n (.obj 70 Option.none [("kind", .int a), ("size", .int b), ("sum", .int c), ("name", .bytes s)]) st') =
    result (Obj.pack (slotEnv slotDoc) n (.obj 70 Option.none [("kind", .int a), ("size", .int b), ("sum", .int c), ("name", .bytes s)]) st) :=
  C79_pack_partial slot_describes (slot_all _) slot'_describes (slot_all _) rfl slot_padding (by simp [ownless, attrsOwnless]) (calm_of_plain slot_plain _)
    (calm_of_plain slot'_plain _)

/-- Three pad bytes and one more. -/
def cellsDoc (ps : List Field) : ClassDoc := ⟨.default, [.value "kind" (.int false .one)] ++ ps ++ [.value "last" (.int false .one)]⟩

theorem cells1_describes : Describes (slotEnv (cellsDoc [.pad "_0" 4])) hctx 4 (slotDocs (cellsDoc [.pad "_0" 4])) := by
  intro c d h
  unfold slotDocs at h
  split at h
  · cases h; exact ⟨by rfl, _, rfl, documented (by rfl) (by rfl) (by rfl) (by decide)⟩
  · cases h

theorem cells1_plain : Plain (slotEnv (cellsDoc [.pad "_0" 4])) := by
  intro c bo ci ser h
  by_cases h1 : c = 70
  · subst h1
    cases bo with
    | none => cases h; exact ⟨rfl, rfl⟩
    | some b => cases b <;> cases h <;> exact ⟨rfl, rfl⟩
  · simp only [objSer, slotEnv] at h
    cases h

theorem cells2_describes : Describes (slotEnv (cellsDoc [.pad "_0" 3, .pad "_1" 1])) hctx 4 (slotDocs (cellsDoc [.pad "_0" 3, .pad "_1" 1])) := by
  intro c d h
  unfold slotDocs at h
  split at h
  · cases h; exact ⟨by rfl, _, rfl, documented (by rfl) (by rfl) (by rfl) (by decide)⟩
  · cases h

theorem cells2_plain : Plain (slotEnv (cellsDoc [.pad "_0" 3, .pad "_1" 1])) := by
  intro c bo ci ser h
  by_cases h1 : c = 70
  · subst h1
    cases bo with
    | none => cases h; exact ⟨rfl, rfl⟩
    | some b => cases b <;> cases h <;> exact ⟨rfl, rfl⟩
  · simp only [objSer, slotEnv] at h
    cases h

/-- `C79_pads_partial` applies to them, whatever the byte order of the object. -/
example (a b : Int) (own : Option ByteOrder) : ∃ K, ∀ n ≥ K, ∀ st st',
    result (Obj.pack (slotEnv (cellsDoc [.pad "_0" 3, .pad "_1" 1])) n (.obj 70 own [("kind", .int a), ("last", .int b)]) st') =
    result (Obj.pack (slotEnv (cellsDoc [.pad "_0" 4])) n (.obj 70 own [("kind", .int a), ("last", .int b)]) st) :=
  C79_pads_partial cells1_describes (slot_all _) cells2_describes (slot_all _) rfl
    (fun c => by
      by_cases h1 : c = 70
      · subst h1
        exact .inr ⟨_, _, rfl, rfl, rfl, fun bo => by cases bo <;> rfl⟩
      · exact .inl ⟨by simp only [slotDocs], by simp only [slotDocs]⟩)
    (calm_of_plain cells1_plain _) (calm_of_plain cells2_plain _)

/-- What they read and write. -/
example : ∀ st, result (createUnpack (slotEnv slotDoc) 12 70 (.buf [1, 9, 9, 9, 2, 0, 0, 0, 9, 9, 9, 9, 3, 0, 1, 97]) st) =
      .ok (.obj 70 Option.none [("kind", .int 1), ("size", .int 2), ("sum", .int 3), ("name", .bytes [97])]) ∧
    result (createUnpack (slotEnv slotDoc') 12 70 (.buf [1, 9, 9, 9, 2, 0, 0, 0, 9, 9, 9, 9, 3, 0, 1, 97]) st) =
      .ok (.obj 70 Option.none [("kind", .int 1), ("size", .int 2), ("sum", .int 3), ("name", .bytes [97])]) ∧
    result (Obj.pack (slotEnv slotDoc) 12 (.obj 70 Option.none [("kind", .int 1), ("size", .int 2), ("sum", .int 3), ("name", .bytes [97])]) st) =
      .ok [1, 0, 0, 0, 2, 0, 0, 0, 0, 0, 0, 0, 3, 0, 1, 97] ∧
    result (Obj.pack (slotEnv slotDoc') 12 (.obj 70 Option.none [("kind", .int 1), ("size", .int 2), ("sum", .int 3), ("name", .bytes [97])]) st) =
      .ok [1, 0, 0, 0, 2, 0, 0, 0, 0, 0, 0, 0, 3, 0, 1, 97] :=
  fun st => ⟨by rfl, by rfl, by rfl, by rfl⟩

/-- `class Cell(Structured): kind: uint8; size: uint32`, with or without a pad for the alignment. -/
def cellDoc (fs : List Field) : ClassDoc := ⟨.default, [.value "kind" (.int false .one)] ++ fs ++ [.value "size" (.int false .four)]⟩

theorem cell_padding : SamePadding (oneDocs (cellDoc [])) (oneDocs (cellDoc [.pad "_0" 3])) := by
  intro c
  simp only [oneDocs]
  split
  · exact .inr ⟨_, _, rfl, rfl, rfl, by rfl⟩
  · exact .inl ⟨rfl, rfl⟩

theorem cell_documented : AllDocumented (oneEnv plat (cellDoc [])) hctx 4 (oneDocs (cellDoc [])) :=
  one_documented (documented (by rfl) (by rfl) (by rfl) (by decide)) (by rfl) (by rfl)
theorem cell_documented' : AllDocumented (oneEnv plat (cellDoc [.pad "_0" 3])) hctx 4 (oneDocs (cellDoc [.pad "_0" 3])) :=
  one_documented (documented (by rfl) (by rfl) (by rfl) (by decide)) (by rfl) (by rfl)

/-- The theorems for offsets and streams apply to them, for good data and for data that is too short. -/
example : (∃ K, ∀ n ≥ K, ∀ st st', result (createUnpack (oneEnv plat (cellDoc [.pad "_0" 3])) n 70 (.at [7, 1, 9, 9, 9, 2, 0, 0, 0] 1) st') =
      result (createUnpack (oneEnv plat (cellDoc [])) n 70 (.at [7, 1, 9, 9, 9, 2, 0, 0, 0] 1) st)) ∧
    ∃ K, ∀ n ≥ K, ∀ st st' : St, st.io = ⟨[7, 1, 9, 9], 1⟩ → st'.io = ⟨[7, 1, 9, 9], 1⟩ →
      result (createUnpack (oneEnv plat (cellDoc [.pad "_0" 3])) n 70 .io st') = result (createUnpack (oneEnv plat (cellDoc [])) n 70 .io st) :=
  have h1 : readObj (oneEnv plat (cellDoc [])).plat (oneDocs (cellDoc [])) 9 70 (List.drop 1 [7, 1, 9, 9, 9, 2, 0, 0, 0]) =
      .ok (.obj 70 Option.none [("kind", .int 1), ("size", .int 2)], 8) := by rfl
  have h2 : readObj (oneEnv plat (cellDoc [])).plat (oneDocs (cellDoc [])) 9 70 (List.drop 1 [7, 1, 9, 9]) = .err .structError := by rfl
  ⟨C79_from_partial cell_documented (one_settled (by rfl) (by rfl)) (one_steady (by rfl)) cell_documented' (one_settled (by rfl) (by rfl)) (one_steady (by rfl)) rfl
      cell_padding (k := 9) (by decide) (by rw [h1]; nofun) (by rw [h1]; nofun),
    C79_read_outcome_partial cell_documented (one_settled (by rfl) (by rfl)) (one_steady (by rfl)) cell_documented' (one_settled (by rfl) (by rfl))
      (one_steady (by rfl)) rfl cell_padding (k := 9) (by rw [h2]; nofun) (by rw [h2]; nofun)⟩

/-- **C79** is false for objects with a byte order of their own: the alignment is gone, the pads are not. -/
theorem C79_own_is_false : SamePadding (slotDocs (cellDoc [])) (slotDocs (cellDoc [.pad "_0" 3])) ∧ ∀ st,
    result (Obj.pack (slotEnv (cellDoc [])) 12 (.obj 70 (some .le) [("kind", .int 1), ("size", .int 2)]) st) = .ok [1, 2, 0, 0, 0] ∧
    result (Obj.pack (slotEnv (cellDoc [.pad "_0" 3])) 12 (.obj 70 (some .le) [("kind", .int 1), ("size", .int 2)]) st) = .ok [1, 0, 0, 0, 2, 0, 0, 0] := by
  refine ⟨fun c => ?_, fun st => ⟨by rfl, by rfl⟩⟩
  by_cases h1 : c = 70
  · subst h1
    exact .inr ⟨_, _, rfl, rfl, rfl, by rfl⟩
  · exact .inl ⟨by simp only [slotDocs], by simp only [slotDocs]⟩

end Verif
