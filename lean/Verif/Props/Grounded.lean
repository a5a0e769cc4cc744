import Verif.Proofs.Grounded
import Verif.Props.FormatRaises
import Verif.Props.Extends
/-
**C76** Unpacking comes to an end, whatever the data.
-/
namespace Verif
open Spec Sem Samples Ground

variable {ctx : HintCtx} {N : Nat} {env : Env} {docs : ClassId → Option ClassDoc} {rank : ClassId → Nat} {R : Nat}

/-- **C76** (`create_unpack`, partial).  The classes of the program are in layers: objects of another class that are read before the first
byte is are of a lower class.  Then for all data there is one outcome that every call stack that is high enough gives, from any state: an
object, or one of the exceptions of the fields.  Missing: what is not regular, see C56. -/
theorem C76_unpack_partial (h : AllDocumented env ctx N docs) {own : ClassId → List SerId} (hs : env.settled own)
    (hr : ∀ c d, docs c = some d → d.regular env.plat = true) (hl : Layered docs rank R) (c : ClassId) (b : Bytes) :
    ∃ K r, (∀ n ≥ K, ∀ st, result (createUnpack env n c (.buf b) st) = r) ∧
      ∀ e, r = .error e → ClassRaises docs (b.length * (R + 1) + rank c + 1) c e := by
  have hg : ∀ c d, docs c = some d → d.good = true := fun c d hd => (h.documents c d hd).1
  have hne := readObj_ne (P := env.plat) hl (b.length * (R + 1) + rank c + 1) c b (by omega)
  obtain ⟨K, hK⟩ := C56_unpack_limit_partial h hs _ c b hne
  cases hb : readObj env.plat docs (b.length * (R + 1) + rank c + 1) c b with
  | ok x =>
    rw [hb] at hK
    exact ⟨K, .ok x.1, hK, nofun⟩
  | err e =>
    rw [hb] at hK
    refine ⟨K, .error e, hK, fun e' he => ?_⟩
    cases he
    exact only_obj hg _ _ _ _ hb
  | deep => exact absurd hb hne
  | odd => exact absurd hb (clear_obj (fun c d hd => ⟨hg c d hd, hr c d hd⟩) _ _ _)

/-- **C76** (`create_unpack_from`, partial).  The same at any offset, with the limits of C03. -/
theorem C76_from_partial (h : AllDocumented env ctx N docs) {own : ClassId → List SerId} (hs : env.settled own) (hst : env.steady false)
    (hr : ∀ c d, docs c = some d → d.regular env.plat = true) (hl : Layered docs rank R) (c : ClassId) (x : Bytes) (off : Nat) (hoff : off ≤ x.length) :
    ∃ K r, (∀ n ≥ K, ∀ st, result (createUnpack env n c (.at x off) st) = r) ∧
      ∀ e, r = .error e → ClassRaises docs ((x.drop off).length * (R + 1) + rank c + 1) c e := by
  obtain ⟨K, r, h1, h2⟩ := C76_unpack_partial h hs hr hl c (x.drop off)
  refine ⟨K, r, fun n hn st => ?_, h2⟩
  rw [C03_from_partial env own hs hst n c x off hoff st st]
  exact h1 n hn st

/-- **C76** (`create_unpack_read`, partial).  The same for streams, with the limits of C03. -/
theorem C76_read_partial (h : AllDocumented env ctx N docs) {own : ClassId → List SerId} (hs : env.settled own) (hst : env.steady true)
    (hr : ∀ c d, docs c = some d → d.regular env.plat = true) (hl : Layered docs rank R) (c : ClassId) (b : Bytes) :
    ∃ K r, (∀ n ≥ K, ∀ st, st.io.data.drop st.io.pos = b → result (createUnpack env n c .io st) = r) ∧
      ∀ e, r = .error e → ClassRaises docs (b.length * (R + 1) + rank c + 1) c e := by
  obtain ⟨K, r, h1, h2⟩ := C76_unpack_partial h hs hr hl c b
  refine ⟨K, r, fun n hn st hb => ?_, h2⟩
  rw [(C03_read_partial env own hs hst n c st st).1, hb]
  exact h1 n hn st

/-- **C76** (how deep objects are nested).  The objects of the formats are nested no deeper than the data is long, times the layers of
classes. -/
theorem C76_depth {P : Platform} (hl : Layered docs rank R) (k : Nat) (c : ClassId) (b : Bytes) (hk : b.length * (R + 1) + rank c < k) :
    readObj P docs k c b ≠ .deep := readObj_ne hl k c b hk

/-! ### Trees -/

/-- `class Tree(Structured): kids: array[Header[uint8], Self]; leaf: Leaf` and `class Leaf(Structured): value: uint16` -/
def bushDoc : ClassDoc := ⟨.default, [.value "kids" (.list .one .me), .value "leaf" (.obj 71)]⟩
def leafDoc : ClassDoc := ⟨.default, [.value "value" (.int false .two)]⟩
def bushEnv : Env := ⟨plat, fun
  | 70 => some (madeBy [70] (stmt bushDoc)).info
  | 71 => some (madeBy [71] (stmt leafDoc)).info
  | _ => Option.none⟩
def bushDocs : ClassId → Option ClassDoc
  | 70 => some bushDoc
  | 71 => some leafDoc
  | _ => Option.none

theorem bush_documented : AllDocumented bushEnv hctx 4 bushDocs where
  documents := by
    intro c d h
    match c with
    | 70 => cases h; exact ⟨by rfl, _, rfl, documented (by rfl) (by rfl) (by rfl) (by decide)⟩
    | 71 => cases h; exact ⟨by rfl, _, rfl, documented (by rfl) (by rfl) (by rfl) (by decide)⟩
    | c' + 72 => cases h
  others := by
    intro c h
    by_cases h1 : c = 70
    · subst h1; cases h
    · by_cases h2 : c = 71
      · subst h2; cases h
      · simp only [bushEnv]
  init := by
    intro c ci h
    simp only [bushEnv] at h
    split at h
    · cases h; rfl
    · cases h; rfl
    · cases h

theorem bush_settled : bushEnv.settled fun
    | 70 => (madeBy [70] (stmt bushDoc)).info.serializer.keepers
    | 71 => (madeBy [71] (stmt leafDoc)).info.serializer.keepers
    | _ => [] := by
  intro c ci h
  simp only [bushEnv] at h
  split at h
  · cases h
    refine ⟨rfl, rfl, ?_, ?_⟩ <;> decide
  · cases h
    refine ⟨rfl, rfl, ?_, ?_⟩ <;> decide
  · cases h

theorem bush_regular : ∀ c d, bushDocs c = some d → d.regular plat = true := by
  intro c d h
  match c with
  | 70 => cases h; rfl
  | 71 => cases h; rfl
  | c' + 72 => cases h

/-- Nothing is read before the count, so one layer will do. -/
theorem bush_layered : Layered bushDocs (fun _ => 0) 0 where
  top := fun _ => Nat.le_refl _
  fields := by
    intro c d h
    match c with
    | 70 => cases h; exact ⟨by simp [Field.leads, Fmt.leads], .inl (by simp [Field.bites, Fmt.bites])⟩
    | 71 => cases h; exact ⟨by simp [Field.leads, Fmt.leads], .inl (by simp [Field.bites, Fmt.bites])⟩
    | c' + 72 => cases h

/-- `C76_unpack_partial` applies to all data. -/
example (b : Bytes) : ∃ K r, (∀ n ≥ K, ∀ st, result (createUnpack bushEnv n 70 (.buf b) st) = r) ∧
    ∀ e, r = .error e → ClassRaises bushDocs (b.length * 1 + 0 + 1) 70 e :=
  C76_unpack_partial bush_documented bush_settled bush_regular bush_layered 70 b

/-- A tree of three, and one that does not end in the data. -/
example (st : St) : result (createUnpack bushEnv 20 70 (.buf [1, 1, 0, 1, 0, 2, 0, 3, 0]) st) =
      .ok (.obj 70 Option.none [("kids", .list [.obj 70 Option.none [("kids", .list [.obj 70 Option.none [("kids", .list []),
        ("leaf", .obj 71 Option.none [("value", .int 1)])]]), ("leaf", .obj 71 Option.none [("value", .int 2)])]]),
        ("leaf", .obj 71 Option.none [("value", .int 3)])]) ∧
    result (createUnpack bushEnv 20 70 (.buf [1, 1, 1]) st) = .error .structError := ⟨by rfl, by rfl⟩

/-! ### What goes wrong -/

/-- `class Chain(Structured): next: Self; value: uint8` -/
def chainDoc : ClassDoc := ⟨.default, [.value "next" .me, .value "value" (.int false .one)]⟩

theorem chain_documented : Documented hctx 4 chainDoc (madeBy [70] (stmt chainDoc)) := documented (by rfl) (by rfl) (by rfl) (by decide)

theorem chain_deep {P : Platform} : ∀ k b, readObj P (oneDocs chainDoc) k 70 b = .deep
  | 0, _ => rfl
  | k + 1, b => by
    have ih := chain_deep (P := P) k
    show (Parsed.bind (Parsed.bind (readObj P (oneDocs chainDoc) k 70 (b.drop 0)) _) _) = _
    rw [ih]
    rfl

/-- **C76** is false for a class that begins with an object of its own kind: whatever the data, reading it is a `RecursionError`, however
high the call stack may be. -/
theorem C76_chain_is_false : Documented hctx 4 chainDoc (madeBy [70] (stmt chainDoc)) ∧
    ∀ b n st, result (createUnpack (oneEnv plat chainDoc) n 70 (.buf b) st) = .error .recursionError := by
  refine ⟨chain_documented, fun b n st => ?_⟩
  rcases C56_unpack_partial (one_documented (P := plat) chain_documented (by rfl) (by rfl)) (one_settled (by rfl) (by rfl)) n 70 b st with h | h
  · exact h
  · rw [show (oneEnv plat chainDoc).plat = plat from rfl, chain_deep] at h
    exact absurd h id

end Verif
