import Verif.Proofs.ParseRaises
import Verif.Props.FormatParse
/-
Reading any bytes raises only the exceptions that the type hints tell of (C57), for formats that the parser does not give up on (C56).
-/
namespace Verif
open Spec Sem Samples

variable {env : Env} {ctx : HintCtx} {N : Nat} {docs : ClassId → Option ClassDoc}

/-- **C56** (regular programs, partial).  If no class is one of those that are known to be read differently, the parser never gives up:
with a recursion limit that is high enough reading gives its value or its exception. -/
theorem C56_regular_partial (h : AllDocumented env ctx N docs) {own : ClassId → List SerId} (hs : env.settled own)
    (hr : ∀ c d, docs c = some d → d.regular env.plat = true) (k : Nat) (c : ClassId) (b : Bytes) :
    (readObj env.plat docs k c b = .deep) ∨
    (∃ v m K, readObj env.plat docs k c b = .ok (v, m) ∧ ∀ n ≥ K, ∀ st, result (createUnpack env n c (.buf b) st) = .ok v) ∨
    (∃ e K, readObj env.plat docs k c b = .err e ∧ ∀ n ≥ K, ∀ st, result (createUnpack env n c (.buf b) st) = .error e) := by
  cases hb : readObj env.plat docs k c b with
  | deep => exact .inl rfl
  | odd => exact absurd hb (clear_obj (fun c d hd => ⟨(h.documents c d hd).1, hr c d hd⟩) k c b)
  | ok x =>
    obtain ⟨K, hK⟩ := C56_unpack_limit_partial h hs k c b (by rw [hb]; nofun)
    rw [hb] at hK
    exact .inr (.inl ⟨x.1, x.2, K, rfl, hK⟩)
  | err e =>
    obtain ⟨K, hK⟩ := C56_unpack_limit_partial h hs k c b (by rw [hb]; nofun)
    rw [hb] at hK
    exact .inr (.inr ⟨e, K, rfl, hK⟩)

/-- **C57** (partial).  Whatever the bytes are, an exception while reading a documented class is `RecursionError` or one of those of the
fields of the class and of the classes in it.  Missing: what is not regular, see C56. -/
theorem C57_raises_partial (h : AllDocumented env ctx N docs) {own : ClassId → List SerId} (hs : env.settled own)
    (hr : ∀ c d, docs c = some d → d.regular env.plat = true) (c : ClassId) (n : Nat) (b : Bytes) (st : St) (e : Err)
    (he : result (createUnpack env n c (.buf b) st) = .error e) :
    e = .recursionError ∨ ClassRaises docs (n + 1) c e := by
  have hg : ∀ c d, docs c = some d → d.good = true := fun c d hd => (h.documents c d hd).1
  rcases C56_unpack_partial h hs n c b st with h1 | h1
  · rw [he] at h1
    cases h1
    exact .inl rfl
  · rw [he] at h1
    cases hb : readObj env.plat docs (n + 1) c b with
    | ok => rw [hb] at h1; cases h1
    | err => rw [hb] at h1; cases h1; exact .inr (only_obj hg _ _ _ _ hb)
    | deep => rw [hb] at h1; cases h1
    | odd => exact absurd hb (clear_obj (fun c d hd => ⟨hg c d hd, hr c d hd⟩) _ _ _)

/-- **C57** (`create_unpack_from`, partial).  The same at any offset, without terminated strings and strings with a length. -/
theorem C57_from_partial (h : AllDocumented env ctx N docs) {own : ClassId → List SerId} (hs : env.settled own) (hst : env.steady false)
    (hr : ∀ c d, docs c = some d → d.regular env.plat = true) (c : ClassId) (n : Nat) (x : Bytes) (off : Nat) (hoff : off ≤ x.length) (st : St) (e : Err)
    (he : result (createUnpack env n c (.at x off) st) = .error e) : e = .recursionError ∨ ClassRaises docs (n + 1) c e := by
  rw [C03_from_partial env own hs hst n c x off hoff st st] at he
  exact C57_raises_partial h hs hr c n _ st e he

/-- **C57** (`create_unpack_read`, partial).  The same for streams, without strings with a length, where it is false (see below). -/
theorem C57_read_partial (h : AllDocumented env ctx N docs) {own : ClassId → List SerId} (hs : env.settled own) (hst : env.steady true)
    (hr : ∀ c d, docs c = some d → d.regular env.plat = true) (c : ClassId) (n : Nat) (st : St) (e : Err)
    (he : result (createUnpack env n c .io st) = .error e) : e = .recursionError ∨ ClassRaises docs (n + 1) c e := by
  rw [(C03_read_partial env own hs hst n c st st).1] at he
  exact C57_raises_partial h hs hr c n _ st e he

/-- **C57** (kinds of exceptions).  These exceptions are `struct.error`, `ValueError`, `TypeError`, `KeyError` and `AttributeError`, and what
decoders, deciders and conditions raise. -/
theorem C57_kinds {k : Nat} {c : ClassId} {e : Err} (h : ClassRaises docs k c e) :
    (e = .structError ∨ e = .valueError ∨ e = .typeError ∨ e = .keyError ∨ e = .attributeError) ∨
      ∃ c' d f, docs c' = some d ∧ f ∈ d.fields ∧ f.CallRaises e :=
  classRaises_kinds k h

/-- **C57** (classes of basic types).  A class whose fields are numbers, bools, `char[n]`, `pascal[n]` and pads raises only `struct.error`. -/
theorem C57_basic {k : Nat} {c : ClassId} {d : ClassDoc} {e : Err} (hd : docs c = some d)
    (hb : ∀ f ∈ d.fields, (∃ a g, f = .value a g ∧ g.basic.isSome = true) ∨ ∃ a n, f = .pad a n) (h : ClassRaises docs k c e) : e = .structError := by
  cases k with
  | zero => exact h.elim
  | succ k =>
    simp only [ClassRaises, hd] at h
    obtain ⟨f, hf, h⟩ := h
    rcases hb f hf with ⟨a, g, rfl, hg⟩ | ⟨a, n, rfl⟩
    · exact basic_raises g hg h
    · exact h

/-- **C57** (strings to the end).  `char[math.inf]` raises nothing, and a text of them only what its decoder raises. -/
theorem C57_rest {C : ClassId → Err → Prop} {c : ClassId} {en : Val → Except Err Bytes} {de : Bytes → Except Err PyStr} {e : Err} :
    ¬ Fmt.Raises C c .rest e ∧ (Fmt.Raises C c (.text .rest en de) e ↔ ∃ b, de b = .error e) :=
  ⟨id, by simp [Fmt.Raises]⟩

/-- The sample program is regular. -/
theorem read_regular : ∀ c d, readDocs c = some d → d.regular plat = true := by
  intro c d h
  match c with
  | 60 => cases h; rfl
  | 61 => cases h; rfl
  | 62 => cases h
  | 63 => cases h; rfl
  | 64 => cases h; rfl
  | 65 => cases h; rfl
  | 66 => cases h; rfl
  | 67 => cases h; rfl
  | c' + 68 => cases h

/-- `C57_raises_partial` applies to the sample program: reading a `Tag` raises nothing but `struct.error` and `RecursionError`, and it does. -/
example : (∀ n b st e, result (createUnpack readEnv n 66 (.buf b) st) = .error e → e = .recursionError ∨ e = .structError) ∧
    result (createUnpack readEnv 9 66 (.buf [1]) st0) = .error .structError := by
  refine ⟨fun n b st e he => ?_, by rfl⟩
  refine (C57_raises_partial read_documented read_settled read_regular 66 n b st e he).imp id fun h => ?_
  refine C57_basic (d := infoDoc) rfl (fun f hf => ?_) h
  simp only [infoDoc, List.mem_cons, List.not_mem_nil, or_false] at hf
  rcases hf with rfl | rfl
  · exact .inl ⟨_, _, rfl, rfl⟩
  · exact .inl ⟨_, _, rfl, rfl⟩

/-- A size that is wrong, and a missing terminator. -/
example : ClassRaises readDocs 3 63 .valueError ∧ ClassRaises readDocs 3 63 .structError ∧ ¬ ClassRaises readDocs 3 63 .typeError ∧
    result (createUnpack readEnv 9 63 (.buf (ledgerBytes.set 11 12)) st0) = .error .valueError ∧
    result (createUnpack readEnv 9 63 (.buf (ledgerBytes.take 24)) st0) = .error .valueError := by
  refine ⟨?_, ?_, ?_, by rfl, by rfl⟩ <;>
    simp [ClassRaises, readDocs, ledgerDocs, ledgerDoc, shopDocs, shopDoc, itemDoc, Field.Raises, Fmt.Raises, Fmt.RaisesAny]

/-- **C57** is false for streams: an empty text with a length raises `IndexError`, which its type does not tell of. -/
theorem C57_stream_is_false : AllDocumented (oneEnv plat noteDoc) hctx 4 (oneDocs noteDoc) ∧ (∀ k, ¬ ClassRaises (oneDocs noteDoc) k 70 .indexError) ∧
    result (createUnpack (oneEnv plat noteDoc) 12 70 .io { st0 with io := ⟨[0], 0⟩ }) = .error .indexError := by
  refine ⟨C56_stream_is_false.1, fun k h => ?_, by rfl⟩
  cases k with
  | zero => exact h
  | succ k => simp [ClassRaises, oneDocs, noteDoc, Field.Raises, Fmt.Raises] at h

/-- **C57** is false for `Self` in a class with a field `cls`: it raises `AttributeError`. -/
theorem C57_cls_is_false : AllDocumented (oneEnv plat catDoc) hctx 4 (oneDocs catDoc) ∧ (∀ k, ¬ ClassRaises (oneDocs catDoc) k 70 .attributeError) ∧
    result (createUnpack (oneEnv plat catDoc) 12 70 (.buf [3, 1, 4, 0]) st0) = .error .attributeError := by
  refine ⟨C56_cls_is_false.1, fun k => ?_, by rfl⟩
  induction k with
  | zero => exact id
  | succ k ih => simpa [ClassRaises, oneDocs, catDoc, Field.Raises, Fmt.Raises] using ih

end Verif
