import Verif.Proofs.ParseObj
import Verif.Proofs.ReadLift
import Verif.Proofs.ReadSame
import Verif.Props.FormatBack
import Verif.Props.Reading
/-
Unpacking any bytes at all gives what the type hints describe: the value or the exception that the parser of `Spec/FormatParse.lean`
gives, which knows the type hints but no serializers (C56).
-/
namespace Verif
open Spec Sem Samples

variable {env : Env} {ctx : HintCtx} {N : Nat} {docs : ClassId → Option ClassDoc}

theorem Spec.AllDocumented.parses (h : AllDocumented env ctx N docs) (k : Nat) (c : ClassId) (b : Bytes) :
    Ag k (fun _ : Upd => True) (fun _ x y => x.1 = y.1 ∧ x.2.1.size = y.2 ∧ x.2.2.sized = true) (fun _ n => decObj env (dec env n) c (.buf b))
      (readObj env.plat docs (k + 1) c b) :=
  decObj_parses h.documents h.others h.init (obj_parses h.documents h.others h.init k) c b

/-- What a result that is not `stuck` comes to. -/
theorem hit_result {own : ClassId → List SerId} (hs : env.settled own) {n : Nat} {c : ClassId} {b : Bytes} {st : St} {r : Parsed (Val × Nat)}
    (h : Hit (fun (x : Val × Dec × Ser) y => x.1 = y.1 ∧ x.2.1.size = y.2 ∧ x.2.2.sized = true) (decObj env (dec env n) c (.buf b)) r) :
    r.Is (result (createUnpack env n c (.buf b) st)) := by
  rcases createUnpack_result hs (n := n) (cls := c) (src := .buf b) (st := st) with ⟨v, d, ser, h1, h2, _⟩ | ⟨e, h1, h2⟩
  · rw [show (Src.buf b).sem st = .buf b from rfl] at h1
    rw [h1] at h
    rw [h2]
    cases r with
    | ok y => exact congrArg Except.ok h.1
    | err => cases h
    | deep => cases h
    | odd => trivial
  · rw [show (Src.buf b).sem st = .buf b from rfl] at h1
    rw [h1] at h
    rw [h2]
    cases r with
    | ok y => cases h
    | err => exact congrArg Except.error h
    | deep => cases h
    | odd => trivial

/-- **C56** (`create_unpack`, partial).  The classes of a program are made by class statements from documented type hints.  Then reading
any bytes whatever, with any recursion limit, raises `RecursionError` or gives exactly the object or the exception of the parser.
Missing, and false: what `Fmt.good` excludes, and where the parser gives up (`odd`): tuples of several items that are not all basic,
long .NET strings on machines that put the most significant byte first, and `Self` in classes with a field `cls`. -/
theorem C56_unpack_partial (h : AllDocumented env ctx N docs) {own : ClassId → List SerId} (hs : env.settled own) (n : Nat) (c : ClassId) (b : Bytes) (st : St) :
    result (createUnpack env n c (.buf b) st) = .error .recursionError ∨
      (readObj env.plat docs (n + 1) c b).Is (result (createUnpack env n c (.buf b) st)) := by
  rcases (h.parses n c b).low noUpd trivial n (Nat.le_refl n) with e | e
  · obtain ⟨st', h1⟩ := createUnpack_err (src := .buf b) (st := st) e
    exact .inl (by rw [h1]; rfl)
  · exact .inr (hit_result hs e)

/-- **C56** (`create_unpack` with a high recursion limit, partial).  If the objects are not nested too deep for the parser then there
is no `RecursionError` once the recursion limit is high enough. -/
theorem C56_unpack_limit_partial (h : AllDocumented env ctx N docs) {own : ClassId → List SerId} (hs : env.settled own) (k : Nat) (c : ClassId) (b : Bytes)
    (hd : readObj env.plat docs k c b ≠ .deep) :
    ∃ K, ∀ n ≥ K, ∀ st, (readObj env.plat docs k c b).Is (result (createUnpack env n c (.buf b) st)) := by
  cases k with
  | zero => exact absurd rfl hd
  | succ k =>
    obtain ⟨K, hK⟩ := (h.parses k c b).high hd
    exact ⟨K, fun n hn st => hit_result hs (hK noUpd trivial n hn)⟩

/-- **C56** (`size`, partial).  After reading, the serializer of the class reports the number of bytes that the parser took. -/
theorem C56_size_partial (h : AllDocumented env ctx N docs) {own : ClassId → List SerId} (hs : env.settled own) {k : Nat} {c : ClassId} {b : Bytes} {v : Val}
    {m : Nat} (hr : readObj env.plat docs k c b = .ok (v, m)) :
    ∃ K, ∀ n ≥ K, ∀ st, ∃ ci st', env.classes c = some ci ∧ createUnpack env n c (.buf b) st = .ok v st' ∧ ci.serializer.readSize st' = .ok m st' := by
  cases k with
  | zero => cases hr
  | succ k =>
    obtain ⟨K, hK⟩ := (h.parses k c b).high (by rw [hr]; nofun)
    refine ⟨K, fun n hn st => ?_⟩
    have hh := hK noUpd trivial n hn
    rw [hr] at hh
    cases ho : decObj env (dec env n) c (.buf b) with
    | stuck => exact absurd ho (decObj_quiet hs (dec_quiet hs n) c (.buf b)).1
    | err => rw [ho] at hh; cases hh
    | ok x =>
      obtain ⟨v', d, ser⟩ := x
      rw [ho] at hh
      obtain ⟨g1, g2, g3⟩ := hh
      simp only at g1 g2 g3
      subst g1 g2
      obtain ⟨st', h1, _, h3⟩ := createUnpack_ok (src := .buf b) (st := st) ho
      obtain ⟨ci, h4, rfl⟩ := decObj_ser ho
      exact ⟨ci, st', h4, h1, h3 g3⟩

/-- **C56** (`create_unpack_from`, partial).  The same at any offset, for programs without terminated strings and strings with a
length, where it is false (see below). -/
theorem C56_from_partial (h : AllDocumented env ctx N docs) {own : ClassId → List SerId} (hs : env.settled own) (hst : env.steady false) (n : Nat) (c : ClassId)
    (x : Bytes) (off : Nat) (hoff : off ≤ x.length) (st : St) :
    result (createUnpack env n c (.at x off) st) = .error .recursionError ∨
      (readObj env.plat docs (n + 1) c (x.drop off)).Is (result (createUnpack env n c (.at x off) st)) := by
  rw [C03_from_partial env own hs hst n c x off hoff st st]
  exact C56_unpack_partial h hs n c _ st

/-- **C56** (`create_unpack_read`, partial).  The same for streams, for programs without strings with a length; after reading an
object the stream is just behind the bytes that the parser took. -/
theorem C56_read_partial (h : AllDocumented env ctx N docs) {own : ClassId → List SerId} (hs : env.settled own) (hst : env.steady true) (n : Nat) (c : ClassId)
    (st : St) :
    result (createUnpack env n c .io st) = .error .recursionError ∨
      (readObj env.plat docs (n + 1) c (st.io.data.drop st.io.pos)).Is (result (createUnpack env n c .io st)) ∧
      ∀ v m v' st', readObj env.plat docs (n + 1) c (st.io.data.drop st.io.pos) = .ok (v, m) → createUnpack env n c .io st = .ok v' st' →
        st'.io.data = st.io.data ∧ st'.io.pos = st.io.pos + m := by
  rw [(C03_read_partial env own hs hst n c st st).1]
  rcases C56_unpack_partial h hs n c (st.io.data.drop st.io.pos) st with e | e
  · exact .inl e
  · refine .inr ⟨e, fun v m v' st' hr hc => ?_⟩
    have hv : Views (.io st.io.data st.io.pos) (st.io.data.drop st.io.pos) := rfl
    obtain ⟨e1, _⟩ := decObj_same hst (dec_same hst n) hv (by simp [PSrc.isAt]) c
    rcases (h.parses n c (st.io.data.drop st.io.pos)).low noUpd trivial n (Nat.le_refl n) with e2 | e2
    · rw [e2] at e1
      obtain ⟨_, h3⟩ := createUnpack_err (src := .io) (st := st) e1
      rw [hc] at h3
      cases h3
    · rw [hr] at e2
      cases ho : decObj env (dec env n) c (.buf (st.io.data.drop st.io.pos)) with
      | stuck => exact absurd ho (decObj_quiet hs (dec_quiet hs n) c _).1
      | err => rw [ho] at e2; cases e2
      | ok y =>
        obtain ⟨w, d, ser⟩ := y
        rw [ho] at e1 e2
        obtain ⟨st2, h3, h4, _⟩ := createUnpack_ok (src := .io) (st := st) e1
        rw [hc] at h3
        cases h3
        have hm : d.size = m := e2.2.1
        refine ⟨h4.data, ?_⟩
        rw [h4.ioPos rfl, ← hm]
        rfl

/-- **C56** (`create_unpack_read` with a high recursion limit, partial).  What the parser reads in front of the rest of a stream is read from
the stream once the recursion limit is high enough, and the stream is then just behind it. -/
theorem C56_read_limit_partial (h : AllDocumented env ctx N docs) {own : ClassId → List SerId} (hs : env.settled own) (hst : env.steady true) {k : Nat} {c : ClassId}
    {st : St} {v : Val} {m : Nat} (hr : readObj env.plat docs k c (st.io.data.drop st.io.pos) = .ok (v, m)) :
    ∃ K, ∀ n ≥ K, ∃ st', createUnpack env n c .io st = .ok v st' ∧ st'.io.data = st.io.data ∧ st'.io.pos = st.io.pos + m := by
  cases k with
  | zero => cases hr
  | succ k =>
    obtain ⟨K, hK⟩ := (h.parses k c (st.io.data.drop st.io.pos)).high (by rw [hr]; nofun)
    refine ⟨K, fun n hn => ?_⟩
    have e2 := hK noUpd trivial n hn
    rw [hr] at e2
    have hv : Views (.io st.io.data st.io.pos) (st.io.data.drop st.io.pos) := rfl
    obtain ⟨e1, _⟩ := decObj_same hst (dec_same hst n) hv (by simp [PSrc.isAt]) c
    cases ho : decObj env (dec env n) c (.buf (st.io.data.drop st.io.pos)) with
    | stuck => exact absurd ho (decObj_quiet hs (dec_quiet hs n) c _).1
    | err => rw [ho] at e2; cases e2
    | ok y =>
      obtain ⟨w, d, ser⟩ := y
      rw [ho] at e1 e2
      obtain ⟨g1, g2, _⟩ := e2
      simp only at g1 g2
      obtain ⟨st2, h3, h4, _⟩ := createUnpack_ok (src := .io) (st := st) e1
      refine ⟨st2, by rw [h3, g1], h4.data, ?_⟩
      rw [h4.ioPos rfl, ← g2]
      rfl

/-- **C56** (what is read, partial).  An object that is read has the attributes of the fields of its class, in order. -/
theorem C56_attrs {P : Platform} {k : Nat} {c : ClassId} {b : Bytes} {v : Val} {m : Nat} (h : readObj P docs k c b = .ok (v, m)) :
    ∃ d vs, docs c = some d ∧ vs.length = d.attrs.length ∧ v = .obj c Option.none (d.attrs.zip vs) := by
  cases k with
  | zero => cases h
  | succ k =>
    unfold readObj at h
    split at h
    · cases h
    · rename_i d hd
      split at h
      · cases h
      · cases hr : readFields P d.byteOrder (readObj P docs k) ⟨c, true, []⟩ 0 d.fields b with
        | ok x =>
          rw [hr] at h
          simp only [Bind.bind, Parsed.bind, Parsed.ok.injEq, Prod.mk.injEq] at h
          exact ⟨d, x.1, hd, by rw [readFields_length (vs := x.1) (n := x.2) hr]; simp [ClassDoc.attrs], h.1.symm⟩
        | err => rw [hr] at h; cases h
        | deep => rw [hr] at h; cases h
        | odd => rw [hr] at h; cases h

end Verif

namespace Verif.Samples
open Spec

/-- The classes of `ledgerEnv`, but for the one with a tuple that is read as a generator. -/
def readDocs : ClassId → Option ClassDoc
  | 62 => Option.none
  | c => ledgerDocs c
def readEnv : Env := ⟨plat, fun
  | 62 => Option.none
  | c => ledgerEnv.classes c⟩

theorem read_documented : AllDocumented readEnv hctx 4 readDocs where
  documents := by
    intro c d h
    match c with
    | 60 => exact ledger_documents 60 d h
    | 61 => exact ledger_documents 61 d h
    | 62 => cases h
    | 63 => exact ledger_documents 63 d h
    | 64 => exact ledger_documents 64 d h
    | 65 => exact ledger_documents 65 d h
    | 66 => exact ledger_documents 66 d h
    | 67 => exact ledger_documents 67 d h
    | c' + 68 => cases h
  others := by
    intro c h
    have low : ∀ c < 60, (readEnv.classes c).isNone = true := by decide
    by_cases hc : c < 60
    · exact Option.isNone_iff_eq_none.1 (low c hc)
    · obtain ⟨k, rfl⟩ : ∃ k : Nat, c = k + 60 := ⟨Nat.sub c 60, (Nat.sub_add_cancel (Nat.le_of_not_lt hc)).symm⟩
      match k with
      | 0 => cases h
      | 1 => cases h
      | 2 => rfl
      | 3 => cases h
      | 4 => cases h
      | 5 => cases h
      | 6 => cases h
      | 7 => cases h
      | k' + 8 => rfl
  init := by
    intro c ci h
    match c with
    | 60 => cases h; rfl
    | 61 => cases h; rfl
    | 62 => cases h
    | 63 => cases h; rfl
    | 64 => cases h; rfl
    | 65 => cases h; rfl
    | 66 => cases h; rfl
    | 67 => cases h; rfl
    | c' + 68 => cases h

/-- What these classes hand a partial object to. -/
def readOwn : ClassId → List SerId
  | 61 => [[5, 9]]
  | 63 => [[12, 63], [0, 9], [5, 9]]
  | 65 => [[80], [0, 9]]
  | 67 => [[81], [80], [0, 9]]
  | _ => []

theorem read_settled : readEnv.settled readOwn := by
  intro c ci h
  match c with
  | 60 | 61 | 63 | 64 | 65 | 66 | 67 =>
    cases h
    refine ⟨rfl, rfl, ?_, ?_⟩ <;> decide
  | 62 => cases h
  | c' + 68 => cases h

end Verif.Samples

namespace Verif
open Spec Sem Samples

/-- The documented bytes of a ledger, and what the parser says of them: an object with 44 bytes, `struct.error` when some are missing in
front of `rest`, `ValueError` if a size is wrong. -/
def ledgerBytes : Bytes :=
  [255, 0x3F, 0xF0, 0, 0, 0, 0, 0, 0, 2, 0, 11, 2, 1, 3, 2, 97, 98, 1, 0, 2, 1, 99, 104, 105, 0, 0, 1, 255, 254, 4, 3, 65, 0, 0, 1, 1, 2, 5, 1, 100, 7, 8, 9]

example : AllDocumented readEnv hctx 4 readDocs ∧ readEnv.settled readOwn ∧
    readObj plat readDocs 3 63 ledgerBytes = .ok (ledger [65, 0, 0] [7, 8, 9], 44) ∧
    readObj plat readDocs 3 63 (ledgerBytes.take 39) = .err .structError ∧
    readObj plat readDocs 3 63 (ledgerBytes.set 11 12) = .err .valueError ∧
    readObj plat readDocs 2 63 ledgerBytes = .deep :=
  ⟨read_documented, read_settled, by rfl, by rfl, by rfl, by rfl⟩

/-- Unions, conditions, pads and `Self` in front of any bytes: nested nodes, a union whose choice needs more bytes than there are, the
default of a union. -/
example : readObj plat readDocs 5 67 [2, 9, 9, 2, 97, 98, 1, 2, 2, 1, 0, 0, 4, 3, 0, 3, 0, 0, 2, 1, 3, 1, 99, 0, 7] = .ok (wrap nest, 25) ∧
    readObj plat readDocs 5 67 [2, 9, 9, 2, 97, 98, 1] = .err .structError ∧
    (∃ v, readObj plat readDocs 5 67 [3, 9, 7, 200] = .ok (v, 3)) :=
  ⟨by rfl, by rfl, _, by rfl⟩

/-- A program with one class. -/
def oneEnv (P : Platform) (d : ClassDoc) : Env := ⟨P, fun c => if c = 70 then some (madeBy [70] (stmt d)).info else Option.none⟩
def oneDocs (d : ClassDoc) : ClassId → Option ClassDoc := fun c => if c = 70 then some d else Option.none

theorem one_documented {P : Platform} {d : ClassDoc} (hd : Documented hctx 4 d (madeBy [70] (stmt d))) (hg : d.good = true)
    (hi : (madeBy [70] (stmt d)).info.postInit = Except.ok) : AllDocumented (oneEnv P d) hctx 4 (oneDocs d) where
  documents := by
    intro c d' h
    simp only [oneDocs] at h
    split at h
    · rename_i e
      cases h
      exact ⟨hg, _, by simp [oneEnv, e], hd⟩
    · cases h
  others := by
    intro c h
    simp only [oneDocs] at h
    split at h
    · cases h
    · rename_i e
      simp [oneEnv, e]
  init := by
    intro c ci h
    simp only [oneEnv] at h
    split at h
    · cases h
      exact hi
    · cases h

theorem one_settled {P : Platform} {d : ClassDoc} (h1 : (madeBy [70] (stmt d)).info.serializer.tame true = true)
    (h2 : (madeBy [70] (stmt d)).info.serializer.apart (fun _ => (madeBy [70] (stmt d)).info.serializer.keepers) 70 = true) :
    (oneEnv P d).settled (fun _ => (madeBy [70] (stmt d)).info.serializer.keepers) := by
  intro c ci h
  simp only [oneEnv] at h
  split at h
  · rename_i e
    cases h
    subst e
    exact ⟨h1, h2, fun _ h => h, fun _ _ _ h => h⟩
  · cases h

theorem one_steady {P : Platform} {d : ClassDoc} {t : Bool} (h : (madeBy [70] (stmt d)).info.serializer.steady t = true) : (oneEnv P d).steady t := by
  intro c ci hc
  simp only [oneEnv] at hc
  split at hc
  · cases hc
    exact h
  · cases hc

/-- `C56_from_partial` applies to a class of numbers, arrays and texts, `C56_read_partial` also with terminated strings. -/
def pageDoc (t : Bool) : ClassDoc := ⟨.le, [.value "n" (.int true .two), .value "at" (.list .one (.fixed 2 (.int false .two))), .pad "0_pad_" 1,
  .value "tag" (.pascal 3)] ++ if t then [.value "name" (.until 0)] else []⟩

example : AllDocumented (oneEnv plat (pageDoc false)) hctx 4 (oneDocs (pageDoc false)) ∧
    (oneEnv plat (pageDoc false)).settled (fun _ => (madeBy [70] (stmt (pageDoc false))).info.serializer.keepers) ∧
    (oneEnv plat (pageDoc false)).steady false ∧
    readObj plat (oneDocs (pageDoc false)) 1 70 [254, 255, 1, 7, 0, 0, 1, 55, 1, 65, 66, 9] =
      .ok (.obj 70 Option.none [("n", .int (-2)), ("at", .list [.list [.int 7, .int 256]]), ("tag", .bytes [65])], 11) :=
  ⟨one_documented (documented (by rfl) (by rfl) (by rfl) (by decide)) (by rfl) (by rfl), one_settled (by rfl) (by rfl), one_steady (by rfl), by rfl⟩

example : AllDocumented (oneEnv plat (pageDoc true)) hctx 4 (oneDocs (pageDoc true)) ∧
    (oneEnv plat (pageDoc true)).settled (fun _ => (madeBy [70] (stmt (pageDoc true))).info.serializer.keepers) ∧
    (oneEnv plat (pageDoc true)).steady true ∧
    readObj plat (oneDocs (pageDoc true)) 1 70 [254, 255, 0, 55, 1, 65, 66, 9, 0, 8] =
      .ok (.obj 70 Option.none [("n", .int (-2)), ("at", .list []), ("tag", .bytes [65]), ("name", .bytes [9])], 9) ∧
    readObj plat (oneDocs (pageDoc true)) 1 70 [254, 255, 0, 55, 1, 65, 66, 9, 8] = .err .valueError :=
  ⟨one_documented (documented (by rfl) (by rfl) (by rfl) (by decide)) (by rfl) (by rfl), one_settled (by rfl) (by rfl), one_steady (by rfl), by rfl, by rfl⟩

/-! ### Where it fails -/

/-- A documented class is read as `r`, not as the parser says. -/
def ParsesOther (P : Platform) (d : ClassDoc) (src : Src) (st : St) (p : Parsed (Val × Nat)) (r : Except Err Val) : Prop :=
  AllDocumented (oneEnv P d) hctx 4 (oneDocs d) ∧ (∃ b, Views (src.sem st) b ∧ readObj P (oneDocs d) 3 70 b = p) ∧
    result (createUnpack (oneEnv P d) 12 70 src st) = r

/-- **C56** is false for tuples of several items that are not all basic: they are read as a generator. -/
theorem C56_generator_is_false : ParsesOther plat ⟨.default, [.value "at" (.tup [.counted .one, .int false .one])]⟩ (.buf [1, 2, 3]) st0 .odd
    (.ok (.obj 70 Option.none [("at", .gen)])) :=
  ⟨one_documented (documented (by rfl) (by rfl) (by rfl) (by decide)) (by rfl) (by rfl), ⟨_, rfl, by rfl⟩, by rfl⟩

/-- **C56** is false for `Self` in a class with a field `cls`. -/
theorem C56_cls_is_false : ParsesOther plat catDoc (.buf [3, 1, 4, 0]) st0 .odd (.error .attributeError) :=
  ⟨one_documented (documented (by rfl) (by rfl) (by rfl) (by decide)) (by rfl) (by rfl), ⟨_, rfl, by rfl⟩, by rfl⟩

/-- **C56** is false for long .NET strings on a machine that puts the most significant byte first: here the byte behind a
string of 130 bytes is taken for a part of it. -/
theorem C56_net_is_false : ParsesOther { plat with le := false } ⟨.default, [.value "label" .net]⟩ (.buf ([0x82, 0x01] ++ List.replicate 130 5 ++ [7])) st0 .odd
    (.ok (.obj 70 Option.none [("label", .bytes (List.replicate 130 5 ++ [7]))])) :=
  ⟨one_documented (documented (by rfl) (by rfl) (by rfl) (by decide)) (by rfl) (by rfl), ⟨_, rfl, by rfl⟩, by rfl⟩

/-- A text with a length. -/
def noteDoc : ClassDoc := ⟨.default, [.value "note" (.text (.counted .one) (fun _ => .ok []) (fun _ => .ok []))]⟩

/-- **C56** is false for streams: reading an empty text raises `IndexError`. -/
theorem C56_stream_is_false : ParsesOther plat noteDoc .io { st0 with io := ⟨[0], 0⟩ } (.ok (.obj 70 Option.none [("note", .str [])], 1)) (.error .indexError) :=
  ⟨one_documented (documented (by rfl) (by rfl) (by rfl) (by decide)) (by rfl) (by rfl), ⟨[0], rfl, by rfl⟩, by rfl⟩

/-- **C56** is false at an offset: what follows a terminated string is looked for at the wrong place. -/
theorem C56_offset_is_false : ParsesOther plat ⟨.default, [.value "name" (.until 0), .value "n" (.int false .one)]⟩ (.at [9, 65, 0, 7] 1) st0
    (.ok (.obj 70 Option.none [("name", .bytes [65]), ("n", .int 7)], 3)) (.error .structError) :=
  ⟨one_documented (documented (by rfl) (by rfl) (by rfl) (by decide)) (by rfl) (by rfl), ⟨[65, 0, 7], ⟨by decide, rfl⟩, by rfl⟩, by rfl⟩

end Verif
