import Verif.Proofs.LedgerOrder
import Verif.Props.History
/-
C05 for all calls at once: what is read from a serializer object has been set before by the same call.
-/
namespace Verif
open Samples Threads

/-- **C05** (partial).  A call of any method on objects and classes with supplied serializers (`Task.Supplied`, computable for
a class) has the same outcome from any two states of the serializer objects: the same bytes, object or exception, and the same
buffer and stream afterwards, also when it raises half way.  Missing: serializers under a `Condition` that are never handed the
object, and tuples and unions of several serializers when unpacking; there it is false (`C05_full_is_false`,
`C05_unpack_full_is_false`). -/
theorem C05_partial {env : Env} {n : Nat} {t : Task} (h : t.Supplied env) (st1 st2 : St) (hb : st1.buf = st2.buf) (hi : st1.io = st2.io) :
    outcome (t.alone env n st1) = outcome (t.alone env n st2) := supplied_outcome h st1 st2 hb hi

/-- Whatever calls were made before, with whatever result. -/
theorem C05_after_partial {env : Env} {n m : Nat} {t : Task} (h : t.Supplied env) (us : List Task) (st : St) :
    outcome (t.alone env n { st with cells := (leavesAll env m us st).cells }) = outcome (t.alone env n st) :=
  C05_partial h _ _ rfl rfl

/-- In a program whose classes are supplied, this holds for every call. -/
theorem supplied_all {env : Env} (h : env.supplied) (t : Task) : t.Supplied env := by
  have hobj : ∀ {unp c bo ci ser}, (∀ c ci, env.classes c = some ci → ci.serializer.supplied unp = true) → objSer env c bo = .ok (ci, ser) →
      ser.supplied unp = true := by
    intro unp c bo ci ser h e
    unfold objSer at e
    cases hci : env.classes c with
    | none => rw [hci] at e; cases e
    | some ci' =>
      rw [hci] at e
      cases bo with
      | none => cases e; exact h _ _ hci
      | some b =>
        obtain ⟨s', h1, h2⟩ := Except.bind_ok' e
        cases h2
        exact (supplied_wbo unp b h1).1 (h _ _ hci)
  have hp := fun c ci e => (h c ci e).1
  have hu := fun c ci e => (h c ci e).2
  cases t with
  | pack v => exact fun _ _ _ _ _ _ e => hobj hp e
  | packInto off v => exact fun _ _ _ _ _ _ e => hobj hp e
  | packWrite v => exact fun _ _ _ _ _ _ e => hobj hp e
  | createUnpack cls src => exact fun c ci _ e => hu c ci e
  | unpack v src =>
    cases v with
    | obj cls bo attrs => exact ⟨fun c ci _ e => hu c ci e, fun _ _ e => hobj hu e⟩
    | _ => trivial

theorem C05_program_partial {env : Env} (h : env.supplied) {n m : Nat} (t : Task) (us : List Task) (st : St) :
    outcome (t.alone env n { st with cells := (leavesAll env m us st).cells }) = outcome (t.alone env n st) :=
  C05_after_partial (supplied_all h t) us st

theorem samples_supplied : env.supplied := by
  intro c ci h
  match c with
  | 0 | 1 | 2 | 3 | 4 | 5 | 6 => cases h; exact ⟨rfl, rfl⟩
  | c + 7 => cases h

/-- A message that does not fit: the bytes written before the error and the error are the same after any calls. -/
example (us : List Task) (c : SerId → Cell) :
    outcome ((Task.packInto 1 (msg 1 [0x61] [point 1 2, point 3 4])).alone env 9
      { (⟨c, [0, 0, 0, 0, 0, 0, 0], ⟨[], 0⟩⟩ : St) with cells := (leavesAll env 9 us ⟨c, [0, 0, 0, 0, 0, 0, 0], ⟨[], 0⟩⟩).cells }) =
      (.error .structError, ⟨[0, 1, 1, 0x61, 0, 0, 0], ⟨[], 0⟩⟩) :=
  (C05_program_partial samples_supplied _ us _).trans
    ((C05_partial (t := .packInto 1 (msg 1 [0x61] [point 1 2, point 3 4])) (supplied_all samples_supplied _)
      ⟨c, [0, 0, 0, 0, 0, 0, 0], ⟨[], 0⟩⟩ ⟨fun _ => {}, [0, 0, 0, 0, 0, 0, 0], ⟨[], 0⟩⟩ rfl rfl).trans (by rfl))

/-- Lists of lists of objects of the same class, which use the same serializer object again inside its items (not covered by
`C05_pack_partial`):

    class Table(Structured):
        rows: array[Header[uint8], array[Header[uint8], Self]]
-/
def tableEnv : Env := ⟨plat, fun c => if c = 0 then some
  { attrs := ["rows"], byteOrder := .default
    serializer := .array [1] (some u8) (.array [2] (some u8) (.selfT [3]) (-1)) (-1) } else Option.none⟩

def table (rows : List (List Val)) : Val := .obj 0 Option.none [("rows", .list (rows.map .list))]

theorem table_supplied : tableEnv.supplied := by
  intro c ci h
  by_cases hc : c = 0
  · subst hc; cases h; exact ⟨rfl, rfl⟩
  · simp [tableEnv, hc] at h

example (st : St) : (outcome ((Task.pack (table [[table [[], []], table []], []])).alone tableEnv 9 st)).1 =
    .ok (.bytes [2, 2, 2, 0, 0, 0, 0]) := by
  have h := C05_partial (n := 9) (supplied_all table_supplied (.pack (table [[table [[], []], table []], []]))) st ⟨fun _ => {}, st.buf, st.io⟩ rfl rfl
  rw [h]
  rfl

example (st : St) : (outcome ((Task.createUnpack 0 (.buf [2, 2, 2, 0, 0, 0, 0])).alone tableEnv 9 st)).1 =
    .ok (.value (table [[table [[], []], table []], []])) := by
  have h := C05_partial (n := 9) (supplied_all table_supplied (.createUnpack 0 (.buf [2, 2, 2, 0, 0, 0, 0]))) st ⟨fun _ => {}, st.buf, st.io⟩ rfl rfl
  rw [h]
  rfl

end Verif
