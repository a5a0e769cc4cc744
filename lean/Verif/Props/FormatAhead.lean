import Verif.Props.FormatParse
/-
The union of the README that looks ahead for a signature, as a documented program.
-/
namespace Verif.Samples
open Spec Sem

/-- `attrgetter('record.sig')` -/
def bySig : Decider := fun o => match getAttr? o.attrs "record" with
  | some (.obj _ _ attrs) => match getAttr? attrs "sig" with
    | some v => .ok v
    | none => .error .attributeError
  | _ => .error .attributeError

/-- `class IntRecord(Structured): sig: char[4]; value: int32` -/
def intRecDoc : ClassDoc := ⟨.default, [.value "sig" (.chars 4), .value "value" (.int true .four)]⟩
/-- `class FloatRecord(Structured): sig: char[4]; value: float64` -/
def floatRecDoc : ClassDoc := ⟨.default, [.value "sig" (.chars 4), .value "value" .double]⟩
/-- `class Record(Structured): record: Annotated[IntRecord | FloatRecord, LookaheadDecider(char[4], attrgetter('record.sig'),
{b'IIII': IntRecord, b'FFFF': FloatRecord}, None)]` -/
def recordDoc : ClassDoc := ⟨.default, [.value "record" (.choice [81] [.cls 91, .cls 92] (some (.chars 4)) bySig
  [.bytes [73, 73, 73, 73], .bytes [70, 70, 70, 70]] [.obj 91, .obj 92] [])]⟩

def recordDocs : ClassId → Option ClassDoc := fun c =>
  if c = 90 then some recordDoc else if c = 91 then some intRecDoc else if c = 92 then some floatRecDoc else Option.none

def recordEnv : Env := ⟨plat, fun c => (recordDocs c).map fun d => (madeBy [c] (stmt d)).info⟩

theorem record_class {c : ClassId} {d : ClassDoc} (h : recordDocs c = some d) :
    (c = 90 ∧ d = recordDoc) ∨ (c = 91 ∧ d = intRecDoc) ∨ (c = 92 ∧ d = floatRecDoc) := by
  unfold recordDocs at h
  split at h
  · cases h; exact .inl ⟨by assumption, rfl⟩
  · split at h
    · cases h; exact .inr (.inl ⟨by assumption, rfl⟩)
    · split at h
      · cases h; exact .inr (.inr ⟨by assumption, rfl⟩)
      · cases h

theorem record_documents : Documents recordEnv hctx 4 recordDocs := by
  intro c d h
  rcases record_class h with ⟨rfl, rfl⟩ | ⟨rfl, rfl⟩ | ⟨rfl, rfl⟩
  · exact ⟨by rfl, madeBy [90] (stmt recordDoc), rfl, by rfl, each (by rfl), noSelf (by decide), nofun, 4, [90], world0, stmt recordDoc, rfl, rfl⟩
  · exact ⟨by rfl, madeBy [91] (stmt intRecDoc), rfl, by rfl, each (by rfl), noSelf (by decide), nofun, 4, [91], world0, stmt intRecDoc, rfl, rfl⟩
  · exact ⟨by rfl, madeBy [92] (stmt floatRecDoc), rfl, by rfl, each (by rfl), noSelf (by decide), nofun, 4, [92], world0, stmt floatRecDoc, rfl, rfl⟩

theorem record_plain : Plain recordEnv := by
  intro c bo ci ser h
  cases hd : recordDocs c with
  | none => simp [objSer, recordEnv, hd] at h
  | some d =>
    rcases record_class hd with ⟨rfl, rfl⟩ | ⟨rfl, rfl⟩ | ⟨rfl, rfl⟩ <;> cases bo with
    | none => cases h; exact ⟨rfl, rfl⟩
    | some b => cases b <;> cases h <;> exact ⟨rfl, rfl⟩

def record (v : Val) : Val := .obj 90 Option.none [("record", v)]
def intRec : Val := .obj 91 Option.none [("sig", .bytes [73, 73, 73, 73]), ("value", .int (-2))]
def floatRec : Val := .obj 92 Option.none [("sig", .bytes [70, 70, 70, 70]), ("value", .float 0x3FF0000000000000)]
/-- An `IntRecord` with the signature of the other one. -/
def wrongRec : Val := .obj 91 Option.none [("sig", .bytes [70, 70, 70, 70]), ("value", .int 3)]

end Verif.Samples

namespace Verif
open Spec Sem Samples

/-- The bytes of both records, and what they come back as. -/
example : Documents recordEnv hctx 4 recordDocs ∧ Calm recordEnv (record intRec).nodes ∧
    writeObj plat recordDocs 3 90 (record intRec) = some [73, 73, 73, 73, 254, 255, 255, 255] ∧
    backObj plat true recordDocs 3 false 90 (record intRec) = some (record intRec) ∧
    writeObj plat recordDocs 3 90 (record floatRec) = some [70, 70, 70, 70, 0, 0, 0, 0, 0, 0, 0, 0, 0, 0, 240, 63] ∧
    backObj plat true recordDocs 3 false 90 (record floatRec) = some (record floatRec) ∧
    writeObj plat recordDocs 3 90 (record wrongRec) = Option.none :=
  ⟨record_documents, calm_of_plain record_plain _, by rfl, by rfl, by rfl, by rfl, by rfl⟩

/-- What the parser makes of them: the signature decides, an unknown one is a `ValueError`, a missing one a `struct.error`. -/
example :
    readObj plat recordDocs 4 90 [73, 73, 73, 73, 254, 255, 255, 255] = .ok (record intRec, 8) ∧
    readObj plat recordDocs 4 90 [70, 70, 70, 70, 0, 0, 0, 0, 0, 0, 0, 0, 0, 0, 240, 63, 9] = .ok (record floatRec, 16) ∧
    readObj plat recordDocs 4 90 [70, 73, 73, 73, 254, 255, 255, 255] = .err .valueError ∧
    readObj plat recordDocs 4 90 [73, 73, 73] = .err .structError := ⟨by rfl, by rfl, by rfl, by rfl⟩

/-- `C52_pack_partial` and `C52_unpack_partial` say that this is what happens, from every state and in front of any bytes. -/
theorem record_pack : ∃ K, ∀ n ≥ K, ∀ st, result (Obj.pack recordEnv n (record intRec) st) = .ok [73, 73, 73, 73, 254, 255, 255, 255] :=
  C52_pack_partial record_documents (k := 3) (c := 90) (by rfl) (calm_of_plain record_plain _)

theorem record_unpack : ∃ K, ∀ n ≥ K, ∀ rest st,
    result (createUnpack recordEnv n 90 (.buf ([73, 73, 73, 73, 254, 255, 255, 255] ++ rest)) st) = .ok (record intRec) := by
  have hp : ∀ c ci, recordEnv.classes c = some ci → ci.postInit = Except.ok := by
    intro c ci h
    cases hd : recordDocs c with
    | none => simp [recordEnv, hd] at h
    | some d => rcases record_class hd with ⟨rfl, rfl⟩ | ⟨rfl, rfl⟩ | ⟨rfl, rfl⟩ <;> cases h <;> rfl
  obtain ⟨K, h⟩ := C52_unpack_partial record_documents hp (l := false) (k := 3) (c := 90) (v := record intRec) (by rfl) (by rfl)
    (calm_of_plain record_plain _)
  exact ⟨K, fun n hn rest st => h n hn rest nofun st⟩

end Verif
