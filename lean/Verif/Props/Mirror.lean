import Verif.Proofs.Mirror
import Verif.Props.Places
/-
**C73** Another byte order turns the numbers around and changes nothing else.
-/
namespace Verif
open Spec Sem Samples Extends Places Mirrors

variable {ctx : HintCtx} {M : Nat} {env : Env} {docs : ClassId → Option ClassDoc}

/-- The results are the same exception, or bytes of which one are the other with some numbers turned around. -/
def MirrorResult : Except Err Bytes → Except Err Bytes → Prop
  | .ok b, .ok b' => Mirrored b b'
  | .error e, .error e' => e = e'
  | _, _ => False

theorem Mirrors.result {r r' : Except Err Bytes} {p p' : Parsed Bytes} (h : PutsAs r p) (h' : PutsAs r' p') (hm : Spec.Mirror p p') : MirrorResult r r' := by
  cases p <;> cases p' <;> first | exact absurd hm id | exact absurd h id | skip
  · simp only [PutsAs] at h h'; subst h h'; exact hm
  · simp only [PutsAs] at h h'; subst h h'; exact hm

/-- **C73** (objects, partial).  An object with a byte order of its own (`with_byte_order`) and the same object with another one, neither with alignment: the
same exception is raised, or the bytes differ in that numbers are turned around.  Missing: what is missing in C62. -/
theorem C73_object_partial (h : Describes env ctx M docs) (hall : ∀ c, (env.classes c).isSome = true → (docs c).isSome = true) {c : ClassId}
    {bo bo' : ByteOrder} (hb : aligned bo = false) (hb' : aligned bo' = false) {attrs : List (Name × Val)}
    (hc : Calm env (Val.obj c (some bo) attrs).nodes) (hc' : Calm env (Val.obj c (some bo') attrs).nodes) :
    ∃ K, ∀ n ≥ K, ∀ st st', MirrorResult (result (Obj.pack env n (.obj c (some bo) attrs) st)) (result (Obj.pack env n (.obj c (some bo') attrs) st')) := by
  let k := max (Val.obj c (some bo) attrs).nodes.length (Val.obj c (some bo') attrs).nodes.length
  obtain ⟨K1, h1⟩ := C62_partial h hall hc (k := k + 1) (by omega)
  obtain ⟨K2, h2⟩ := C62_partial h hall hc' (k := k + 1) (by omega)
  refine ⟨max K1 K2, fun n hn st st' => Mirrors.result (h1 n (by omega) st) (h2 n (by omega) st') ?_⟩
  simp only [putObj]
  split
  · rfl
  · split
    · rfl
    · exact putFields_mirror hb hb' _ _ _ _

/-- **C73** (classes, partial).  Two classes with the same fields in different byte orders without alignment: objects with the same values are packed
to the same bytes but for numbers that are turned around, or packing raises the same exception.  Missing, and false: fields that depend on the class (`Self`,
and deciders that look at it), and what is missing in C62. -/
theorem C73_class_partial (h : Describes env ctx M docs) (hall : ∀ c, (env.classes c).isSome = true → (docs c).isSome = true) {c c' : ClassId}
    {d d' : ClassDoc} (hd : docs c = some d) (hd' : docs c' = some d') (hf : d'.fields = d.fields) (hb : aligned d.byteOrder = false)
    (hb' : aligned d'.byteOrder = false) (hw : ∀ f ∈ d.fields, f.within d.attrs) {attrs : List (Name × Val)}
    (hc : Calm env (Val.obj c Option.none attrs).nodes) (hc' : Calm env (Val.obj c' Option.none attrs).nodes) :
    ∃ K, ∀ n ≥ K, ∀ st st', MirrorResult (result (Obj.pack env n (.obj c Option.none attrs) st)) (result (Obj.pack env n (.obj c' Option.none attrs) st')) := by
  let k := max (Val.obj c Option.none attrs).nodes.length (Val.obj c' Option.none attrs).nodes.length
  obtain ⟨K1, h1⟩ := C62_partial h hall hc (k := k + 1) (by omega)
  obtain ⟨K2, h2⟩ := C62_partial h hall hc' (k := k + 1) (by omega)
  refine ⟨max K1 K2, fun n hn st st' => Mirrors.result (h1 n (by omega) st) (h2 n (by omega) st') ?_⟩
  have ha : d'.attrs = d.attrs := by unfold ClassDoc.attrs; rw [hf]
  simp only [putObj, hd, hd', ha, hf]
  split
  · rfl
  · rw [putFields_within (o := ⟨c, false, attrs⟩) (o' := ⟨c', false, attrs⟩) ⟨rfl, fun _ _ => rfl⟩ d.fields hw]
    exact putFields_mirror hb hb' _ _ _ _

/-- **C73** (sizes).  So both have the same number of bytes. -/
theorem C73_size {r r' : Except Err Bytes} (h : MirrorResult r r') : r.map (·.length) = r'.map (·.length) := by
  cases r <;> cases r' <;> first | exact absurd h id | skip
  · exact congrArg Except.error h
  · exact congrArg Except.ok (mirrored_length h)

/-- Two classes with the same fields in two byte orders: `kind: uint16; ratio: float64; marks: array[Header[2], uint32]; name: char[3]` -/
def turnDoc (bo : ByteOrder) : ClassDoc := ⟨bo, [.value "kind" (.int false .two), .value "ratio" .double, .value "marks" (.fixed 2 (.int false .four)),
  .value "name" (.chars 3)]⟩
def turnEnv : Env := ⟨plat, fun
  | 70 => some (madeBy [70] (stmt (turnDoc .le))).info
  | 71 => some (madeBy [71] (stmt (turnDoc .be))).info
  | _ => Option.none⟩
def turnDocs : ClassId → Option ClassDoc
  | 70 => some (turnDoc .le)
  | 71 => some (turnDoc .be)
  | _ => Option.none

theorem turn_describes : Describes turnEnv hctx 4 turnDocs := by
  intro c d h
  match c with
  | 70 => cases h; exact ⟨by rfl, _, rfl, documented (by rfl) (by rfl) (by rfl) (by decide)⟩
  | 71 => cases h; exact ⟨by rfl, _, rfl, documented (by rfl) (by rfl) (by rfl) (by decide)⟩
  | c' + 72 => cases h

theorem turn_all : ∀ c, (turnEnv.classes c).isSome = true → (turnDocs c).isSome = true := by
  intro c h
  simp only [turnEnv] at h
  split at h
  · rfl
  · rfl
  · cases h

theorem turn_plain : Plain turnEnv := by
  intro c bo ci ser h
  match c with
  | 70 => cases bo with
    | none => cases h; exact ⟨rfl, rfl⟩
    | some b => cases b <;> cases h <;> exact ⟨rfl, rfl⟩
  | 71 => cases bo with
    | none => cases h; exact ⟨rfl, rfl⟩
    | some b => cases b <;> cases h <;> exact ⟨rfl, rfl⟩
  | c' + 72 => cases h

def turnAttrs : List (Name × Val) := [("kind", .int 258), ("ratio", .float 0x4004000000000000), ("marks", .list [.int 1, .int 0x01020304]), ("name", .bytes [97, 98, 99])]

/-- The theorem for two classes applies to them, and the bytes are what it says. -/
example : (turnDoc .be).fields = (turnDoc .le).fields ∧ aligned (turnDoc .le).byteOrder = false ∧ aligned (turnDoc .be).byteOrder = false ∧
    (∀ f ∈ (turnDoc .le).fields, f.within (turnDoc .le).attrs) ∧ Calm turnEnv (Val.obj 70 Option.none turnAttrs).nodes ∧
    Calm turnEnv (Val.obj 71 Option.none turnAttrs).nodes ∧
    (∀ st, result (Obj.pack turnEnv 12 (.obj 70 Option.none turnAttrs) st) =
      .ok ([2, 1] ++ [0, 0, 0, 0, 0, 0, 4, 64] ++ [1, 0, 0, 0] ++ [4, 3, 2, 1] ++ [97, 98, 99])) ∧
    ∀ st, result (Obj.pack turnEnv 12 (.obj 71 Option.none turnAttrs) st) =
      .ok ([1, 2] ++ [64, 4, 0, 0, 0, 0, 0, 0] ++ [0, 0, 0, 1] ++ [1, 2, 3, 4] ++ [97, 98, 99]) :=
  ⟨rfl, rfl, rfl, by simp [turnDoc, Field.within, Fmt.within], calm_of_plain turn_plain _, calm_of_plain turn_plain _, fun st => by rfl, fun st => by rfl⟩

/-- So does the theorem for two objects: an object of the first class that is given the byte order of the second one is packed as the second one is, and
a number that does not fit does not fit in either byte order. -/
example : aligned .le = false ∧ aligned .be = false ∧
    (∀ st, result (Obj.pack turnEnv 12 (.obj 70 (some .be) turnAttrs) st) = result (Obj.pack turnEnv 12 (.obj 71 Option.none turnAttrs) st)) ∧
    ∀ st, result (Obj.pack turnEnv 12 (.obj 70 (some .be) (("kind", .int 70000) :: turnAttrs)) st) = .error .structError ∧
      result (Obj.pack turnEnv 12 (.obj 70 (some .le) (("kind", .int 70000) :: turnAttrs)) st) = .error .structError :=
  ⟨rfl, rfl, fun st => by rfl, fun st => ⟨by rfl, by rfl⟩⟩

/-- **C73** is false for byte orders with alignment: there are pad bytes in front of the number then, so not even the number of bytes is the same. -/
theorem C73_alignment_is_false : ∀ st, ∃ b b', result (Obj.pack turnEnv 12 (.obj 70 (some .native) turnAttrs) st) = .ok b ∧
    result (Obj.pack turnEnv 12 (.obj 70 (some .le) turnAttrs) st) = .ok b' ∧ b.length = 27 ∧ b'.length = 21 ∧
    ¬ MirrorResult (.ok b) (.ok b') := fun st =>
  ⟨_, _, by rfl, by rfl, by rfl, by rfl, fun h => absurd (mirrored_length h) (by decide)⟩

/-- **C73** is false for byte strings with a length in front: they are packed in the default byte order and by no other. -/
theorem C73_strings_is_false : ∀ st, result (Obj.pack familyEnv' 12 headRecord st) = .ok [2, 0, 44, 1, 5, 2, 97, 98] ∧
    result (Obj.pack familyEnv' 12 (.obj 70 (some .le) [("kind", .int 2), ("size", .int 300), ("flag", .int 5), ("name", .bytes [97, 98])]) st) =
      .error .valueError := fun st => ⟨by rfl, by rfl⟩

end Verif
