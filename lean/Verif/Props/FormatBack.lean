import Verif.Props.Format
import Verif.Proofs.FormatRead
/-
**C52** Type hints mean what the documentation says: the documented bytes are read as the object they stand for.
-/
namespace Verif
open Spec Sem Samples

variable {ctx : HintCtx} {N : Nat} {env : Env} {docs : ClassId → Option ClassDoc}

/-- What was documented is packed, and comes back. -/
theorem documented_kept (hd : Documents env ctx N docs) (hp : ∀ c ci, env.classes c = some ci → ci.postInit = Except.ok)
    {t l : Bool} {k : Nat} {c : ClassId} {v v' : Val} {b : Bytes} (hw : writeObj env.plat docs k c v = some b)
    (hb : backObj env.plat t docs k l c v = some v') (hc : Calm env v.nodes) :
    KeptObj env t l c v v' ∧ ∃ K, ∀ n ≥ K, ∀ st, ∃ st', Obj.pack env n v st = .ok b st' := by
  refine ⟨obj_keeps hd hp k l c v v' b hw hb, ?_⟩
  obtain ⟨K, hK⟩ := C52_pack_partial hd hw hc
  refine ⟨K, fun n hn st => ?_⟩
  have := hK n hn st
  cases h : Obj.pack env n v st with
  | err e s => rw [h] at this; cases this
  | ok b' s =>
    rw [h] at this
    cases this
    exact ⟨s, rfl⟩

/-- **C52** (`create_unpack`, partial).  The classes of a program are made by class statements from documented type hints; then the
documented bytes of an object, whatever follows (nothing if the format reads to the end), are read as the object.  Missing, and
false: what `Fmt.good` excludes, tuples of several items that are not all basic, and deciders, conditions and `Self` that differ
when reading (see below). -/
theorem C52_unpack_partial (hd : Documents env ctx N docs) (hp : ∀ c ci, env.classes c = some ci → ci.postInit = Except.ok)
    {l : Bool} {k : Nat} {c : ClassId} {v v' : Val} {b : Bytes} (hw : writeObj env.plat docs k c v = some b)
    (hb : backObj env.plat true docs k l c v = some v') (hc : Calm env v.nodes) :
    ∃ K, ∀ n ≥ K, ∀ (rest : Bytes), (l = true → rest = []) → ∀ st,
      result (createUnpack env n c (.buf (b ++ rest)) st) = .ok v' := by
  obtain ⟨h1, K, hK⟩ := documented_kept hd hp hw hb hc
  refine ⟨K, fun n hn rest hl st => ?_⟩
  obtain ⟨st', h2⟩ := hK n hn st
  obtain ⟨st2, h3, _⟩ := C01_partial env true l n c v v' hc h1 st st' b h2 rest hl st
  rw [h3]; rfl

/-- **C52** (`create_unpack_read`, partial).  The same for streams, which are then just behind the bytes. -/
theorem C52_read_partial (hd : Documents env ctx N docs) (hp : ∀ c ci, env.classes c = some ci → ci.postInit = Except.ok)
    {l : Bool} {k : Nat} {c : ClassId} {v v' : Val} {b : Bytes} (hw : writeObj env.plat docs k c v = some b)
    (hb : backObj env.plat true docs k l c v = some v') (hc : Calm env v.nodes) :
    ∃ K, ∀ n ≥ K, ∀ (rest : Bytes), (l = true → rest = []) → ∀ st, st.io.data.drop st.io.pos = b ++ rest →
      ∃ st', createUnpack env n c .io st = .ok v' st' ∧ st'.io.data = st.io.data ∧ st'.io.pos = st.io.pos + b.length := by
  obtain ⟨h1, K, hK⟩ := documented_kept hd hp hw hb hc
  refine ⟨K, fun n hn rest hl st hs => ?_⟩
  obtain ⟨st', h2⟩ := hK n hn st
  exact C01_read_partial env true l n c v v' hc h1 st st' b h2 rest hl st hs

/-- **C52** (`create_unpack_from`, partial).  The same at any offset of a buffer, for formats without terminated strings. -/
theorem C52_from_partial (hd : Documents env ctx N docs) (hp : ∀ c ci, env.classes c = some ci → ci.postInit = Except.ok)
    {l : Bool} {k : Nat} {c : ClassId} {v v' : Val} {b : Bytes} (hw : writeObj env.plat docs k c v = some b)
    (hb : backObj env.plat false docs k l c v = some v') (hc : Calm env v.nodes) :
    ∃ K, ∀ n ≥ K, ∀ (front rest : Bytes), (l = true → rest = []) → ∀ st,
      result (createUnpack env n c (.at (front ++ b ++ rest) front.length) st) = .ok v' := by
  obtain ⟨h1, K, hK⟩ := documented_kept hd hp hw hb hc
  refine ⟨K, fun n hn front rest hl st => ?_⟩
  obtain ⟨st', h2⟩ := hK n hn st
  exact C01_from_partial env l n c v v' hc h1 st st' b h2 front rest hl st

end Verif

namespace Verif.Samples
open Spec

/-- `class Ledger(Structured): shop: Shop; at: tuple[uint16, char[3]]; extra: array[Header[uint8], Item]; rest: char[math.inf]` -/
def ledgerDoc : ClassDoc := ⟨.default, [.value "shop" (.obj 61), .value "at" (.tup [.int false .two, .chars 3]), .value "extra" (.list .one (.obj 60)),
  .value "rest" .rest]⟩
def ledgerDecl : ClassDecl :=
  { bases := [.structured], anns := [("shop", .cls 61), ("at", written (.tup [.int false .two, .chars 3])),
      ("extra", written (.list .one (.obj 60))), ("rest", written .rest)] }

/-- `class Tag(Structured, byte_order=NETWORK): kind: uint32; code: char[5]; at: array[Header[2], int16]` -/
def tagDoc : ClassDoc := ⟨.network, [.value "kind" (.int false .four), .value "code" (.chars 5), .value "at" (.fixed 2 (.int true .two))]⟩
def tagDecl : ClassDecl :=
  { bases := [.structured], byteOrder := .network
    anns := [("kind", basicHint "int" 'I'), ("code", written (.chars 5)), ("at", written (.fixed 2 (.int true .two)))] }

def ledgerDocs : ClassId → Option ClassDoc
  | 63 => some ledgerDoc
  | 64 => some tagDoc
  | c => shopDocs c

def ledgerEnv : Env := ⟨plat, fun
  | 63 => some (madeBy [63] ledgerDecl).info
  | 64 => some (madeBy [64] tagDecl).info
  | c => shopEnv.classes c⟩

theorem ledgerDocumented : Documented hctx 4 ledgerDoc (madeBy [63] ledgerDecl) where
  names := by rfl
  hints := each (by rfl)
  self := noSelf (by decide)
  calls := nofun
  made := ⟨4, [63], world0, ledgerDecl, rfl, rfl⟩

theorem tagDocumented : Documented hctx 4 tagDoc (madeBy [64] tagDecl) where
  names := by rfl
  hints := each (by rfl)
  self := noSelf (by decide)
  calls := nofun
  made := ⟨4, [64], world0, tagDecl, rfl, rfl⟩

theorem ledger_documents : Documents ledgerEnv hctx 4 ledgerDocs := by
  intro c d h
  match c with
  | 60 => cases h; exact ⟨by rfl, _, rfl, itemDocumented⟩
  | 61 => cases h; exact ⟨by rfl, _, rfl, shopDocumented⟩
  | 62 => cases h; exact ⟨by rfl, _, rfl, pairDocumented⟩
  | 63 => cases h; exact ⟨by rfl, _, rfl, ledgerDocumented⟩
  | 64 => cases h; exact ⟨by rfl, _, rfl, tagDocumented⟩
  | 65 => cases h; exact ⟨by rfl, _, rfl, nodeDocumented⟩
  | 66 => cases h; exact ⟨by rfl, _, rfl, infoDocumented⟩
  | 67 => cases h; exact ⟨by rfl, _, rfl, wrapDocumented⟩
  | c' + 68 => cases h

theorem ledger_init : ∀ c ci, ledgerEnv.classes c = some ci → ci.postInit = Except.ok := by
  intro c ci h
  match c with
  | 60 => cases h; rfl
  | 61 => cases h; rfl
  | 62 => cases h; rfl
  | 63 => cases h; rfl
  | 64 => cases h; rfl
  | 65 => cases h; rfl
  | 66 => cases h; rfl
  | 67 => cases h; rfl
  | c' + 68 => cases h

theorem ledger_plain : Plain ledgerEnv := by
  intro c bo ci ser h
  match c with
  | 60 => cases bo with
    | none => cases h; exact ⟨rfl, rfl⟩
    | some b => cases b <;> cases h <;> exact ⟨rfl, rfl⟩
  | 61 => cases bo with
    | none => cases h; exact ⟨rfl, rfl⟩
    | some b => cases b <;> cases h <;> exact ⟨rfl, rfl⟩
  | 62 => cases bo with
    | none => cases h; exact ⟨rfl, rfl⟩
    | some b => cases b <;> cases h <;> exact ⟨rfl, rfl⟩
  | 63 => cases bo with
    | none => cases h; exact ⟨rfl, rfl⟩
    | some b => cases b <;> cases h <;> exact ⟨rfl, rfl⟩
  | 64 => cases bo with
    | none => cases h; exact ⟨rfl, rfl⟩
    | some b => cases b <;> cases h <;> exact ⟨rfl, rfl⟩
  | 65 => cases bo with
    | none => cases h; exact ⟨rfl, rfl⟩
    | some b => cases b <;> cases h <;> exact ⟨rfl, rfl⟩
  | 66 => cases bo with
    | none => cases h; exact ⟨rfl, rfl⟩
    | some b => cases b <;> cases h <;> exact ⟨rfl, rfl⟩
  | 67 => cases bo with
    | none => cases h; exact ⟨rfl, rfl⟩
    | some b => cases b <;> cases h <;> exact ⟨rfl, rfl⟩
  | c' + 68 => cases h

def ledger (code rest : Bytes) : Val := .obj 63 Option.none [("shop", shop), ("at", .tup [.int 772, .bytes code]),
  ("extra", .list [item 513 5 [100]]), ("rest", .bytes rest)]
def tag (code : Bytes) : Val := .obj 64 Option.none [("kind", .int 258), ("code", .bytes code), ("at", .list [.int 1, .int (-2)])]

end Verif.Samples

namespace Verif
open Spec Sem Samples

/-- `C52_unpack_partial` and `C52_read_partial` apply to a program with nested classes: the object comes back, its `char[3]`
filled up. -/
example : Documents ledgerEnv hctx 4 ledgerDocs ∧ (∀ c ci, ledgerEnv.classes c = some ci → ci.postInit = Except.ok) ∧
    Calm ledgerEnv (ledger [65] [7, 8, 9]).nodes ∧
    writeObj plat ledgerDocs 3 63 (ledger [65] [7, 8, 9]) = some
      [255, 0x3F, 0xF0, 0, 0, 0, 0, 0, 0, 2, 0, 11, 2, 1, 3, 2, 97, 98, 1, 0, 2, 1, 99, 104, 105, 0, 0, 1, 255, 254, 4, 3, 65, 0, 0, 1, 1, 2, 5, 1, 100, 7, 8, 9] ∧
    backObj plat true ledgerDocs 3 true 63 (ledger [65] [7, 8, 9]) = some (ledger [65, 0, 0] [7, 8, 9]) :=
  ⟨ledger_documents, ledger_init, calm_of_plain ledger_plain _, by rfl, by rfl⟩

/-- `C52_from_partial` applies to a class without terminated strings, whatever follows. -/
example : Calm ledgerEnv (tag [65, 66]).nodes ∧ writeObj plat ledgerDocs 1 64 (tag [65, 66]) = some [0, 0, 1, 2, 65, 66, 0, 0, 0, 0, 1, 255, 254] ∧
    backObj plat false ledgerDocs 1 false 64 (tag [65, 66]) = some (tag [65, 66, 0, 0, 0]) :=
  ⟨calm_of_plain ledger_plain _, by rfl, by rfl⟩

/-- Objects with pads, conditions, unions and `Self` come back as well: the field whose condition does not hold comes back as its
default, whatever it was. -/
example : Calm ledgerEnv (wrap nest).nodes ∧ writeObj plat ledgerDocs 5 67 (wrap nest) = some
      [2, 0, 0, 2, 97, 98, 1, 2, 2, 1, 0, 0, 4, 3, 0, 3, 0, 0, 2, 1, 3, 1, 99, 0, 7] ∧
    backObj plat false ledgerDocs 5 false 67 (wrap nest) = some (wrap nest) ∧
    backObj plat false ledgerDocs 5 false 65 (node 1 (.int 772) 3 []) = some (node 1 (.int 772) 9 []) ∧
    backObj plat false ledgerDocs 5 false 67 (wrap info) = some (wrap info) :=
  ⟨calm_of_plain ledger_plain _, by rfl, by rfl, by rfl, by rfl⟩

/-- A platform that rounds by cutting off digits. -/
def cutting : Platform := { plat with
  packF16 := fun f => some (f >>> 48).toUInt16, unpackF16 := fun u => u.toUInt64 <<< 48
  packF32 := fun _ f => some (f >>> 32).toUInt32, unpackF32 := fun u => u.toUInt64 <<< 32 }
/-- `class Gauge(Structured): kind: uint8; low: float16; high: float32; tag: pascal[4]; label: char[NET]` -/
def gaugeDoc : ClassDoc := ⟨.default, [.value "kind" (.int false .one), .value "low" .half, .value "high" .single, .value "tag" (.pascal 4),
  .value "label" .net]⟩
def gaugeEnv : Env := ⟨cutting, fun c => if c = 70 then some (madeBy [70] (stmt gaugeDoc)).info else Option.none⟩
def gauge (low high : UInt64) : Val := .obj 70 Option.none [("kind", .int 1), ("low", .float low), ("high", .float high), ("tag", .bytes [97, 98]),
  ("label", .bytes (List.replicate 130 5))]

theorem gauge_documents : Documents gaugeEnv hctx 4 (fun c => if c = 70 then some gaugeDoc else Option.none) := by
  intro c d h
  simp only at h
  split at h
  · rename_i e
    cases h
    exact ⟨by rfl, madeBy [70] (stmt gaugeDoc), by simp [gaugeEnv, e], by rfl, each (by rfl), noSelf (by decide), nofun, 4, [70], world0, stmt gaugeDoc, rfl, rfl⟩
  · cases h

set_option maxRecDepth 4000 in
/-- Floats come back rounded, `pascal[n]` and `char[NET]` as they were. -/
example : Documents gaugeEnv hctx 4 (fun c => if c = 70 then some gaugeDoc else Option.none) ∧
    writeObj cutting (fun c => if c = 70 then some gaugeDoc else Option.none) 1 70 (gauge 0x3FF0400000000001 0x4000000011111111) = some
      ([1, 0, 0xF0, 0x3F, 0, 0, 0, 0x40, 2, 97, 98, 0, 130, 1] ++ List.replicate 130 5) ∧
    backObj cutting false (fun c => if c = 70 then some gaugeDoc else Option.none) 1 false 70 (gauge 0x3FF0400000000001 0x4000000011111111) =
      some (gauge 0x3FF0000000000000 0x4000000000000000) :=
  ⟨gauge_documents, by rfl, by rfl⟩

/-- **C52** is false for tuples of several items that are not all basic: they are read as a generator, not as a tuple. -/
theorem C52_generator_is_false : ∃ b, writeObj plat shopDocs 3 62 pair = some b ∧
    ∀ st, result (createUnpack shopEnv 6 62 (.buf b) st) ≠ .ok pair :=
  ⟨_, rfl, fun st h => by cases h⟩

/-- `class Cat(Structured): cls: uint8; kids: array[Header[uint8], Self]` -/
def catDoc : ClassDoc := ⟨.default, [.value "cls" (.int false .one), .value "kids" (.list .one .me)]⟩
/-- `class Late(Structured): body: Annotated[Union[...], LookbackDecider(lambda obj: obj.kind, {1: uint8})]; kind: uint8` -/
def lateDoc : ClassDoc := ⟨.default, [.value "body" (.choice [80] [uint8H] Option.none byKind [.int 1] [.int false .one] []), .value "kind" (.int false .one)]⟩
/-- `class Peek(Structured): kind: uint8; body: Annotated[Union[...], LookaheadDecider(uint8, lambda obj: obj.kind, {1: uint8, 2: uint16})]` -/
def peekDoc : ClassDoc := ⟨.default, [.value "kind" (.int false .one),
  .value "body" (.choice [80] [uint8H] (some (.int false .one)) byKind [.int 1, .int 2] [.int false .one, .int false .two] [])]⟩

/-- The object of a documented class is packed as documented, but what is read is `r`. -/
def ReadsOther (d : ClassDoc) (v : Val) (r : Except Err Val) : Prop :=
  ∃ o b, Documented hctx 4 d o ∧ d.good = true ∧ writeObj plat (fun c => if c = 70 then some d else Option.none) 3 70 v = some b ∧
    ∀ st, result (createUnpack ⟨plat, fun c => if c = 70 then some o.info else Option.none⟩ 8 70 (.buf b) st) = r

/-- **C52** is false for a class with a field called `cls`, which hides the class from `Self`: `AttributeError`. -/
theorem C52_cls_is_false : ReadsOther catDoc
    (.obj 70 Option.none [("cls", .int 3), ("kids", .list [.obj 70 Option.none [("cls", .int 4), ("kids", .list [])]])]) (.error .attributeError) :=
  ⟨_, [3, 1, 4, 0], documented (id := [70]) (by rfl) (by rfl) (by rfl) (by decide), by rfl, by rfl, fun st => by rfl⟩

/-- **C52** is false for a union that is decided by a later field: it is packed, but not read. -/
theorem C52_decider_is_false : ReadsOther lateDoc (.obj 70 Option.none [("body", .int 5), ("kind", .int 1)]) (.error .attributeError) :=
  ⟨_, [5, 1], documented (id := [70]) (by rfl) (by rfl) (by rfl) (by decide), by rfl, by rfl, fun st => by rfl⟩

/-- **C52** is false for a union that looks ahead at something else than it is decided by when packed: here another type is read. -/
theorem C52_ahead_is_false : ReadsOther peekDoc (.obj 70 Option.none [("kind", .int 2), ("body", .int 769)])
    (.ok (.obj 70 Option.none [("kind", .int 2), ("body", .int 1)])) :=
  ⟨_, [2, 1, 3], documented (id := [70]) (by rfl) (by rfl) (by rfl) (by decide), by rfl, by rfl, fun st => by rfl⟩

end Verif
