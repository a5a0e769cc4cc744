import Verif.Proofs.FormatClass
/-
**C52** Type hints mean what the documentation says: the bytes of an object, from the class statements on.
-/
namespace Verif
open Spec Sem Samples

variable {ctx : HintCtx} {N : Nat} {env : Env}

/-- **C52** (packing, partial).  The classes of a program are made by class statements from documented type hints; then the bytes
of an object are the documented ones, however deeply classes, arrays and tuples are nested, including the zeros that align
numbers.  Missing, and false: the formats that `Fmt.good` excludes (see the negations below). -/
theorem C52_pack_partial {docs : ClassId → Option ClassDoc} (hd : Documents env ctx N docs) {k : Nat} {c : ClassId} {v : Val} {b : Bytes}
    (hw : writeObj env.plat docs k c v = some b) (hc : Calm env v.nodes) :
    ∃ K, ∀ n ≥ K, ∀ st, result (Obj.pack env n v st) = .ok b := by
  obtain ⟨K, hK⟩ := obj_writes hd k c v b hw
  refine ⟨K, fun n hn st => ?_⟩
  have h1 := objPack_rel (env := env) (pack_rel env n) v st
  rcases (hK n hn).2 with h2 | ⟨t, s, h2⟩
  · exact absurd h2 (encObj_quiet (enc_quiet env n) v hc).1
  · rw [h2] at h1
    obtain ⟨⟨b1, x1⟩, s1, h1, p1, _⟩ := h1
    have e1 : Obj.pack env n v st = .ok b1 s1 := by rw [Obj.pack, M.bind_eq h1]; rfl
    simp only at p1
    rw [e1, p1]; rfl

end Verif

namespace Verif.Samples
open Spec

/-- What one writes for a format. -/
def written (f : Fmt) : Hint := match f.hint hctx 4 with
  | .ok h => h
  | .error _ => .noneT

/-- The class made by a statement. -/
def madeBy (id : SerId) (d : ClassDecl) : ClassObj := match createClass hctx 4 id world0 d with
  | .ok o => o
  | .error _ => ⟨[], [], [], ⟨[], .null, .default, .ok⟩⟩

/-- `class Item(Structured): id: uint16; level: uint8; name: char[uint8]` -/
def itemDoc : ClassDoc := ⟨.default, [.value "id" (.int false .two), .value "level" (.int false .one), .value "name" (.counted .one)]⟩
def itemDecl : ClassDecl :=
  { bases := [.structured], anns := [("id", uint16H), ("level", uint8H), ("name", written (.counted .one))] }

/-- `class Shop(Structured, byte_order=NETWORK): kind: int8; ratio: float64; items: array[Header[uint8, uint16], Item];
motto: char[b'\0']; at: array[Header[2], int16]` -/
def shopDoc : ClassDoc := ⟨.network, [.value "kind" (.int true .one), .value "ratio" .double, .value "items" (.sized .one .two (.obj 60)),
  .value "motto" (.until 0), .value "at" (.fixed 2 (.int true .two))]⟩
def shopDecl : ClassDecl :=
  { bases := [.structured], byteOrder := .network
    anns := [("kind", int8H), ("ratio", basicHint "float" 'd'), ("items", written (.sized .one .two (.obj 60))),
      ("motto", written (.until 0)), ("at", written (.fixed 2 (.int true .two)))] }

/-- `class Pair(Structured): both: tuple[uint16, char[3], Shop]; rest: char[math.inf]` -/
def pairDoc : ClassDoc := ⟨.default, [.value "both" (.tup [.int false .two, .chars 3, .obj 61]), .value "rest" .rest]⟩
def pairDecl : ClassDecl :=
  { bases := [.structured], anns := [("both", written (.tup [.int false .two, .chars 3, .obj 61])), ("rest", written .rest)] }

/-- `lambda obj: obj.kind` -/
def byKind : Decider := fun o => match getAttr? o.attrs "kind" with
  | some v => .ok v
  | none => .error .attributeError
/-- `lambda obj: obj.kind == 2` -/
def isTwo : Decider := fun o => match getAttr? o.attrs "kind" with
  | some (.int i) => .ok (.bool (i == 2))
  | some _ => .ok (.bool false)
  | none => .error .attributeError

/-- `Annotated[Union[...], LookbackDecider(lambda obj: obj.kind, {1: uint16, 2: char[uint8]}, Item)]` -/
def bodyFmt : Fmt := .choice [80] [uint16H, written (.counted .one), .cls 60] Option.none byKind [.int 1, .int 2] [.int false .two, .counted .one] [.obj 60]

/-- `class Node(Structured): kind: uint8; _: pad[2]; body: Annotated[Union[...], LookbackDecider(...)];
more: Annotated[uint16, Condition(lambda obj: obj.kind == 2, 9)]; kids: array[Header[uint8], Self]` -/
def nodeDoc : ClassDoc := ⟨.default, [.value "kind" (.int false .one), .pad "0_pad_" 2, .value "body" bodyFmt, .when "more" isTwo (.int false .two) (.int 9),
  .value "kids" (.list .one .me)]⟩

/-- What one writes for a field. -/
def writtenField (f : Field) : Hint := match f.hint hctx 4 with
  | .ok h => h
  | .error _ => .noneT

/-- The statement that declares these fields; `_` becomes `0_pad_`. -/
def stmt (d : ClassDoc) : ClassDecl :=
  { bases := [.structured], byteOrder := d.byteOrder, anns := d.fields.map fun f => (if f.name = "0_pad_" then "_" else f.name, writtenField f) }

/-- `lambda obj: obj.what.kind` -/
def kindInside : Decider := fun o => match getAttr? o.attrs "what" with
  | some (.obj _ _ attrs) => match getAttr? attrs "kind" with
    | some v => .ok v
    | none => .error .attributeError
  | _ => .error .attributeError

/-- `class Wrap(Structured): what: Annotated[Union[...], LookaheadDecider(uint8, lambda obj: obj.what.kind, {1: Node, 2: Node}, Info)];
tail: uint8` with `class Info(Structured): kind: uint8; size: uint8`. -/
def infoDoc : ClassDoc := ⟨.default, [.value "kind" (.int false .one), .value "size" (.int false .one)]⟩
def wrapDoc : ClassDoc := ⟨.default, [.value "what" (.choice [81] [.cls 65, .cls 66] (some (.int false .one)) kindInside [.int 1, .int 2] [.obj 65, .obj 65] [.obj 66]),
  .value "tail" (.int false .one)]⟩

def shopDocs : ClassId → Option ClassDoc
  | 60 => some itemDoc
  | 61 => some shopDoc
  | 62 => some pairDoc
  | 65 => some nodeDoc
  | 66 => some infoDoc
  | 67 => some wrapDoc
  | _ => Option.none

def shopEnv : Env := ⟨plat, fun
  | 60 => some (madeBy [60] itemDecl).info
  | 61 => some (madeBy [61] shopDecl).info
  | 62 => some (madeBy [62] pairDecl).info
  | 65 => some (madeBy [65] (stmt nodeDoc)).info
  | 66 => some (madeBy [66] (stmt infoDoc)).info
  | 67 => some (madeBy [67] (stmt wrapDoc)).info
  | _ => Option.none⟩

theorem each {α β : Type} {l : List α} {f g : α → β} (h : l.map f = l.map g) : ∀ x ∈ l, f x = g x := List.map_inj_left.1 h

theorem noSelf {fs : List Field} (h : "self" ∉ fs.map Field.name) : ∀ f ∈ fs, f.name ≠ "self" :=
  fun _ hf e => h (e ▸ List.mem_map_of_mem hf)

theorem itemDocumented : Documented hctx 4 itemDoc (madeBy [60] itemDecl) where
  names := by rfl
  hints := each (by rfl)
  self := noSelf (by decide)
  calls := nofun
  made := ⟨4, [60], world0, itemDecl, rfl, rfl⟩

theorem shopDocumented : Documented hctx 4 shopDoc (madeBy [61] shopDecl) where
  names := by rfl
  hints := each (by rfl)
  self := noSelf (by decide)
  calls := nofun
  made := ⟨4, [61], world0, shopDecl, rfl, rfl⟩

theorem pairDocumented : Documented hctx 4 pairDoc (madeBy [62] pairDecl) where
  names := by rfl
  hints := each (by rfl)
  self := noSelf (by decide)
  calls := nofun
  made := ⟨4, [62], world0, pairDecl, rfl, rfl⟩

theorem nodeDocumented : Documented hctx 4 nodeDoc (madeBy [65] (stmt nodeDoc)) where
  names := by rfl
  hints := each (by rfl)
  self := noSelf (by decide)
  calls := nofun
  made := ⟨4, [65], world0, stmt nodeDoc, rfl, rfl⟩

theorem infoDocumented : Documented hctx 4 infoDoc (madeBy [66] (stmt infoDoc)) where
  names := by rfl
  hints := each (by rfl)
  self := noSelf (by decide)
  calls := nofun
  made := ⟨4, [66], world0, stmt infoDoc, rfl, rfl⟩

theorem wrapDocumented : Documented hctx 4 wrapDoc (madeBy [67] (stmt wrapDoc)) where
  names := by rfl
  hints := each (by rfl)
  self := noSelf (by decide)
  calls := nofun
  made := ⟨4, [67], world0, stmt wrapDoc, rfl, rfl⟩

theorem shop_documents : Documents shopEnv hctx 4 shopDocs := by
  intro c d h
  match c with
  | 60 => cases h; exact ⟨by rfl, _, rfl, itemDocumented⟩
  | 61 => cases h; exact ⟨by rfl, _, rfl, shopDocumented⟩
  | 62 => cases h; exact ⟨by rfl, _, rfl, pairDocumented⟩
  | 63 | 64 => cases h
  | 65 => cases h; exact ⟨by rfl, _, rfl, nodeDocumented⟩
  | 66 => cases h; exact ⟨by rfl, _, rfl, infoDocumented⟩
  | 67 => cases h; exact ⟨by rfl, _, rfl, wrapDocumented⟩
  | c' + 68 => cases h

theorem shop_plain : Plain shopEnv := by
  intro c bo ci ser h
  match c with
  | 60 => cases bo with
    | none => cases h; exact ⟨rfl, rfl⟩
    | some b => cases b <;> cases h <;> exact ⟨rfl, rfl⟩
  | 61 => cases bo with
    | none => cases h; exact ⟨rfl, rfl⟩
    | some b => cases b <;> cases h <;> exact ⟨rfl, rfl⟩
  | 62 => cases bo with
    | none => cases h; exact ⟨rfl, rfl⟩
    | some b => cases b <;> cases h <;> exact ⟨rfl, rfl⟩
  | 63 | 64 => cases h
  | 65 => cases bo with
    | none => cases h; exact ⟨rfl, rfl⟩
    | some b => cases b <;> cases h <;> exact ⟨rfl, rfl⟩
  | 66 => cases bo with
    | none => cases h; exact ⟨rfl, rfl⟩
    | some b => cases b <;> cases h <;> exact ⟨rfl, rfl⟩
  | 67 => cases bo with
    | none => cases h; exact ⟨rfl, rfl⟩
    | some b => cases b <;> cases h <;> exact ⟨rfl, rfl⟩
  | c' + 68 => cases h

def item (i l : Int) (name : Bytes) : Val := .obj 60 Option.none [("id", .int i), ("level", .int l), ("name", .bytes name)]
def shop : Val := .obj 61 Option.none [("kind", .int (-1)), ("ratio", .float 0x3FF0000000000000),
  ("items", .list [item 258 3 [97, 98], item 1 2 [99]]), ("motto", .bytes [104, 105]), ("at", .list [.int 1, .int (-2)])]
def pair : Val := .obj 62 Option.none [("both", .tup [.int 772, .bytes [65], shop]), ("rest", .bytes [7, 8, 9])]

def node (k : Int) (body : Val) (more : Int) (kids : List Val) : Val :=
  .obj 65 Option.none [("kind", .int k), ("body", body), ("more", .int more), ("kids", .list kids)]
def nest : Val := node 2 (.bytes [97, 98]) 513 [node 1 (.int 772) 9 [], node 3 (item 258 3 [99]) 9 []]
def wrap (v : Val) : Val := .obj 67 Option.none [("what", v), ("tail", .int 7)]
def info : Val := .obj 66 Option.none [("kind", .int 8), ("size", .int 9)]

end Verif.Samples

namespace Verif
open Spec Sem Samples

/-- `C52_pack_partial` applies to a program with three classes. -/
example : Documents shopEnv hctx 4 shopDocs ∧ Calm shopEnv pair.nodes ∧
    writeObj plat shopDocs 3 62 pair = some
      [4, 3, 65, 0, 0, 255, 0x3F, 0xF0, 0, 0, 0, 0, 0, 0, 2, 0, 11, 2, 1, 3, 2, 97, 98, 1, 0, 2, 1, 99, 104, 105, 0, 0, 1, 255, 254, 7, 8, 9] :=
  ⟨shop_documents, calm_of_plain shop_plain _, by rfl⟩

/-- And to pads, conditions, unions (by what came before and by what comes next) and `Self`. -/
example : Calm shopEnv (wrap nest).nodes ∧ writeObj plat shopDocs 5 67 (wrap nest) = some
      [2, 0, 0, 2, 97, 98, 1, 2, 2, 1, 0, 0, 4, 3, 0, 3, 0, 0, 2, 1, 3, 1, 99, 0, 7] ∧
    writeObj plat shopDocs 5 67 (wrap info) = some [8, 9, 7] :=
  ⟨calm_of_plain shop_plain _, by rfl, by rfl⟩

/-- `class Row(Structured): a: uint8; b: uint32; name: char[uint8]; c: uint8; _: pad[2]; d: uint16;
at: tuple[uint8, int16]; cells: array[Header[uint8, uint16], char[uint8]]` -/
def rowDoc : ClassDoc := ⟨.default, [.value "a" (.int false .one), .value "b" (.int false .four), .value "name" (.counted .one),
  .value "c" (.int false .one), .pad "0_pad_" 2, .value "d" (.int false .two), .value "at" (.tup [.int false .one, .int true .two]),
  .value "cells" (.sized .one .two (.counted .one))]⟩
def rowEnv : Env := ⟨plat, fun c => if c = 70 then some (madeBy [70] (stmt rowDoc)).info else Option.none⟩
def row : Val := .obj 70 Option.none [("a", .int 1), ("b", .int 2), ("name", .bytes [97]), ("c", .int 3), ("d", .int 4),
  ("at", .tup [.int 7, .int (-2)]), ("cells", .list [.bytes [5], .bytes [6, 7]])]

theorem row_documents : Documents rowEnv hctx 4 (fun c => if c = 70 then some rowDoc else Option.none) := by
  intro c d h
  simp only at h
  split at h
  · rename_i e
    cases h
    exact ⟨by rfl, madeBy [70] (stmt rowDoc), by simp [rowEnv, e], by rfl, each (by rfl), noSelf (by decide), nofun, 4, [70], world0, stmt rowDoc, rfl, rfl⟩
  · cases h

theorem row_plain : Plain rowEnv := by
  intro c bo ci ser h
  by_cases e : c = 70
  · subst e
    cases bo with
    | none => cases h; exact ⟨rfl, rfl⟩
    | some b => cases b <;> cases h <;> exact ⟨rfl, rfl⟩
  · simp [objSer, rowEnv, e] at h

/-- It says where the zeros are that align numbers: in each run of basic fields by itself, and between the two numbers in front of
an array. -/
example : Documents rowEnv hctx 4 (fun c => if c = 70 then some rowDoc else Option.none) ∧ Calm rowEnv row.nodes ∧
    writeObj plat (fun c => if c = 70 then some rowDoc else Option.none) 1 70 row = some
      [1, 0, 0, 0, 2, 0, 0, 0, 1, 97, 3, 0, 0, 0, 4, 0, 7, 0, 254, 255, 2, 0, 5, 0, 1, 5, 2, 6, 7] :=
  ⟨row_documents, calm_of_plain row_plain _, by rfl⟩

/-! ### Where it is false -/

/-- A class with documented fields is made, but an object with these values is packed as `r`, not as the documented bytes. -/
def Differs (d : ClassDoc) (vs : List Val) (b : Bytes) (r : Except Err Bytes) : Prop :=
  ∃ o, Documented hctx 4 d o ∧ writeObj plat (fun c => if c = 70 then some d else Option.none) 2 70 (.obj 70 Option.none (d.attrs.zip vs)) = some b ∧
    (∀ st, result (Obj.pack ⟨plat, fun c => if c = 70 then some o.info else Option.none⟩ 8 (.obj 70 Option.none (d.attrs.zip vs)) st) = r) ∧
    r ≠ .ok b

theorem differs {d : ClassDoc} {vs : List Val} {b : Bytes} {r : Except Err Bytes}
    (hm : createClass hctx 4 [70] world0 (stmt d) = .ok (madeBy [70] (stmt d)))
    (hn : (firsts ((madeBy [70] (stmt d)).decls.map (·.1))).filter (fun a => !unserialized (evalHint (lastDecl (madeBy [70] (stmt d)).decls a))) =
      d.fields.map Field.name)
    (hh : d.fields.map (fun f => f.hint hctx 4) = d.fields.map (fun f => .ok (evalHint (lastDecl (madeBy [70] (stmt d)).decls f.name))))
    (hs : "self" ∉ d.fields.map Field.name)
    (hw : writeObj plat (fun c => if c = 70 then some d else Option.none) 2 70 (.obj 70 Option.none (d.attrs.zip vs)) = some b)
    (hr : ∀ st, result (Obj.pack ⟨plat, fun c => if c = 70 then some (madeBy [70] (stmt d)).info else Option.none⟩ 8
      (.obj 70 Option.none (d.attrs.zip vs)) st) = r)
    (hne : r ≠ .ok b) (hc : d.fields.flatMap Field.calls = [] := by rfl) : Differs d vs b r :=
  ⟨_, ⟨hn, each hh, noSelf hs, by rw [hc]; nofun, 4, [70], world0, stmt d, hm, rfl⟩, hw, hr, hne⟩

/-- **C52** is false for strings with a length in an explicit byte order: `ValueError`. -/
theorem C52_counted_is_false : Differs ⟨.network, [.value "a" (.counted .two)]⟩
    [.bytes [104, 105]] [0, 2, 104, 105] (.error .valueError) :=
  differs rfl (by rfl) (by rfl) (by decide) (by rfl) (fun st => by rfl) (by simp)

/-- **C52** is false for arrays of basic types with a length, next to another field. -/
theorem C52_list_is_false : Differs ⟨.default, [.value "a" (.list .one (.int false .one)), .value "b" (.int false .one)]⟩
    [.list [.int 5, .int 6], .int 7] [2, 5, 6, 7] (.error .indexError) :=
  differs rfl (by rfl) (by rfl) (by decide) (by rfl) (fun st => by rfl) (by simp)

/-- **C52** is false for tuples in an explicit byte order: their items are written in the order of the host. -/
theorem C52_tuple_is_false : Differs ⟨.be, [.value "a" (.tup [.int false .two])]⟩
    [.tup [.int 1]] [0, 1] (.ok [1, 0]) :=
  differs rfl (by rfl) (by rfl) (by decide) (by rfl) (fun st => by rfl) (by simp)

/-- **C52** is false for arrays of fixed-size items with a size of the items: the size is not written. -/
theorem C52_sized_is_false : Differs ⟨.default, [.value "a" (.sized .one .one (.int false .one))]⟩
    [.list [.int 5, .int 6]] [2, 2, 5, 6] (.ok [2, 5, 6]) :=
  differs rfl (by rfl) (by rfl) (by decide) (by rfl) (fun st => by rfl) (by simp)

/-- **C52** is false for unions in an explicit byte order: the value is written in the order of the host. -/
theorem C52_union_is_false : Differs ⟨.be, [.value "kind" (.int false .one), .value "a" (.choice [80] [uint16H] Option.none byKind [.int 1] [.int false .two] [])]⟩
    [.int 1, .int 772] [1, 3, 4] (.ok [1, 4, 3]) :=
  differs rfl (by rfl) (by rfl) (by decide) (by rfl) (fun st => by rfl) (by simp)

/-- **C52** is false for a condition on `Self`: `NotImplementedError`. -/
theorem C52_self_is_false : Differs ⟨.default, [.value "kind" (.int false .one), .when "a" isTwo .me .none]⟩
    [.int 2, .obj 70 Option.none [("kind", .int 1), ("a", .none)]] [2, 1] (.error .notImplementedError) :=
  differs rfl (by rfl) (by rfl) (by decide) (by rfl) (fun st => by rfl) (by simp)

/-- **C52** is false for a tuple of one `Self`, which has no size: `AttributeError`. -/
theorem C52_tuple_of_self_is_false : Differs ⟨.default, [.value "kind" (.int false .one), .value "a" (.choice [80] [uint8H] Option.none byKind [.int 1] [.tup [.me]] [.int false .one])]⟩
    [.int 1, .tup [.obj 70 Option.none [("kind", .int 2), ("a", .int 5)]]] [1, 2, 5] (.error .attributeError) :=
  differs rfl (by rfl) (by rfl) (by decide) (by rfl) (fun st => by rfl) (by simp)

theorem documented {id : SerId} {d : ClassDoc} (hm : createClass hctx 4 id world0 (stmt d) = .ok (madeBy id (stmt d)))
    (hn : (firsts ((madeBy id (stmt d)).decls.map (·.1))).filter (fun a => !unserialized (evalHint (lastDecl (madeBy id (stmt d)).decls a))) =
      d.fields.map Field.name)
    (hh : d.fields.map (fun f => f.hint hctx 4) = d.fields.map (fun f => .ok (evalHint (lastDecl (madeBy id (stmt d)).decls f.name))))
    (hs : "self" ∉ d.fields.map Field.name) (hc : d.fields.flatMap Field.calls = [] := by rfl) : Documented hctx 4 d (madeBy id (stmt d)) :=
  ⟨hn, each hh, noSelf hs, by rw [hc]; nofun, 4, id, world0, stmt d, hm, rfl⟩

def condTuple : ClassDoc := ⟨.default, [.value "kind" (.int false .one), .when "a" isTwo (.tup [.int false .two]) .none]⟩
def onlyCond : ClassDoc := ⟨.default, [.when "kind" isTwo (.int false .one) (.int 3)]⟩
def holder : ClassDoc := ⟨.default, [.value "a" (.obj 71), .value "b" (.int false .one)]⟩

/-- **C52** is false for a condition on a tuple (or an array of records, or a union), which is never told the object: packing it
for the first time is an `AttributeError`. -/
theorem C52_condition_is_false : ∃ (d : ClassDoc) (o : ClassObj) (v : Val) (b : Bytes), Documented hctx 4 d o ∧
    writeObj plat (fun c => if c = 70 then some d else Option.none) 2 70 v = some b ∧
    result (Obj.pack ⟨plat, fun c => if c = 70 then some o.info else Option.none⟩ 6 v Samples.st0) = .error .attributeError :=
  ⟨condTuple, _, .obj 70 Option.none [("kind", .int 2), ("a", .tup [.int 772])], [2, 4, 3],
    documented (id := [70]) (by rfl) (by rfl) (by rfl) (by decide), by rfl, by rfl⟩

/-- **C52** is false for an object whose class has a condition for its only field: it cannot be packed inside another one. -/
theorem C52_only_condition_is_false : ∃ (d d' : ClassDoc) (o o' : ClassObj) (v : Val) (b : Bytes), Documented hctx 4 d o ∧ Documented hctx 4 d' o' ∧
    writeObj plat (fun c => if c = 70 then some d else if c = 71 then some d' else Option.none) 2 70 v = some b ∧
    ∀ st, result (Obj.pack ⟨plat, fun c => if c = 70 then some o.info else if c = 71 then some o'.info else Option.none⟩ 6 v st) =
      .error .attributeError :=
  ⟨holder, onlyCond, _, _, .obj 70 Option.none [("a", .obj 71 Option.none [("kind", .int 2)]), ("b", .int 5)], [2, 5],
    documented (id := [70]) (by rfl) (by rfl) (by rfl) (by decide), documented (id := [71]) (by rfl) (by rfl) (by rfl) (by decide), by rfl,
    fun st => by rfl⟩

end Verif
