import Verif.Proofs.AnyOrder
import Verif.Props.Format
/-
**C61** What packing accepts: whatever can be packed has, in every field, a value that the field can hold.
-/
namespace Verif
open Spec Sem Samples

variable {ctx : HintCtx} {M : Nat} {env : Env} {docs : ClassId → Option ClassDoc}

/-- **C61** (partial).  The classes of a program are made by class statements from documented type hints.  Whatever can be packed,
in the byte order of its class or in its own one, is an object of one of these classes that has all the fields, with values that
the fields can hold; and the bytes are those of these values one after the other.  Missing, and false: that the values are of the
types of the fields (see the negations below). -/
theorem C61_partial (hd : Describes env ctx M docs) (hall : ∀ c, (env.classes c).isSome = true → (docs c).isSome = true) {n : Nat} {v : Val}
    {st : St} {b : Bytes} (h : result (Obj.pack env n v st) = .ok b) (hc : Calm env v.nodes) (c : ClassId) :
    storeObj false env.plat docs (n + 1) c v = some b := by
  cases hr : Obj.pack env n v st with
  | err => rw [hr] at h; cases h
  | ok b' st' =>
  rw [hr] at h
  cases h
  obtain ⟨t, s, he⟩ := pack_enc hr hc
  exact obj_inv hd hall n n (Nat.le_refl n) v b t s he c

/-- **C61** (and that is accepted).  Every object whose fields hold such values is packed, to these bytes, if tuples are as long as their
types. -/
theorem C61_accepts (hd : Describes env ctx M docs) {k : Nat} {c : ClassId} {v : Val} {b : Bytes}
    (hw : storeObj true env.plat docs k c v = some b) (hc : Calm env v.nodes) :
    ∃ K, ∀ n ≥ K, ∀ st, result (Obj.pack env n v st) = .ok b := by
  obtain ⟨K, hK⟩ := obj_stores hd k c v b hw
  refine ⟨K, fun n hn st => ?_⟩
  have h1 := objPack_rel (env := env) (pack_rel env n) v st
  rcases (hK n hn).2 with h2 | ⟨t, s, h2⟩
  · exact absurd h2 (encObj_quiet (enc_quiet env n) v hc).1
  · rw [h2] at h1
    obtain ⟨⟨b1, x1⟩, s1, h1, p1, _⟩ := h1
    have e1 : Obj.pack env n v st = .ok b1 s1 := by rw [Obj.pack, Verif.M.bind_eq h1]; rfl
    simp only at p1
    rw [e1, p1]; rfl

/-- **C61** (fields).  So each field that is always written has a value that it can hold, whose bytes are there. -/
theorem C61_field (hd : Describes env ctx M docs) (hall : ∀ c, (env.classes c).isSome = true → (docs c).isSome = true) {n : Nat} {c : ClassId}
    {own : Option ByteOrder} {attrs : List (Name × Val)} {st : St} {b : Bytes} (h : result (Obj.pack env n (.obj c own attrs) st) = .ok b)
    (hc : Calm env (Val.obj c own attrs).nodes) :
    ∃ d, docs c = some d ∧ ∀ a f, Field.value a f ∈ d.fields → ∃ v b', attrs.lookup a = some v ∧
      f.store false env.plat (own.getD d.byteOrder) (storeObj false env.plat docs n) ⟨c, false, attrs⟩ v = some b' ∧ ∃ x y, b = x ++ b' ++ y := by
  have h := C61_partial hd hall h hc c
  simp only [storeObj] at h
  split at h
  · rename_i d hdc
    split at h
    · rename_i vs hp
      exact ⟨d, hdc, fun a f hm => stored_fields h hp a f hm⟩
    · cases h
  · cases h

/-- **C61** (integers).  An integer field holds an integer of its range (or `True` or `False`), in the byte order of the object. -/
theorem C61_integer (hd : Describes env ctx M docs) (hall : ∀ c, (env.classes c).isSome = true → (docs c).isSome = true) {n : Nat} {c : ClassId}
    {own : Option ByteOrder} {attrs : List (Name × Val)} {st : St} {b : Bytes} (h : result (Obj.pack env n (.obj c own attrs) st) = .ok b)
    (hc : Calm env (Val.obj c own attrs).nodes) :
    ∃ d, docs c = some d ∧ ∀ a s w, Field.value a (.int s w) ∈ d.fields → ∃ v i, attrs.lookup a = some v ∧ number v = some i ∧
      InRange s w.bytes i ∧ ∃ x y, b = x ++ intBytes env.plat (own.getD d.byteOrder) w.bytes i ++ y := by
  obtain ⟨d, hdc, hf⟩ := C61_field hd hall h hc
  refine ⟨d, hdc, fun a s w hm => ?_⟩
  obtain ⟨v, b', h1, h2, x, y, rfl⟩ := hf a (.int s w) hm
  simp only [Fmt.store] at h2
  split at h2
  · rename_i i hi
    split at h2
    · rename_i hr
      cases h2
      exact ⟨v, i, h1, hi, hr, x, y, rfl⟩
    · cases h2
  · cases h2

end Verif

namespace Verif.Samples
open Spec

theorem shop_describes : Describes shopEnv hctx 4 shopDocs := by
  intro c d h
  match c with
  | 60 => cases h; exact ⟨by rfl, _, rfl, itemDocumented⟩
  | 61 => cases h; exact ⟨by rfl, _, rfl, shopDocumented⟩
  | 62 => cases h; exact ⟨by rfl, _, rfl, pairDocumented⟩
  | 63 | 64 => cases h
  | 65 => cases h; exact ⟨by rfl, _, rfl, nodeDocumented⟩
  | 66 => cases h; exact ⟨by rfl, _, rfl, infoDocumented⟩
  | 67 => cases h; exact ⟨by rfl, _, rfl, wrapDocumented⟩
  | c' + 68 => cases h

theorem shop_all (c : ClassId) (h : (shopEnv.classes c).isSome = true) : (shopDocs c).isSome = true := by
  match c with
  | 60 | 61 | 62 | 65 | 66 | 67 => rfl
  | 63 | 64 => cases h
  | c' + 68 => cases h

/-- `shop` in its own byte order. -/
def shopLe : Val := .obj 61 (some .le) [("kind", .bool true), ("ratio", .float 0x3FF0000000000000),
  ("items", .tup [item 258 3 [97, 98]]), ("motto", .bytes [104, 0, 105]), ("at", .tup [.int 1, .int (-2)])]

end Verif.Samples

namespace Verif
open Spec Sem Samples

/-- `C61_partial` applies to a program with six classes: records in records, unions, conditions. -/
example : result (Obj.pack shopEnv 12 (wrap nest) st0) = .ok [2, 0, 0, 2, 97, 98, 1, 2, 2, 1, 0, 0, 4, 3, 0, 3, 0, 0, 2, 1, 3, 1, 99, 0, 7] ∧
    Calm shopEnv (wrap nest).nodes ∧
    storeObj false plat shopDocs 13 67 (wrap nest) = some [2, 0, 0, 2, 97, 98, 1, 2, 2, 1, 0, 0, 4, 3, 0, 3, 0, 0, 2, 1, 3, 1, 99, 0, 7] :=
  have h : result (Obj.pack shopEnv 12 (wrap nest) st0) = _ := by rfl
  ⟨h, calm_of_plain shop_plain _, C61_partial shop_describes shop_all h (calm_of_plain shop_plain _) 67⟩

/-- And to an object with a byte order of its own and values of other types. -/
example : result (Obj.pack shopEnv 12 shopLe st0) = .ok
      [1, 0, 0, 0, 0, 0, 0, 0xF0, 0x3F, 1, 6, 0, 2, 1, 3, 2, 97, 98, 104, 0, 105, 0, 1, 0, 254, 255] ∧
    storeObj false plat shopDocs 13 61 shopLe = some
      [1, 0, 0, 0, 0, 0, 0, 0xF0, 0x3F, 1, 6, 0, 2, 1, 3, 2, 97, 98, 104, 0, 105, 0, 1, 0, 254, 255] :=
  have h : result (Obj.pack shopEnv 12 shopLe st0) = _ := by rfl
  ⟨h, C61_partial shop_describes shop_all h (calm_of_plain shop_plain _) 61⟩

/-- `C61_accepts` applies to values of other types, and to an object in place of one of another class. -/
example : Calm shopEnv (Val.obj 62 Option.none [("both", .list [.bool true, .bytes [65, 66, 67, 68], info]), ("rest", .bytes [])]).nodes ∧
    storeObj true plat shopDocs 3 62 (.obj 62 Option.none [("both", .list [.bool true, .bytes [65, 66, 67, 68], info]), ("rest", .bytes [])]) =
      some [1, 0, 65, 66, 67, 8, 9] :=
  ⟨calm_of_plain shop_plain _, by rfl⟩

/-- And to an object with a byte order of its own. -/
example : ∃ K, ∀ n ≥ K, ∀ st, result (Obj.pack shopEnv n shopLe st) = .ok
      [1, 0, 0, 0, 0, 0, 0, 0xF0, 0x3F, 1, 6, 0, 2, 1, 3, 2, 97, 98, 104, 0, 105, 0, 1, 0, 254, 255] :=
  C61_accepts shop_describes (k := 13) (c := 61) (by rfl) (calm_of_plain shop_plain _)

/-! ### Where it is false -/

/-- A class with documented fields is made.  With these values there are no documented bytes, but an object is packed as `b`. -/
def TakesOther (d : ClassDoc) (vs : List Val) (b : Bytes) : Prop :=
  ∃ o, Documented hctx 4 d o ∧ (∀ k, writeObj plat (fun c => if c = 70 then some d else Option.none) k 70 (.obj 70 Option.none (d.attrs.zip vs)) = Option.none) ∧
    ∀ st, result (Obj.pack ⟨plat, fun c => if c = 70 then some o.info else Option.none⟩ 8 (.obj 70 Option.none (d.attrs.zip vs)) st) = .ok b

theorem takesOther {d : ClassDoc} {vs : List Val} {b : Bytes} (hd : Documented hctx 4 d (madeBy [70] (stmt d)))
    (hw : ∀ k, writeObj plat (fun c => if c = 70 then some d else Option.none) (k + 1) 70 (.obj 70 Option.none (d.attrs.zip vs)) = Option.none)
    (hr : ∀ st, result (Obj.pack ⟨plat, fun c => if c = 70 then some (madeBy [70] (stmt d)).info else Option.none⟩ 8
      (.obj 70 Option.none (d.attrs.zip vs)) st) = .ok b) : TakesOther d vs b :=
  ⟨_, hd, fun k => by cases k with
    | zero => rfl
    | succ k => exact hw k, hr⟩

/-- **C61** is false for strings of a fixed size: what is too long is cut off without an error. -/
theorem C61_cut_is_false : TakesOther ⟨.default, [.value "a" (.chars 2)]⟩ [.bytes [97, 98, 99]] [97, 98] :=
  takesOther (documented rfl (by rfl) (by rfl) (by decide)) (fun _ => by rfl) (fun st => by rfl)

/-- **C61** is false for terminated strings: one that contains the terminator is taken. -/
theorem C61_terminator_is_false : TakesOther ⟨.default, [.value "a" (.until 0), .value "b" (.int false .one)]⟩
    [.bytes [97, 0, 98], .int 7] [97, 0, 98, 0, 7] :=
  takesOther (documented rfl (by rfl) (by rfl) (by decide)) (fun _ => by rfl) (fun st => by rfl)

/-- **C61** is false for tuples of several parts: further items are dropped. -/
theorem C61_extra_is_false : TakesOther ⟨.default, [.value "a" (.tup [.until 0, .int false .one])]⟩
    [.tup [.bytes [97], .int 7, .int 8, .int 9]] [97, 0, 7] :=
  takesOther (documented rfl (by rfl) (by rfl) (by decide)) (fun _ => by rfl) (fun st => by rfl)

/-- **C61** is false for booleans: anything is taken, also what is no boolean. -/
theorem C61_truth_is_false : TakesOther ⟨.default, [.value "a" .bool, .value "b" .bool]⟩ [.list [.int 0], .str []] [1, 0] :=
  takesOther (documented rfl (by rfl) (by rfl) (by decide)) (fun _ => by rfl) (fun st => by rfl)

/-- **C61** is false for arrays: a byte string is taken for an array of numbers. -/
theorem C61_items_is_false : TakesOther ⟨.default, [.value "a" (.fixed 2 (.int false .two))]⟩ [.bytes [1, 2]] [1, 0, 2, 0] :=
  takesOther (documented rfl (by rfl) (by rfl) (by decide)) (fun _ => by rfl) (fun st => by rfl)

/-- **C61** is false for fields of another class: an object of whatever class is packed in its own format. -/
theorem C61_class_is_false : (∀ k, writeObj plat shopDocs k 62 (.obj 62 Option.none [("both", .tup [.int 772, .bytes [65], info]), ("rest", .bytes [])]) = Option.none) ∧
    ∀ st, result (Obj.pack shopEnv 8 (.obj 62 Option.none [("both", .tup [.int 772, .bytes [65], info]), ("rest", .bytes [])]) st) =
      .ok [4, 3, 65, 0, 0, 8, 9] :=
  ⟨fun k => by
    match k with
    | 0 => rfl
    | 1 => rfl
    | k + 2 => rfl, fun st => by rfl⟩

end Verif
