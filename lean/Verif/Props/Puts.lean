import Verif.Proofs.PutRaises
import Verif.Props.Accepts
/-
**C62** Packing any object at all: its bytes, or which exception is raised.
-/
namespace Verif
open Spec Sem Samples

variable {ctx : HintCtx} {M : Nat} {env : Env} {docs : ClassId → Option ClassDoc}

/-- What packing comes to, as a result. -/
def PutsAs (r : Except Err Bytes) : Parsed Bytes → Prop
  | .ok b => r = .ok b
  | .err e => r = .error e
  | .deep | .odd => False

/-- **C62** (partial).  The classes of a program are made by class statements from documented type hints.  Packing whatever it is,
with whatever values in its fields, gives the bytes or raises the exception that the type hints say.  Missing: arrays that share their
serializer with an array inside of them. -/
theorem C62_partial (hd : Describes env ctx M docs) (hall : ∀ c, (env.classes c).isSome = true → (docs c).isSome = true) {v : Val}
    (hc : Calm env v.nodes) {k : Nat} (hk : v.nodes.length < k) :
    ∃ K, ∀ n ≥ K, ∀ st, PutsAs (result (Obj.pack env n v st)) (putObj env.plat docs k v) := by
  obtain ⟨K, hK⟩ := obj_puts hd hall k v
  refine ⟨K, fun n hn st => ?_⟩
  have h1 := objPack_rel (env := env) (pack_rel env n) v st
  have h2 := (hK n hn).2
  cases he : encObj env (enc env n) v with
  | stuck => exact absurd he (encObj_quiet (enc_quiet env n) v hc).1
  | ok r =>
    obtain ⟨⟨b, t⟩, s⟩ := r
    rw [he] at h1 h2
    obtain ⟨⟨b1, x1⟩, s1, h1, p1, _⟩ := h1
    have e1 : Obj.pack env n v st = .ok b1 s1 := by rw [Obj.pack, Verif.M.bind_eq h1]; rfl
    simp only at p1
    rw [e1, p1]
    cases hp : putObj env.plat docs k v with
    | ok b' =>
      rw [hp] at h2
      rcases h2 with h2 | ⟨t, h2⟩ <;> cases h2
      rfl
    | err e =>
      rw [hp] at h2
      rcases h2 with h2 | h2 <;> cases h2
    | deep => exact putObj_deep k hk hp
    | odd => exact putObj_odd k hp
  | err e =>
    rw [he] at h1 h2
    obtain ⟨s1, h1, _⟩ := h1
    have e1 : Obj.pack env n v st = .err e s1 := by simp [Obj.pack, bind, Verif.M.bind, h1]
    rw [e1]
    cases hp : putObj env.plat docs k v with
    | ok b' =>
      rw [hp] at h2
      rcases h2 with h2 | ⟨t, h2⟩ <;> cases h2
    | err e' =>
      rw [hp] at h2
      rcases h2 with h2 | h2 <;> cases h2
      rfl
    | deep => exact putObj_deep k hk hp
    | odd => exact putObj_odd k hp

/-- **C62** (kinds of exceptions).  If what the type hints say about it is an exception, it is `struct.error`, `ValueError`, `TypeError`,
`KeyError`, `AttributeError`, `OverflowError` or `IndexError`, or an encoder, decider or condition raised it. -/
theorem C62_kinds {P : Platform} {k : Nat} {v : Val} {e : Err} (h : putObj P docs k v = .err e) :
    (e = .structError ∨ e = .valueError ∨ e = .typeError ∨ e = .keyError ∨ e = .attributeError ∨ e = .overflowError ∨ e = .indexError) ∨
      ∃ c d f, docs c = some d ∧ f ∈ d.fields ∧ f.PutCalls e :=
  putObj_kinds k h

/-- A tuple with its items, too few of them and too many: the first two types are packed together, so the number in front is not looked at
if the second is missing; the string is packed in any case; further items are dropped, unless all types count them. -/
example (W : ClassId → Val → Parsed Bytes) (o : PObj) :
    let f : Fmt := .tup [.int false .one, .int false .two, .until 0, .tup [.int false .one]]
    f.put plat .default W o (.tup [.int 1, .int 2, .bytes [97], .tup [.int 7]]) = .ok [1, 0, 2, 0, 97, 0, 7] ∧
      f.put plat .default W o (.tup [.int 1, .int 2, .bytes [97], .tup [.int 7], .none]) = .ok [1, 0, 2, 0, 97, 0, 7] ∧
      f.put plat .default W o (.tup [.int 1, .int 2, .bytes [97]]) = .err .typeError ∧
      f.put plat .default W o (.tup [.int 1, .int 2, .int 3]) = .err .typeError ∧
      f.put plat .default W o (.tup [.int 1, .int 2]) = .err .indexError ∧
      f.put plat .default W o (.tup [.int 1]) = .err .structError ∧
      f.put plat .default W o (.tup [.int 1, .int 2, .bytes [97], .tup [.int 7, .int 8]]) = .err .structError :=
  ⟨by rfl, by rfl, by rfl, by rfl, by rfl, by rfl, by rfl⟩

/-- A single type is given all items: strings and arrays take the first, tuples and classes do not take several. -/
example (W : ClassId → Val → Parsed Bytes) (o : PObj) :
    (Fmt.tup [.until 0]).put plat .default W o (.tup [.bytes [97], .none]) = .ok [97, 0] ∧
      (Fmt.tup [.tup [.until 0]]).put plat .default W o (.tup [.tup [.bytes [97]], .none]) = .err .typeError ∧
      (Fmt.tup [.obj 60]).put plat .default W o (.tup []) = .err .typeError :=
  ⟨by rfl, by rfl, by rfl⟩

/-- **C62** (missing attributes).  An object that has not all fields of its class is not packed but `AttributeError` is raised, whatever
the values of the other fields are. -/
theorem C62_missing (hd : Describes env ctx M docs) (hall : ∀ c, (env.classes c).isSome = true → (docs c).isSome = true) {c : ClassId}
    {own : Option ByteOrder} {attrs : List (Name × Val)} {d : ClassDoc} (hdc : docs c = some d) {a : Name} (ha : a ∈ d.attrs)
    (hm : attrs.lookup a = none) (hc : Calm env (Val.obj c own attrs).nodes) :
    ∃ K, ∀ n ≥ K, ∀ st, result (Obj.pack env n (.obj c own attrs) st) = .error .attributeError := by
  obtain ⟨K, hK⟩ := C62_partial hd hall hc (Nat.lt_succ_self _)
  refine ⟨K, fun n hn st => ?_⟩
  have h := hK n hn st
  have hp : pick attrs d.attrs = none := by
    generalize d.attrs = as at ha
    induction as with
    | nil => cases ha
    | cons b as ih =>
      simp only [pick]
      rcases List.mem_cons.1 ha with rfl | ha
      · rw [hm]
      · rw [ih ha]
        split <;> first | rfl | (rename_i h; cases h)
  simpa only [putObj, hdc, hp, PutsAs] using h

/-- **C62** (integers).  A class with integer fields only packs exactly the integers of their ranges; everything else is `struct.error`. -/
theorem C62_integers (hd : Describes env ctx M docs) (hall : ∀ c, (env.classes c).isSome = true → (docs c).isSome = true) {c : ClassId}
    {own : Option ByteOrder} {attrs : List (Name × Val)} {d : ClassDoc} (hdc : docs c = some d)
    (hf : ∀ f ∈ d.fields, ∃ a s w, f = .value a (.int s w) ∧ ∃ v, attrs.lookup a = some v) (hc : Calm env (Val.obj c own attrs).nodes) :
    (∃ K, ∀ n ≥ K, ∀ st, ∃ b, result (Obj.pack env n (.obj c own attrs) st) = .ok b) ∧
        (∀ a s w, Field.value a (.int s w) ∈ d.fields → ∃ v i, attrs.lookup a = some v ∧ number v = some i ∧ InRange s w.bytes i) ∨
      (∃ K, ∀ n ≥ K, ∀ st, result (Obj.pack env n (.obj c own attrs) st) = .error .structError) ∧
        ∃ a s w v, Field.value a (.int s w) ∈ d.fields ∧ attrs.lookup a = some v ∧ ∀ i, number v = some i → ¬ InRange s w.bytes i := by
  obtain ⟨K, hK⟩ := C62_partial hd hall hc (Nat.lt_succ_self _)
  simp only [putObj, hdc] at hK
  obtain ⟨vs, hp⟩ : ∃ vs, pick attrs d.attrs = some vs := by
    have : ∀ fs : List Field, (∀ f ∈ fs, ∃ a s w, f = .value a (.int s w) ∧ ∃ v, attrs.lookup a = some v) →
        ∃ vs, pick attrs ((fs.filter (!·.isPad)).map Field.name) = some vs := by
      intro fs
      induction fs with
      | nil => exact fun _ => ⟨[], rfl⟩
      | cons f fs ih =>
        intro h
        obtain ⟨vs, e⟩ := ih fun g hg => h g (by simp [hg])
        obtain ⟨a, s, w, rfl, v, hv⟩ := h f (by simp)
        refine ⟨v :: vs, ?_⟩
        rw [show List.filter (fun x => !Field.isPad x) (Field.value a (.int s w) :: fs) = .value a (.int s w) :: fs.filter (!·.isPad) from rfl,
          List.map_cons, pick]
        simp only [Field.name, hv, e]
    exact this d.fields hf
  simp only [hp] at hK
  have key : ∀ (fs : List Field) (vs : List Val) (k : Nat) (W : ClassId → Val → Parsed Bytes),
      (∀ f ∈ fs, ∃ a s w, f = .value a (.int s w) ∧ ∃ v, attrs.lookup a = some v) →
      pick attrs ((fs.filter (!·.isPad)).map Field.name) = some vs →
      (∃ b, putFields env.plat (own.getD d.byteOrder) W ⟨c, false, attrs⟩ k fs vs = .ok b) ∧
          (∀ a s w, Field.value a (.int s w) ∈ fs → ∃ v i, attrs.lookup a = some v ∧ number v = some i ∧ InRange s w.bytes i) ∨
        putFields env.plat (own.getD d.byteOrder) W ⟨c, false, attrs⟩ k fs vs = .err .structError ∧
          ∃ a s w v, Field.value a (.int s w) ∈ fs ∧ attrs.lookup a = some v ∧ ∀ i, number v = some i → ¬ InRange s w.bytes i := by
    intro fs
    induction fs with
    | nil => intro vs k W _ h; cases h; exact .inl ⟨⟨[], rfl⟩, nofun⟩
    | cons f fs ih =>
      intro vs k W h hp
      obtain ⟨a, s, w, rfl, v, hv⟩ := h f (by simp)
      rw [show List.filter (fun x => !Field.isPad x) (Field.value a (.int s w) :: fs) = .value a (.int s w) :: fs.filter (!·.isPad) from rfl,
        List.map_cons, pick] at hp
      simp only [Field.name, hv] at hp
      split at hp
      · rename_i _ vs' e1 e2
        cases e1
        cases hp
        simp only [putFields, Fmt.put]
        cases hn : number v with
        | none => exact .inr ⟨rfl, a, s, w, v, by simp, hv, by simp [hn]⟩
        | some i =>
          by_cases hr : InRange s w.bytes i
          · simp only [hr, if_true]
            rcases ih vs' (after (own.getD d.byteOrder) k (Fmt.basic (.int s w))) W (fun g hg => h g (by simp [hg])) e2 with ⟨⟨b, hb⟩, h2⟩ | ⟨hb, a', s', w', v2, h3, h4⟩
            · rw [hb]
              refine .inl ⟨⟨_, rfl⟩, fun a' s' w' hm => ?_⟩
              rcases List.mem_cons.1 hm with hm | hm
              · cases hm; exact ⟨v, i, hv, hn, hr⟩
              · exact h2 a' s' w' hm
            · rw [hb]
              exact .inr ⟨rfl, a', s', w', v2, by simp [h3], h4⟩
          · simp only [hr, if_false]
            exact .inr ⟨rfl, a, s, w, v, by simp, hv, fun j hj => by rw [hn] at hj; cases hj; exact hr⟩
      · cases hp
  rcases key d.fields vs 0 (fun _ => putObj env.plat docs (Val.obj c own attrs).nodes.length) hf hp with ⟨⟨b, hb⟩, h2⟩ | ⟨hb, h2⟩
  · exact .inl ⟨⟨K, fun n hn st => ⟨b, by have := hK n hn st; rw [hb] at this; exact this⟩⟩, h2⟩
  · exact .inr ⟨⟨K, fun n hn st => by have := hK n hn st; rw [hb] at this; exact this⟩, h2⟩

/-- `C62_partial` applies to a program with six classes, and to objects in it that fit and that do not: a number that is too large in an
item of an array, an array that is too short, a node whose kind is no number, a child that is no node, something that is no object. -/
example : Describes shopEnv hctx 4 shopDocs ∧ (∀ v, Calm shopEnv (Val.nodes v)) ∧
    putObj plat shopDocs 9 (wrap nest) = .ok [2, 0, 0, 2, 97, 98, 1, 2, 2, 1, 0, 0, 4, 3, 0, 3, 0, 0, 2, 1, 3, 1, 99, 0, 7] ∧
    putObj plat shopDocs 9 shopLe = .ok [1, 0, 0, 0, 0, 0, 0, 0xF0, 0x3F, 1, 6, 0, 2, 1, 3, 2, 97, 98, 104, 0, 105, 0, 1, 0, 254, 255] ∧
    putObj plat shopDocs 9 (.obj 61 Option.none [("kind", .int (-1)), ("ratio", .float 0), ("items", .list [item 65536 3 [97]]), ("motto", .bytes []),
      ("at", .list [.int 1])]) = .err .structError ∧
    putObj plat shopDocs 9 (.obj 61 Option.none [("kind", .int (-1)), ("ratio", .float 0), ("items", .list [item 65535 3 [97]]), ("motto", .bytes []),
      ("at", .list [.int 1])]) = .err .valueError ∧
    putObj plat shopDocs 9 (.obj 61 Option.none [("kind", .int (-1)), ("ratio", .float 0), ("items", .list [item 65535 3 [97]]), ("motto", .str [97]),
      ("at", .list [.int 1])]) = .err .typeError ∧
    putObj plat shopDocs 9 (node 2 (.bytes [97, 98]) 513 [.int 5]) = .err .attributeError ∧
    putObj plat shopDocs 9 (.int 5) = .err .attributeError :=
  ⟨shop_describes, fun v => calm_of_plain shop_plain v.nodes, by rfl, by rfl, by rfl, by rfl, by rfl, by rfl, by rfl⟩

/-- And packing does just that. -/
example : ∀ st, result (Obj.pack shopEnv 12 (.obj 61 Option.none [("kind", .int (-1)), ("ratio", .float 0), ("items", .list [item 65536 3 [97]]),
      ("motto", .bytes []), ("at", .list [.int 1])]) st) = .error .structError ∧
    result (Obj.pack shopEnv 12 (node 2 (.bytes [97, 98]) 513 [.int 5]) st) = .error .attributeError :=
  fun st => ⟨by rfl, by rfl⟩

/-- `C62_missing` applies: an item without a name, whose number would not fit either. -/
example : ∃ K, ∀ n ≥ K, ∀ st, result (Obj.pack shopEnv n (.obj 60 Option.none [("id", .int 65536), ("level", .int 1)]) st) = .error .attributeError :=
  C62_missing shop_describes shop_all (d := itemDoc) rfl (a := "name") (by decide) rfl (calm_of_plain shop_plain _)

/-- `C62_integers` applies to a class with two fields. -/
example : ∃ K, ∀ n ≥ K, ∀ st, result (Obj.pack shopEnv n (.obj 66 Option.none [("kind", .int 256), ("size", .int 9)]) st) = .error .structError := by
  rcases C62_integers shop_describes shop_all (c := 66) (own := Option.none) (attrs := [("kind", .int 256), ("size", .int 9)]) (d := infoDoc) rfl
    (fun f hf => by
      simp only [infoDoc, List.mem_cons, List.not_mem_nil, or_false] at hf
      rcases hf with rfl | rfl
      · exact ⟨"kind", _, _, rfl, _, rfl⟩
      · exact ⟨"size", _, _, rfl, _, rfl⟩) (calm_of_plain shop_plain _) with ⟨_, h⟩ | ⟨h, _⟩
  · obtain ⟨v, i, h1, h2, h3⟩ := h "kind" false .one (by simp [infoDoc])
    cases h1
    cases h2
    exact absurd h3 (by decide)
  · exact h

/-- **C36** (documented classes).  An object of a documented class that has all its fields can be given any byte order. -/
theorem C36_documented (hd : Describes env ctx M docs) {c : ClassId} {d : ClassDoc} (hdc : docs c = some d) {ci : ClassInfo}
    (hc : env.classes c = some ci) (hpi : ∀ as, ci.postInit as = .ok as) {cur : Option ByteOrder} {as : List (Name × Val)}
    (ha : ∀ a ∈ d.attrs, (as.lookup a).isSome = true) (bo : ByteOrder) : ∃ q, Obj.withByteOrder env bo (.obj c cur as) = .ok q := by
  obtain ⟨hg, o, ho, hdo⟩ := hd c d hdc
  rw [hc] at ho
  cases ho
  obtain ⟨hat, _⟩ := documented_own hdo hg
  obtain ⟨ser, hobj, ss, his, hm, _, hsh⟩ := documented_ser (own := cur) hc hdo hg
  simp only [Obj.withByteOrder, hobj, bind, Except.bind]
  split
  · exact ⟨_, rfl⟩
  · have hg' := hg
    simp only [ClassDoc.sound, Bool.and_eq_true, List.all_eq_true] at hg'
    obtain ⟨s', hs⟩ := shape_any (merge_any hm (fields_any hg'.1.1 his)) hsh bo
    obtain ⟨vs, hp⟩ : ∃ vs, pick as d.attrs = some vs := by
      generalize d.attrs = names at ha
      induction names with
      | nil => exact ⟨[], rfl⟩
      | cons a names ih =>
        obtain ⟨vs, e⟩ := ih fun b hb => ha b (by simp [hb])
        obtain ⟨v, hv⟩ := Option.isSome_iff_exists.1 (ha a (by simp))
        exact ⟨v :: vs, by simp only [pick, hv, e]⟩
    have hl : vs.length = o.info.attrs.length := by rw [hat, pick_count hp]
    simp only [hs, hat, pick_getAttrs hp, callClass, hl, hpi, bind, Except.bind]
    rw [if_neg (by simp)]
    exact ⟨_, rfl⟩

/-- It applies to a shop with a byte order of its own. -/
example : ∃ q, Obj.withByteOrder shopEnv .be shopLe = .ok q :=
  C36_documented shop_describes (d := shopDoc) rfl rfl (fun _ => rfl) (by decide) .be

/-! ### Where values that fit are not packed -/

/-- A class with documented fields is made.  An object with these values is not packed: an exception is raised. -/
def Refuses (d : ClassDoc) (vs : List Val) (e : Err) : Prop :=
  ∃ o, Documented hctx 4 d o ∧
    ∀ st, result (Obj.pack ⟨plat, fun c => if c = 70 then some o.info else Option.none⟩ 8 (.obj 70 Option.none (d.attrs.zip vs)) st) = .error e

/-- **C62** is false for strings with a length: the empty one, of length 0, is not packed. -/
theorem C62_empty_is_false : Refuses ⟨.default, [.value "a" (.counted .one), .value "b" (.int false .one)]⟩ [.bytes [], .int 1] .structError :=
  ⟨madeBy [70] (stmt ⟨.default, [.value "a" (.counted .one), .value "b" (.int false .one)]⟩), documented rfl (by rfl) (by rfl) (by decide), fun st => by rfl⟩

/-- **C62** is false for strings with a length in a class with a byte order: none is packed. -/
theorem C62_order_is_false : Refuses ⟨.be, [.value "a" (.counted .two), .value "b" (.int false .one)]⟩ [.bytes [104, 105], .int 1] .valueError :=
  ⟨madeBy [70] (stmt ⟨.be, [.value "a" (.counted .two), .value "b" (.int false .one)]⟩), documented rfl (by rfl) (by rfl) (by decide), fun st => by rfl⟩

/-- **C62** is false for .NET strings: the empty one is not packed. -/
theorem C62_net_is_false : Refuses ⟨.default, [.value "a" .net, .value "b" (.int false .one)]⟩ [.bytes [], .int 1] .structError :=
  ⟨madeBy [70] (stmt ⟨.default, [.value "a" .net, .value "b" (.int false .one)]⟩), documented rfl (by rfl) (by rfl) (by decide), fun st => by rfl⟩

/-- **C62** is false for tuples: what happens if there are too few or too many items depends on how the types of the tuple are grouped into
serializers.  Too many are `struct.error` where all types are basic and are dropped elsewhere. -/
theorem C62_tuple_is_false : Refuses ⟨.default, [.value "a" (.tup [.int false .one, .int false .one])]⟩ [.tup [.int 1, .int 2, .int 3]] .structError ∧
    TakesOther ⟨.default, [.value "a" (.tup [.until 0, .int false .one])]⟩ [.tup [.bytes [97], .int 2, .int 3]] [97, 0, 2] :=
  ⟨⟨madeBy [70] (stmt ⟨.default, [.value "a" (.tup [.int false .one, .int false .one])]⟩), documented rfl (by rfl) (by rfl) (by decide), fun st => by rfl⟩,
    takesOther (documented rfl (by rfl) (by rfl) (by decide)) (fun _ => by rfl) (fun st => by rfl)⟩

end Verif
