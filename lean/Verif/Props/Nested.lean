import Verif.Proofs.ChoiceLemmas
import Verif.Props.Values
import Verif.Props.Packing
/-
C25 (nested Structured fields), and the parts of C26 (self-referential classes) that are false.
-/
namespace Verif
open Spec Samples

/-! ## C25 -/

/-- Storing the size of the nested object changes neither the result nor the buffer nor the stream. -/
theorem nested_size {α β : Type} {id : SerId} {m : M (α × Ser)} {g : α → β} {st : St}
    (hs : ∀ a ser st', m st = .ok (a, ser) st' → HasSize ser) :
    SameOutcome ((m >>= fun x => x.2.readSize >>= fun z => setSize id z >>= fun _ => pure (g x.1)) st)
      ((m >>= fun x => pure (g x.1)) st) := by
  simp only [bind, M.bind]
  cases h : m st with
  | err e s => exact ⟨rfl, rfl, rfl⟩
  | ok x s =>
    obtain ⟨z, hz⟩ := readSize_hasSize (hs x.1 x.2 s h) s
    simp only [hz]
    exact ⟨rfl, rfl, rfl⟩

theorem nested_size_unit {id : SerId} {m : M Ser} {st : St} (hs : ∀ ser st', m st = .ok ser st' → HasSize ser) :
    SameOutcome ((m >>= fun x => x.readSize >>= fun z => setSize id z) st) ((m >>= fun _ => pure ()) st) := by
  simp only [bind, M.bind]
  cases h : m st with
  | err e s => exact ⟨rfl, rfl, rfl⟩
  | ok x s =>
    obtain ⟨z, hz⟩ := readSize_hasSize (hs x s h) s
    simp only [hz]
    exact ⟨rfl, rfl, rfl⟩

theorem objPack_ser {env : Env} {f : Ser → List Val → M Bytes} {cls : ClassId} {bo : Option ByteOrder} {attrs : List (Name × Val)}
    {st st' : St} {b : Bytes} {ser : Ser} (h : objPack env f (.obj cls bo attrs) st = .ok (b, ser) st') :
    ∃ ci, objSer env cls bo = .ok (ci, ser) := by
  simp only [objPack] at h
  obtain ⟨⟨ci, s⟩, s1, h1, h⟩ := M.bind_ok h
  obtain ⟨_, s2, _, h⟩ := M.bind_ok h
  obtain ⟨_, s3, _, h⟩ := M.bind_ok h
  obtain ⟨_, s4, _, h⟩ := M.bind_ok h
  cases h
  refine ⟨ci, ?_⟩
  simp only [M.lift] at h1
  split at h1
  · rename_i h2; cases h1; exact h2
  · cases h1

theorem objPackInto_ser {env : Env} {f : Ser → Nat → List Val → M Unit} {off : Nat} {cls : ClassId} {bo : Option ByteOrder}
    {attrs : List (Name × Val)} {st st' : St} {ser : Ser} (h : objPackInto env f off (.obj cls bo attrs) st = .ok ser st') :
    ∃ ci, objSer env cls bo = .ok (ci, ser) := by
  simp only [objPackInto] at h
  obtain ⟨⟨ci, s⟩, s1, h1, h⟩ := M.bind_ok h
  obtain ⟨_, s2, _, h⟩ := M.bind_ok h
  obtain ⟨_, s3, _, h⟩ := M.bind_ok h
  obtain ⟨_, s4, _, h⟩ := M.bind_ok h
  cases h
  refine ⟨ci, ?_⟩
  simp only [M.lift] at h1
  split at h1
  · rename_i h2; cases h1; exact h2
  · cases h1

theorem objPackWrite_ser {env : Env} {f : Ser → List Val → M Unit} {cls : ClassId} {bo : Option ByteOrder}
    {attrs : List (Name × Val)} {st st' : St} {ser : Ser} (h : objPackWrite env f (.obj cls bo attrs) st = .ok ser st') :
    ∃ ci, objSer env cls bo = .ok (ci, ser) := by
  simp only [objPackWrite] at h
  obtain ⟨⟨ci, s⟩, s1, h1, h⟩ := M.bind_ok h
  obtain ⟨_, s2, _, h⟩ := M.bind_ok h
  obtain ⟨_, s3, _, h⟩ := M.bind_ok h
  obtain ⟨_, s4, _, h⟩ := M.bind_ok h
  cases h
  refine ⟨ci, ?_⟩
  simp only [M.lift] at h1
  split at h1
  · rename_i h2; cases h1; exact h2
  · cases h1

/-- **C25** (packing).  What a packing method of a nested field does is what the value's own method of that name does. -/
theorem C25_pack (env : Env) (n : Nat) (id : SerId) (c cls : ClassId) (bo : Option ByteOrder) (attrs : List (Name × Val))
    (hs : ∀ ci ser, objSer env cls bo = .ok (ci, ser) → HasSize ser) (off : Nat) (st : St) :
    SameOutcome (pack env (n + 1) (.structured id c) [.obj cls bo attrs] st) (Obj.pack env n (.obj cls bo attrs) st) ∧
    SameOutcome (packInto env (n + 1) (.structured id c) off [.obj cls bo attrs] st)
      (Obj.packInto env n off (.obj cls bo attrs) st) ∧
    SameOutcome (packWrite env (n + 1) (.structured id c) [.obj cls bo attrs] st)
      (Obj.packWrite env n (.obj cls bo attrs) st) := by
  refine ⟨?_, ?_, ?_⟩
  · refine nested_size (id := id) (g := fun b => b) (m := objPack env (pack env n) (.obj cls bo attrs)) ?_
    intro b ser st' h
    obtain ⟨ci, hc⟩ := objPack_ser h
    exact hs ci ser hc
  · refine nested_size_unit (id := id) (m := objPackInto env (packInto env n) off (.obj cls bo attrs)) ?_
    intro ser st' h
    obtain ⟨ci, hc⟩ := objPackInto_ser h
    exact hs ci ser hc
  · refine nested_size_unit (id := id) (m := objPackWrite env (packWrite env n) (.obj cls bo attrs)) ?_
    intro ser st' h
    obtain ⟨ci, hc⟩ := objPackWrite_ser h
    exact hs ci ser hc

/-- **C25** (unpacking).  A nested field is unpacked by the inner class's `create_unpack` (`create_unpack_from`,
`create_unpack_read`) at that position. -/
theorem C25_unpack (env : Env) (n : Nat) (id : SerId) (c : ClassId) (hs : ∀ ci, env.classes c = some ci → HasSize ci.serializer)
    (upd : Upd) (src : Src) (st : St) :
    SameOutcome (unpack env (n + 1) upd (.structured id c) src st) ((createUnpack env n c src >>= fun v => pure [v]) st) := by
  have := nested_size (id := id) (g := fun v : Val => [v]) (m := createUnpackWith env (unpack env n) c src) (st := st) (by
    intro v ser st' h
    unfold createUnpackWith at h
    cases hc : env.classes c with
    | none => simp only [hc] at h; cases h
    | some ci =>
      simp only [hc] at h
      obtain ⟨_, _, _, h⟩ := M.bind_ok h
      obtain ⟨_, _, _, h⟩ := M.bind_ok h
      obtain ⟨_, _, _, h⟩ := M.bind_ok h
      cases h
      exact hs ci hc)
  have h2 : (createUnpack env n c src >>= fun v => pure [v]) st =
      (createUnpackWith env (unpack env n) c src >>= fun x => pure [x.1]) st := by
    simp only [createUnpack, bind, M.bind]
    cases createUnpackWith env (unpack env n) c src st <;> rfl
  rw [h2]
  exact this

/-- **C25** (own byte order).  The byte order of the outer class or instance does not reach the inner class. -/
theorem C25_byte_order (bo : ByteOrder) (id : SerId) (c : ClassId) :
    (Ser.structured id c).withByteOrder bo = .ok (.structured id c) := by
  simp [Ser.withByteOrder]

/-- A successful loop puts the parts' bytes in order: those of `s` stand behind those of `pre` and in front of those of
`post`, and `s` gets the values behind those of `pre`. -/
theorem packLoop_split {f : Ser → List Val → M Bytes} {pr : Ser → M Ser} {s : Ser} {post : List Ser} :
    ∀ {pre : List Ser} {vs : List Val} {st st' : St} {r : Bytes × Nat},
      (∀ x ∈ pre, ∀ x' st st', pr x st = .ok x' st' → x'.numValues = x.numValues) →
      packLoop f pr (pre ++ s :: post) vs st = .ok r st' →
      ∃ b1 b2 s' b st1 st2 st3, r.1 = b1 ++ b ++ b2 ∧ pr s st1 = .ok s' st2 ∧
        f s' ((vs.drop (Ser.numValuesList pre)).take s'.numValues) st2 = .ok b st3
  | [], vs, st, st', r, _, h => by
    rw [List.nil_append, packLoop] at h
    obtain ⟨s', t1, h1, h⟩ := M.bind_ok h
    obtain ⟨b, t2, h2, h⟩ := M.bind_ok h
    obtain ⟨z, t3, h3, h⟩ := M.bind_ok h
    obtain ⟨q, t4, h4, h⟩ := M.bind_ok h
    cases h
    exact ⟨[], q.1, s', b, _, _, _, rfl, h1, h2⟩
  | x :: pre, vs, st, st', r, hp, h => by
    rw [List.cons_append, packLoop] at h
    obtain ⟨x', t1, h1, h⟩ := M.bind_ok h
    obtain ⟨c, t2, h2, h⟩ := M.bind_ok h
    obtain ⟨z, t3, h3, h⟩ := M.bind_ok h
    obtain ⟨q, t4, h4, h⟩ := M.bind_ok h
    cases h
    obtain ⟨b1, b2, s', b, st1, st2, st3, e1, e3, e4⟩ :=
      packLoop_split (fun y hy => hp y (List.mem_cons_of_mem _ hy)) h4
    refine ⟨c ++ b1, b2, s', b, st1, st2, st3, ?_, e3, ?_⟩
    · show c ++ q.1 = _
      rw [e1]; simp
    · rw [List.drop_drop, hp x List.mem_cons_self _ _ _ h1] at e4
      exact e4

theorem countedList_mem {b : Bool} : ∀ {ss : List Ser}, CountedList b ss → ∀ s ∈ ss, Counted b s
  | [], _, s, hs => by simp at hs
  | t :: ts, h, s, hs => by
    simp only [CountedList] at h
    rcases List.mem_cons.1 hs with rfl | hs
    · exact h.1
    · exact countedList_mem h.2 s hs

/-- **C25** (position).  When an object with a nested field packs, the bytes of the nested object, as its own `pack()`
returns them, stand between those of the fields in front of it and those of the fields behind it. -/
theorem C25_in_class (env : Env) (n : Nat) (oid id : SerId) (p : PObj) (c : ClassId) (pre post : List Ser) (vs : List Val) (v : Val)
    (hc : CountedList true pre) (hv : vs[Ser.numValuesList pre]? = some v) (st st' : St) (b : Bytes)
    (h : packGiven env (n + 2) (.compound oid (pre ++ .structured id c :: post)) p vs st = .ok b st') :
    ∃ b1 b2 inner st1 st2, b = b1 ++ inner ++ b2 ∧ Obj.pack env n v st1 = .ok inner st2 := by
  have fin : ∀ {pr : Ser → M Ser} {r : Bytes × Nat} {st st' : St},
      (∀ x ∈ pre, ∀ x' st st', pr x st = .ok x' st' → x'.numValues = x.numValues) →
      (∀ st, pr (.structured id c) st = .ok (.structured id c) st) →
      packLoop (pack env (n + 1)) pr (pre ++ .structured id c :: post) vs st = .ok r st' →
      ∃ b1 b2 inner st1 st2, r.1 = b1 ++ inner ++ b2 ∧ Obj.pack env n v st1 = .ok inner st2 := by
    intro pr r st st' h1 h2 h
    obtain ⟨b1, b2, s', b, st1, st2, st3, e1, e2, e3⟩ := packLoop_split h1 h
    rw [h2] at e2
    cases e2
    have : (vs.drop (Ser.numValuesList pre)).take (Ser.structured id c).numValues = [v] := by
      simp only [Ser.numValues]
      rw [List.take_one, List.head?_drop, hv]
      rfl
    rw [this] at e3
    simp only [pack] at e3
    obtain ⟨x, t1, h3, h4⟩ := M.bind_ok e3
    obtain ⟨z, t2, _, h4⟩ := M.bind_ok h4
    obtain ⟨_, t3, _, h4⟩ := M.bind_ok h4
    cases h4
    refine ⟨b1, b2, x.1, st1, t1, e1, ?_⟩
    unfold Obj.pack
    rw [M.bind_eq h3]
    rfl
  unfold packGiven at h
  simp only [Ser.prepack] at h
  obtain ⟨s', t0, h0, h⟩ := M.bind_ok h
  cases h0
  split at h
  · rw [pack] at h
    simp only at h
    obtain ⟨r, t1, h1, h⟩ := M.bind_ok h
    obtain ⟨_, t2, _, h⟩ := M.bind_ok h
    cases h
    refine fin (pr := fun s => s.prepack p) ?_ (fun _ => rfl) h1
    intro x hx x' st st' h
    exact (counted_prepack (countedList_mem hc x hx) h).2
  · rw [pack] at h
    simp only at h
    obtain ⟨r, t1, h1, h⟩ := M.bind_ok h
    obtain ⟨_, t2, _, h⟩ := M.bind_ok h
    cases h
    refine fin ?_ (fun _ => rfl) h1
    intro x hx x' st st' h
    cases h
    rfl

/-- A big-endian class with a `Point` between two numbers; `Point` stays little-endian. -/
example :
    let s : Ser := .compound [7] [.struct ⟨">H".toList, none⟩, .structured [12] 0, .struct ⟨">H".toList, none⟩]
    result (packGiven Samples.env 4 s ⟨9, false, []⟩ [.int 1, point 2 3, .int 4] st0) = .ok [0, 1, 2, 0, 3, 0, 4] ∧
    result (Obj.pack Samples.env 2 (point 2 3) st0) = .ok [2, 0, 3] ∧
    result (unpackGiven Samples.env 4 s ⟨9, true, []⟩ (.buf [0, 1, 2, 0, 3, 0, 4]) st0) = .ok [.int 1, point 2 3, .int 4] ∧
    Ser.numValuesList [.struct ⟨">H".toList, none⟩] = 1 ∧ HasSize (.struct ⟨"<Hb".toList, none⟩) :=
  ⟨by rfl, by rfl, by rfl, by rfl, trivial⟩

/-- **C25 is false in full.**  A class whose only field has a `Condition` cannot be nested: its serializer has no `size`. -/
theorem C25_full_is_false :
    result (Obj.pack Samples.env 4 (opt (.int 5)) st0) = .ok [] ∧
    result (pack Samples.env 5 (.structured [7] 4) [opt (.int 5)] st0) = .error .attributeError ∧
    result (createUnpack Samples.env 4 4 (.buf []) st0) = .ok (opt (.int 7)) ∧
    result (unpack Samples.env 5 noUpd (.structured [7] 4) (.buf []) st0) = .error .attributeError :=
  ⟨by rfl, by rfl, by rfl, by rfl⟩

/-! ## C26: what does not work -/

/-- `Self` can only be unpacked into a new object: on an existing instance every unpacking method raises
`AttributeError`. -/
theorem C26_instance_self (id : SerId) (cls : ClassId) (attrs : List (Name × Val)) (st : St) :
    (Ser.selfT id).preunpack ⟨cls, false, attrs⟩ st = .err .attributeError st := by
  simp only [Ser.preunpack, clsOfPartial]
  cases getAttr? attrs "cls" <;> rfl

/-- **C26 is false in full** (instance methods).  A leaf of `Tree` is unpacked by `Tree.create_unpack` but not by
`unpack`, `unpack_from` or `unpack_read` of an instance. -/
theorem C26_instance_unpack_is_false :
    result (createUnpack Samples.env 4 2 (.buf [7, 0]) st0) = .ok (tree 7 []) ∧
    result (Obj.unpack Samples.env 4 (tree 1 []) (.buf [7, 0]) st0) = .error .attributeError ∧
    result (Obj.unpack Samples.env 4 (tree 1 []) (.at [7, 0] 0) st0) = .error .attributeError ∧
    result (Obj.unpack Samples.env 4 (tree 1 []) .io { st0 with io := ⟨[7, 0], 0⟩ }) = .error .attributeError :=
  ⟨by rfl, by rfl, by rfl, by rfl⟩

/-- Two linked lists, with `kind` deciding whether the next element follows: as `Self`, and as `tuple[Self]`. -/
def selfClasses : ClassId → Option ClassInfo
  | 0 => some
    { attrs := ["kind", "next"], byteOrder := .default
      serializer := .compound [1] [.struct u8, .lookback [2] kindOf [.int 0, .int 1] [.struct u8, .selfT [3]] .null] }
  | 1 => some
    { attrs := ["kind", "next"], byteOrder := .default
      serializer := .compound [4] [.struct u8, .lookback [5] kindOf [.int 0, .int 1] [.struct u8, .tuple [6] (.selfT [7])] .null] }
  | _ => none

def selfEnv : Env := ⟨plat, selfClasses⟩

/-- **C26 is false in full** (`tuple[Self]`).  With `Self` in a tuple the size of the tuple cannot be found; with `Self`
directly in the union all is well. -/
theorem C26_tuple_is_false :
    let link (c : ClassId) (k : Int) (next : Val) : Val := .obj c none [("kind", .int k), ("next", next)]
    result (Obj.pack selfEnv 9 (link 0 1 (link 0 0 (.int 5))) st0) = .ok [1, 0, 5] ∧
    result (createUnpack selfEnv 9 0 (.buf [1, 0, 5]) st0) = .ok (link 0 1 (link 0 0 (.int 5))) ∧
    result (Obj.pack selfEnv 9 (link 1 1 (.tup [link 1 0 (.int 5)])) st0) = .error .attributeError ∧
    result (createUnpack selfEnv 9 1 (.buf [1, 0, 5]) st0) = .error .attributeError :=
  ⟨by rfl, by rfl, by rfl, by rfl⟩

/-- A tree whose nodes have nodes (`kind` 1) or numbers (`kind` 0) as children, decided by a `LookbackDecider` on the items. -/
def nodeEnv : Env := ⟨plat, fun c => if c = 0 then some
  { attrs := ["kind", "items"], byteOrder := .default
    serializer := .compound [1] [.struct u8, .array [2] (some u8) (.lookback [3] kindOf [.int 0, .int 1] [.struct u8, .selfT [4]] .null) (-1)] }
  else Option.none⟩

def node (k : Int) (items : List Val) : Val := .obj 0 Option.none [("kind", .int k), ("items", .list items)]

/-- **C21, C26 are false in full** (unions as array items).  The union is told its object once, before the first item
(`arrays.py:111`).  The first item, being a node itself, tells it another one; so the second item is decided by the first
one's `kind`.  One child is packed and read back; two are not packed, and their bytes are read as a node and a number. -/
theorem C21_items_is_false :
    result (Obj.pack nodeEnv 9 (node 1 [node 0 [.int 5]]) st0) = .ok [1, 1, 0, 1, 5] ∧
    result (createUnpack nodeEnv 9 0 (.buf [1, 1, 0, 1, 5]) st0) = .ok (node 1 [node 0 [.int 5]]) ∧
    result (Obj.pack nodeEnv 9 (node 0 [.int 6]) st0) = .ok [0, 1, 6] ∧
    result (Obj.pack nodeEnv 9 (node 1 [node 0 [.int 5], node 0 [.int 6]]) st0) = .error .structError ∧
    result (createUnpack nodeEnv 9 0 (.buf [1, 2, 0, 1, 5, 0, 1, 6]) st0) = .ok (node 1 [node 0 [.int 5], .int 0]) :=
  ⟨by rfl, by rfl, by rfl, by rfl, by rfl⟩

end Verif
