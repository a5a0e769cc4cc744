import Verif.Proofs.LastWins
import Verif.Proofs.InstanceLemmas
import Verif.Proofs.HostOps
import Verif.Instances
import Verif.Samples
/-
C12: byte order of a class's fields.  C36: `with_byte_order`.
-/
namespace Verif
open Samples

/-! ### Fields of a class -/

/-- **C12** (partial).  `with_byte_order(bo)`, by which `__init_subclass__` makes the serializer of a class, gives every number
of several bytes the byte order `bo`, except those inside a text encoding, a tuple or a union and the length marker of `NET`
strings (`deaf`), which keep theirs.  That the exceptions do not follow is false to the statement: see
`C12_unicode_is_false`, `C12_tuple_is_false`, `C12_union_is_false`, `C12_net_is_false`. -/
theorem C12_with_byte_order_partial (s s' : Ser) (bo : ByteOrder) (hf : s.FormatsOk) (h : s.withByteOrder bo = .ok s') :
    (∀ b ∈ s'.orders, b = bo ∨ b ∈ s.deaf) ∧ ∀ b ∈ s.deaf, b ∈ s'.orders :=
  ⟨(wbo_orders bo s s' hf h).1, (wbo_orders bo s s' hf h).2.1⟩

/-- `id: uint32`, `items: array[Header[uint16, uint16], int16]`, `name: char[uint8]` -/
def plainFields : Ser := .compound [1] [.struct ⟨['I'], none⟩, .array [2] (some ⟨"2H".toList, none⟩) (.struct ⟨['h'], none⟩) (-1), .dynChar [3] u8]

example : plainFields.FormatsOk ∧ plainFields.deaf = [] ∧ plainFields.orders = [.default, .default, .default] ∧
    ∃ s, plainFields.withByteOrder .be = .ok s ∧ s.orders = [.be, .be, .be] := by
  refine ⟨?_, by rfl, by rfl, _, rfl, by rfl⟩
  intro x hx
  simp only [plainFields, Ser.structs, Ser.structsList, Option.toList, List.append_nil, List.cons_append, List.nil_append, List.mem_cons,
    List.not_mem_nil, or_false] at hx
  rcases hx with rfl | rfl | rfl | rfl <;> rfl

/-- **C12** (no dependence on the machine).  If every number of several bytes in the serializers of an object and of the objects
inside it has a fixed byte order (`<`, `>` or `!`), packing gives the same bytes, or the same exception, on machines of either
byte order. -/
theorem C12_host_independent (env : Env) (le : Bool) (n : Nat) (v : Val) (hp : PortableNodes env v.nodes) :
    Obj.pack (env.onHost le) n v = Obj.pack env n v := by
  unfold Obj.pack
  rw [objPack_host (pack_host n) v hp]

/-- The same for `pack_write`: the same data in the stream, also when it fails. -/
theorem C12_host_independent_write (env : Env) (le : Bool) (n : Nat) (v : Val) (hp : PortableNodes env v.nodes) :
    Obj.packWrite (env.onHost le) n v = Obj.packWrite env n v := by
  unfold Obj.packWrite
  rw [objPackWrite_host (packWrite_host n) v hp]

/-- The same for `pack_into`: the same bytes in the buffer, also when it fails. -/
theorem C12_host_independent_into (env : Env) (le : Bool) (n : Nat) (off : Nat) (v : Val) (hp : PortableNodes env v.nodes) :
    Obj.packInto (env.onHost le) n off v = Obj.packInto env n off v := by
  unfold Obj.packInto
  rw [objPackInto_host (packInto_host n) v hp]

/-- The same for reading: if the classes of the program have fixed byte orders, `create_unpack`, `create_unpack_from` and
`create_unpack_read` give the same object, or the same exception, from the same data on either machine. -/
theorem C12_host_independent_read (env : Env) (le : Bool) (n : Nat) (cls : ClassId) (src : Src)
    (he : ∀ c ci, env.classes c = some ci → ci.serializer.Portable) :
    createUnpack (env.onHost le) n cls src = createUnpack env n cls src := by
  unfold createUnpack
  rw [createUnpackWith_host he (unpack_host he n)]

/-- The same for reading into an object, in the byte order the object has. -/
theorem C12_host_independent_read_into (env : Env) (le : Bool) (n : Nat) (cls : ClassId) (bo : Option ByteOrder)
    (attrs : List (Name × Val)) (src : Src) (he : ∀ c ci, env.classes c = some ci → ci.serializer.Portable)
    (hv : ∀ ci ser, objSer env cls bo = .ok (ci, ser) → ser.Portable) :
    Obj.unpack (env.onHost le) n (.obj cls bo attrs) src = Obj.unpack env n (.obj cls bo attrs) src := by
  simp only [Obj.unpack]
  rw [show objSer (env.onHost le) cls bo = objSer env cls bo from rfl]
  refine M.bind_then fun q _ _ h1 => M.bind_then fun s _ _ h2 => ?_
  have e := unpack_host (le := le) he n (assignVals q.1.attrs) s src (preunpack_portable h2 (hv q.1 q.2 (M.lift_ok h1).1))
  simp only [e]

example : PortableNodes env (msg 1 [104] [point 1 2]).nodes := by
  intro c bo attrs ci ser hm h
  simp only [msg, point, Val.nodes, Val.nodesAttrs, Val.nodesList, List.append_nil, List.nil_append, List.mem_cons, List.not_mem_nil,
    or_false, Prod.mk.injEq] at hm
  rcases hm with ⟨rfl, rfl, rfl⟩ | ⟨rfl, rfl, rfl⟩ <;> cases h <;> intro b hb
  · have : b ∈ ([] : List ByteOrder) := hb
    simp at this
  · have : b ∈ [ByteOrder.le] := hb
    exact .inl (by simpa using this)
example : result (Obj.pack (env.onHost false) 9 (msg 1 [104] [point 1 2]) st0) = .ok [1, 1, 104, 1, 1, 0, 2] := by rfl
/-- The point of `Samples`, alone in a program. -/
def pointEnv : Env := ⟨plat, fun | 0 => env.classes 0 | _ => Option.none⟩

example : ∀ c ci, pointEnv.classes c = some ci → ci.serializer.Portable := by
  intro c ci h
  match c with
  | 0 =>
    cases h
    intro b hb
    have : b ∈ [ByteOrder.le] := hb
    exact .inl (by simpa using this)
  | _ + 1 => cases h
example : result (createUnpack (pointEnv.onHost false) 9 0 (.buf [1, 2, 255]) st0) = .ok (point 513 (-1)) := by rfl
example : result (Obj.unpack (pointEnv.onHost false) 9 (.obj 0 (some .be) [("x", .int 0), ("y", .int 0)]) (.buf [1, 2, 255]) st0) =
    .ok (.obj 0 (some .be) [("x", .int 258), ("y", .int (-1))]) := by rfl
-- a native number does depend on the machine
example : result (Obj.pack ⟨plat, fun _ => some ⟨["x"], .struct ⟨['H'], none⟩, .default, .ok⟩⟩ 9 (.obj 0 none [("x", .int 1)]) st0) = .ok [1, 0] ∧
    result (Obj.pack (Env.onHost ⟨plat, fun _ => some ⟨["x"], .struct ⟨['H'], none⟩, .default, .ok⟩⟩ false) 9 (.obj 0 none [("x", .int 1)]) st0) = .ok [0, 1] :=
  ⟨by rfl, by rfl⟩

/-- A class with one attribute. -/
def oneField (s : Ser) (bo : ByteOrder) : Env := ⟨plat, fun _ => some { attrs := ["x"], serializer := s, byteOrder := bo }⟩

/-- **C12** is false for tuples: in a big-endian class `x: tuple[uint16, uint8]` is packed in the native byte order. -/
theorem C12_tuple_is_false : ∃ s', (Ser.tuple [1] (.struct ⟨"HB".toList, none⟩)).withByteOrder .be = .ok s' ∧
    result (Obj.pack (oneField s' .be) 9 (.obj 0 none [("x", .tup [.int 1, .int 2])]) st0) = .ok [1, 0, 2] := ⟨_, rfl, by rfl⟩

/-- **C12** is false for text: in a big-endian class the length of `x: unicode[uint16]` is packed in the native byte order. -/
theorem C12_unicode_is_false : ∃ s', (Ser.unicode (.dynChar [1] ⟨['H'], none⟩) (fun _ => .ok [104, 105]) (fun _ => .ok [])).withByteOrder .be = .ok s' ∧
    result (Obj.pack (oneField s' .be) 9 (.obj 0 none [("x", .str [104, 105])]) st0) = .ok [2, 0, 104, 105] := ⟨_, rfl, by rfl⟩

/-- **C12** is false for unions. -/
theorem C12_union_is_false : ∃ s', (Ser.lookback [1] (fun _ => .ok (.int 0)) [.int 0] [.struct ⟨['H'], none⟩] .null).withByteOrder .be = .ok s' ∧
    result (Obj.pack (oneField s' .be) 9 (.obj 0 none [("x", .int 1)]) st0) = .ok [1, 0] := ⟨_, rfl, by rfl⟩

set_option maxRecDepth 20000 in
/-- **C12** is false for the two-byte length of a `NET` string: a big-endian class has it in the native byte order. -/
theorem C12_net_is_false : ∃ s', (Ser.net [1]).withByteOrder .be = .ok s' ∧
    (result (Obj.pack (oneField s' .be) 9 (.obj 0 none [("x", .bytes (List.replicate 128 0))]) st0)).map (List.take 2) = .ok [0x80, 1] := ⟨_, rfl, by rfl⟩

/-- **C12** is false for length-prefixed strings: a class with a byte order of its own and a field `x: char[uint16]` cannot be
packed at all. -/
theorem C12_dynamic_char_is_false : ∃ s', (Ser.dynChar [1] ⟨['H'], none⟩).withByteOrder .le = .ok s' ∧
    result (Obj.pack (oneField s' .le) 9 (.obj 0 none [("x", .bytes [104, 105])]) st0) = .error .valueError := ⟨_, rfl, by rfl⟩

/-! ### Changing the byte order -/

/-- **C36** (serializers).  After any sequence of byte orders, applying `b` gives what applying `b` at once gives — the same
serializer up to object identity, or the same exception. -/
theorem C36_last_wins (s c : Ser) (hf : s.FormatsOk) (bos : List ByteOrder) (h : bos.foldlM (fun s b => s.withByteOrder b) s = .ok c) (b : ByteOrder) :
    (c.withByteOrder b).map Ser.anon = (s.withByteOrder b).map Ser.anon := by
  induction bos generalizing s with
  | nil => cases h; rfl
  | cons b1 bos ih =>
    rw [List.foldlM_cons] at h
    obtain ⟨s1, h1, h2⟩ := Except.bind_ok' h
    exact (ih s1 (wbo_orders b1 s s1 hf h1).2.2 h2).trans (wbo_last_wins b1 b s s1 hf h1)

/-- **C36** (serializers).  Applying the byte order a serializer was made with changes nothing. -/
theorem C36_again (s c : Ser) (hf : s.FormatsOk) (b : ByteOrder) (h : s.withByteOrder b = .ok c) : ∃ d, c.withByteOrder b = .ok d ∧ d.anon = c.anon := by
  have := wbo_last_wins b b s c hf h
  rw [h] at this
  unfold SameAnon at this
  cases hd : c.withByteOrder b with
  | error e => rw [hd] at this; cases this
  | ok d =>
    rw [hd] at this
    simp only [Except.map, Except.ok.injEq] at this
    exact ⟨d, rfl, this⟩

example : ∃ c d, plainFields.withByteOrder .be = .ok c ∧ c.withByteOrder .le = .ok d ∧ d.orders = [.le, .le, .le] ∧
    (plainFields.withByteOrder .le).map Ser.anon = .ok d.anon := ⟨_, _, rfl, rfl, by rfl, by rfl⟩

/-- **C36** (serializers).  Nothing else changes: the number of values is kept, and the formats stay acceptable. -/
theorem C36_keeps (s c : Ser) (hf : s.FormatsOk) (b : ByteOrder) (h : s.withByteOrder b = .ok c) : c.numValues = s.numValues ∧ c.FormatsOk :=
  ⟨(wbo_numValues b s c hf h).1, (wbo_orders b s c hf h).2.2⟩

theorem getAttrs_length {attrs : List (Name × Val)} : ∀ {names : List Name} {vals : List Val}, getAttrs attrs names = .ok vals →
    vals.length = names.length ∧ ∀ (i : Nat) (h1 : i < names.length) (h2 : i < vals.length), getAttr? attrs names[i] = some vals[i]
  | [], vals, h => by cases h; simp
  | a :: names, vals, h => by
    rw [getAttrs] at h
    cases ha : getAttr? attrs a with
    | none => simp [ha] at h
    | some v =>
      simp only [ha] at h
      obtain ⟨vs, h1, h2⟩ := Except.bind_ok' h
      cases h2
      have ih := getAttrs_length h1
      refine ⟨by simp [ih.1], ?_⟩
      intro i h1 h2
      cases i with
      | zero => exact ha
      | succ i => exact ih.2 i (by simpa using h1) (by simpa using h2)

/-- **C36** (instances).  `obj.with_byte_order(bo)` is an instance of the same class whose byte order is `bo` and whose serialized
attributes are those of `obj`; if `obj` has the byte order already it is `obj` itself.  (Values are never changed in place in
the model, so `obj` is left as it was; `__post_init__` is taken to do nothing.) -/
theorem C36_instance (env : Env) (bo : ByteOrder) (c : ClassId) (cur : Option ByteOrder) (as : List (Name × Val)) (q : Val) (ci : ClassInfo)
    (hc : env.classes c = some ci) (hpi : ∀ as, ci.postInit as = .ok as) (hn : ci.attrs.Nodup)
    (h : Obj.withByteOrder env bo (.obj c cur as) = .ok q) :
    ∃ bo' as', q = .obj c bo' as' ∧ bo'.getD ci.byteOrder = bo ∧ (∀ a ∈ ci.attrs, getAttr? as' a = getAttr? as a) ∧
      (bo = cur.getD ci.byteOrder → q = .obj c cur as) := by
  simp only [Obj.withByteOrder] at h
  obtain ⟨⟨ci', ser⟩, h1, h⟩ := Except.bind_ok' h
  have hci : ci' = ci := by
    unfold objSer at h1
    simp only [hc] at h1
    cases cur with
    | none => cases h1; rfl
    | some b =>
      obtain ⟨x, _, h2⟩ := Except.bind_ok' h1
      cases h2; rfl
  subst hci
  simp only at h
  split at h
  · rename_i hb
    cases h
    exact ⟨cur, as, rfl, hb.symm, fun _ _ => rfl, fun _ => rfl⟩
  · rename_i hb
    obtain ⟨_, _, h⟩ := Except.bind_ok' h
    obtain ⟨vals, h2, h⟩ := Except.bind_ok' h
    obtain ⟨hl, hv⟩ := getAttrs_length h2
    have hcall : callClass c ci' vals = .ok (.obj c none (setAll [] (ci'.attrs.zip vals))) := by
      rw [callClass, if_neg (by simp [hl]), hpi]; rfl
    rw [hcall] at h
    cases h
    refine ⟨some bo, _, rfl, rfl, ?_, fun h => absurd h hb⟩
    intro a ha
    obtain ⟨i, hi, rfl⟩ := List.getElem_of_mem ha
    rw [getAttr_setAll_zip _ _ _ hn i hi (by omega), hv i hi (by omega)]

/-- **C36** (instances).  The serializer of `obj.with_byte_order(bo)` has every number of several bytes in byte order `bo`, with the
exceptions of `C12_with_byte_order_partial`.  (`hcls`: the serializer of the class itself was made by `with_byte_order`, see
`structured.py:402-404`.) -/
theorem C36_instance_orders (env : Env) (bo : ByteOrder) (c : ClassId) (cur : Option ByteOrder) (as : List (Name × Val)) (q : Val) (ci : ClassInfo)
    (hc : env.classes c = some ci) (hpi : ∀ as, ci.postInit as = .ok as) (hn : ci.attrs.Nodup) (hf : ci.serializer.FormatsOk)
    (hcls : ∀ b ∈ ci.serializer.orders, b = ci.byteOrder ∨ b ∈ ci.serializer.deaf)
    (h : Obj.withByteOrder env bo (.obj c cur as) = .ok q) :
    ∃ bo' as' ser, q = .obj c bo' as' ∧ objSer env c bo' = .ok (ci, ser) ∧ ∀ b ∈ ser.orders, b = bo ∨ b ∈ ci.serializer.deaf := by
  obtain ⟨bo', as', rfl, hb, _, hsame⟩ := C36_instance env bo c cur as q ci hc hpi hn h
  have hser : ∃ ser, objSer env c bo' = .ok (ci, ser) := by
    simp only [Obj.withByteOrder] at h
    obtain ⟨⟨ci', ser⟩, h1, h⟩ := Except.bind_ok' h
    have hci : ci' = ci := by
      unfold objSer at h1
      simp only [hc] at h1
      cases cur with
      | none => cases h1; rfl
      | some b =>
        obtain ⟨x, _, h2⟩ := Except.bind_ok' h1
        cases h2; rfl
    subst hci
    simp only at h
    split at h
    · cases h; exact ⟨ser, h1⟩
    · obtain ⟨ser', h3, h⟩ := Except.bind_ok' h
      obtain ⟨vals, h2, h⟩ := Except.bind_ok' h
      have hcall : callClass c ci' vals = .ok (.obj c none (setAll [] (ci'.attrs.zip vals))) := by
        rw [callClass, if_neg (by simp [(getAttrs_length h2).1]), hpi]; rfl
      rw [hcall] at h
      cases h
      simp only [objSer, hc]
      -- the copy is made from the instance's serializer
      unfold objSer at h1
      simp only [hc] at h1
      cases cur with
      | none => cases h1; rw [h3]; exact ⟨_, rfl⟩
      | some b =>
        obtain ⟨x, h4, h5⟩ := Except.bind_ok' h1
        cases h5
        have := wbo_last_wins b bo _ _ hf h4
        rw [h3] at this
        cases hd : ci'.serializer.withByteOrder bo with
        | error e => unfold SameAnon at this; rw [hd] at this; cases this
        | ok d => exact ⟨_, rfl⟩
  obtain ⟨ser, hser⟩ := hser
  refine ⟨bo', as', ser, rfl, hser, ?_⟩
  unfold objSer at hser
  simp only [hc] at hser
  cases bo' with
  | none =>
    cases hser
    simp only [Option.getD_none] at hb
    rw [← hb]; exact hcls
  | some b =>
    obtain ⟨x, h4, h5⟩ := Except.bind_ok' hser
    cases h5
    simp only [Option.getD_some] at hb
    subst hb
    exact (wbo_orders _ _ _ hf h4).1

example : Obj.withByteOrder env .be (point 1 2) = .ok (.obj 0 (some .be) [("x", .int 1), ("y", .int 2)]) ∧
    Obj.withByteOrder env .le (point 1 2) = .ok (point 1 2) ∧
    result (Obj.pack env 3 (.obj 0 (some .be) [("x", .int 1), ("y", .int 2)]) st0) = .ok [0, 1, 2] := ⟨by rfl, by rfl, by rfl⟩

/-- Attributes that are not serialized are lost: the new instance is made by calling the class with the serialized ones. -/
theorem C36_other_attributes_lost : ∃ (env : Env) (as : List (Name × Val)), getAttr? as "note" = some (.int 7) ∧
    ∃ as', Obj.withByteOrder env .be (.obj 0 none as) = .ok (.obj 0 (some .be) as') ∧ getAttr? as' "note" = none :=
  ⟨env, [("x", .int 1), ("y", .int 2), ("note", .int 7)], by rfl, _, rfl, by rfl⟩

/-- **C36** (other values).  Values that are not `Structured` objects have no such method. -/
theorem C36_no_object (env : Env) (bo : ByteOrder) (v : Val) (h : ∀ c cur as, v ≠ .obj c cur as) : Obj.withByteOrder env bo v = .error .attributeError := by
  unfold Obj.withByteOrder
  split
  · exact absurd rfl (h _ _ _)
  · rfl

/-- **C36** (missing attributes).  Nor is there an object in another byte order of an object that is not complete. -/
theorem C36_missing (env : Env) (bo : ByteOrder) (c : ClassId) (cur : Option ByteOrder) (as : List (Name × Val)) (ci : ClassInfo) (ser ser' : Ser)
    (hs : objSer env c cur = .ok (ci, ser)) (hb : bo ≠ cur.getD ci.byteOrder) (hw : ser.withByteOrder bo = .ok ser') {a : Name} (ha : a ∈ ci.attrs)
    (hm : getAttr? as a = none) : Obj.withByteOrder env bo (.obj c cur as) = .error .attributeError := by
  have hg : getAttrs as ci.attrs = .error .attributeError := by
    generalize ci.attrs = names at ha
    induction names with
    | nil => cases ha
    | cons b names ih =>
      unfold getAttrs
      cases hb : getAttr? as b with
      | none => rfl
      | some v =>
        rcases List.mem_cons.1 ha with rfl | ha
        · rw [hm] at hb; cases hb
        · simp only [ih ha]; rfl
  simp only [Obj.withByteOrder, hs, bind, Except.bind, if_neg hb, hw, hg]

example : Obj.withByteOrder env .be (.int 3) = .error .attributeError ∧ Obj.withByteOrder env .be (.obj 0 none [("x", .int 1)]) = .error .attributeError ∧
    (∃ q, Obj.withByteOrder env .be (.obj 0 none [("x", .int 1), ("y", .int 2)]) = .ok q) := ⟨by rfl, by rfl, _, by rfl⟩

end Verif
