import Verif.Proofs.AlignClass
import Verif.Props.Format
/-
C55: where the fields of a class of basic types lie.
-/
namespace Verif
open Spec Samples

variable {ctx : HintCtx} {env : Env} {bo : ByteOrder} {fs : List (Name × Basic)} {o : ClassObj} {c : ClassId}

/-- **C55** (format).  The serializer of the class is that of one format string: the formats of the fields, with neighbouring equal ones counted
together, as in the documentation. -/
theorem C55_format (h : BasicClass ctx bo fs o) : o.info.serializer = .struct ⟨bo.value ++ joinedFormat (fs.map (·.2)), none⟩ := by
  obtain ⟨_, _, z, h1, h2, _⟩ := basicClass_lies h
  rw [h1]
  have h3 := format_split z
  rw [h2.order, h2.base] at h3
  have h4 := h2.acts
  obtain ⟨f, a⟩ := z
  simp only at h3 h4
  rw [h3, h4]

/-- **C55** (size).  A class of basic fields takes the bytes up to the end of its last field; nothing is added behind it. -/
theorem C55_size (h : BasicClass ctx bo fs o) (st : St) : o.info.serializer.readSize st = .ok (extent bo 0 (fs.map (·.2))) st := by
  obtain ⟨_, _, z, h1, h2, _⟩ := basicClass_lies h
  rw [h1]
  show Res.ok z.size st = _
  rw [lies_size h2]

/-- **C55** (`pack`).  Each value is packed alone, in the byte order of the object, and put at its place; the bytes between are zeros.
If a value cannot be packed its error is raised. -/
theorem C55_pack (h : BasicClass ctx bo fs o) (hc : env.classes c = some o.info) (own : Option ByteOrder) {attrs : List (Name × Val)} {vs : List Val}
    (hv : pick attrs (valueNames fs) = some vs) (n : Nat) (st : St) :
    Obj.pack env (n + 1) (.obj c own attrs) st =
      match pieces env.plat (own.getD bo) (fs.map (·.2)) vs with
      | .ok bs => .ok (layOut (own.getD bo) 0 (fs.map (·.2)) bs) st
      | .error e => .err e st := by
  obtain ⟨ha, _, _⟩ := basicClass_lies h
  obtain ⟨z, h1, h2⟩ := basic_objSer (env := env) h hc own
  have hp := lies_pack (env := env) h2 (vs := vs) (by rw [basics_vals, pick_length hv])
  have hg := pick_getAttrs hv
  rw [← ha] at hg
  have e : Obj.pack env (n + 1) (.obj c own attrs) st =
      ((M.lift (z.pack env.plat vs) >>= fun b => pure (b, Ser.struct z)) >>= fun x => pure x.1) st := by
    simp only [Obj.pack, objPack, h1]
    show ((M.lift (getAttrs attrs o.info.attrs) >>= fun vals => M.lift (z.pack env.plat vals) >>= fun b => pure (b, Ser.struct z)) >>= fun x =>
      pure x.1) st = _
    rw [hg]
    rfl
  rw [e, hp]
  cases pieces env.plat (own.getD bo) (fs.map (·.2)) vs <;> rfl

/-- **C55** (`pack_write`) -/
theorem C55_pack_write (h : BasicClass ctx bo fs o) (hc : env.classes c = some o.info) (own : Option ByteOrder) {attrs : List (Name × Val)} {vs : List Val}
    (hv : pick attrs (valueNames fs) = some vs) (n : Nat) (st : St) :
    Obj.packWrite env (n + 1) (.obj c own attrs) st =
      match pieces env.plat (own.getD bo) (fs.map (·.2)) vs with
      | .ok bs => .ok () { st with io := st.io.write (layOut (own.getD bo) 0 (fs.map (·.2)) bs) }
      | .error e => .err e st := by
  obtain ⟨ha, _, _⟩ := basicClass_lies h
  obtain ⟨z, h1, h2⟩ := basic_objSer (env := env) h hc own
  have hp := lies_pack (env := env) h2 (vs := vs) (by rw [basics_vals, pick_length hv])
  have hg := pick_getAttrs hv
  rw [← ha] at hg
  have e : Obj.packWrite env (n + 1) (.obj c own attrs) st =
      (((M.lift (z.pack env.plat vs) >>= ioWrite) >>= fun _ => pure (Ser.struct z)) >>= fun _ => pure ()) st := by
    simp only [Obj.packWrite, objPackWrite, h1]
    show ((M.lift (getAttrs attrs o.info.attrs) >>= fun vals => (M.lift (z.pack env.plat vals) >>= ioWrite) >>= fun _ => pure (Ser.struct z)) >>= fun _ =>
      pure ()) st = _
    rw [hg]
    rfl
  rw [e, hp]
  cases pieces env.plat (own.getD bo) (fs.map (·.2)) vs <;> rfl

/-- **C55** (`pack_into`).  The same bytes, at the offset; places are counted from the offset, not from the start of the buffer. -/
theorem C55_pack_into (h : BasicClass ctx bo fs o) (hc : env.classes c = some o.info) (own : Option ByteOrder) {attrs : List (Name × Val)} {vs : List Val}
    (hv : pick attrs (valueNames fs) = some vs) (n off : Nat) (st : St) {bs : List Bytes}
    (hb : pieces env.plat (own.getD bo) (fs.map (·.2)) vs = .ok bs) :
    Obj.packInto env (n + 1) off (.obj c own attrs) st =
      if off + extent (own.getD bo) 0 (fs.map (·.2)) ≤ st.buf.length then
        .ok () { st with buf := st.buf.take off ++ layOut (own.getD bo) 0 (fs.map (·.2)) bs ++ st.buf.drop (off + extent (own.getD bo) 0 (fs.map (·.2))) }
      else .err .structError st := by
  obtain ⟨ha, _, _⟩ := basicClass_lies h
  obtain ⟨z, h1, h2⟩ := basic_objSer (env := env) h hc own
  have hn : vs.length = numVals ((fs.map (·.2)).map Basic.tok) := by rw [basics_vals, pick_length hv]
  have hg := pick_getAttrs hv
  rw [← ha] at hg
  have e : Obj.packInto env (n + 1) off (.obj c own attrs) st =
      ((structPackIntoM env z off vs >>= fun _ => pure (Ser.struct z)) >>= fun _ => pure ()) st := by
    simp only [Obj.packInto, objPackInto, h1]
    show ((M.lift (getAttrs attrs o.info.attrs) >>= fun vals => structPackIntoM env z off vals >>= fun _ => pure (Ser.struct z)) >>= fun _ =>
      pure ()) st = _
    rw [hg]
    rfl
  have hsz := lies_size h2
  have hpk : packToks env.plat (own.getD bo) z.toks 0 vs = .ok (layOut (own.getD bo) 0 (fs.map (·.2)) bs) := by
    rw [h2.toks.pack, pieces_pack, hb]; rfl
  have hs : sizeToks (own.getD bo).isNative z.toks = extent (own.getD bo) 0 (fs.map (·.2)) := by
    rw [← hsz, ← h2.order]; rfl
  have hl : (layOut (own.getD bo) 0 (fs.map (·.2)) bs).length = extent (own.getD bo) 0 (fs.map (·.2)) := by
    have := packToks_length hpk
    rw [Nat.zero_add] at this
    rw [this, ← hs]
    rfl
  have hi : structPackIntoM env z off vs st =
      if off + extent (own.getD bo) 0 (fs.map (·.2)) ≤ st.buf.length then
        .ok () { st with buf := st.buf.take off ++ layOut (own.getD bo) 0 (fs.map (·.2)) bs ++ st.buf.drop (off + extent (own.getD bo) 0 (fs.map (·.2))) }
      else .err .structError st := by
    unfold structPackIntoM StructSer.packInto structPackInto
    rw [h2.order, if_pos (by rw [hn, h2.toks.vals]), hs, hpk]
    by_cases hle : off + extent (own.getD bo) 0 (fs.map (·.2)) ≤ st.buf.length
    · rw [if_pos hle, if_pos (by omega)]
      simp only [splice, hl]
    · rw [if_neg hle, if_neg (by omega)]
  rw [e]
  by_cases hle : off + extent (own.getD bo) 0 (fs.map (·.2)) ≤ st.buf.length
  · rw [if_pos hle] at hi ⊢
    simp only [bind, M.bind, hi]; rfl
  · rw [if_neg hle] at hi ⊢
    simp only [bind, M.bind, hi]

/-- **C55** (creating an object from bytes).  Each field is read alone from the bytes at its place, the bytes between do not matter, and a
stream is left behind the last field.  With fewer bytes than that `struct.error` is raised. -/
theorem C55_create (h : BasicClass ctx bo fs o) (hc : env.classes c = some o.info) (n : Nat) {src : Src} {st : St} {d : Bytes} (hd : Shows src st d) :
    (extent bo 0 (fs.map (·.2)) ≤ d.length → ∃ vs st', readBack env.plat bo d 0 (fs.map (·.2)) = .ok vs ∧ vs.length = (valueNames fs).length ∧
      Moved src (extent bo 0 (fs.map (·.2))) st st' ∧
      createUnpack env (n + 1) c src st =
        match o.info.postInit ((valueNames fs).zip vs) with
        | .ok attrs => .ok (.obj c Option.none attrs) st'
        | .error e => .err e st') ∧
    (d.length < extent bo 0 (fs.map (·.2)) → ∃ st', createUnpack env (n + 1) c src st = .err .structError st') := by
  obtain ⟨ha, _, z, h1, h2, _⟩ := basicClass_lies h
  obtain ⟨u1, u2⟩ := lies_unpack (env := env) h2 hd
  have e : createUnpack env (n + 1) c src st =
      ((structUnpackM env z src >>= fun vs => M.lift (construct c o.info vs) >>= fun v => pure (v, o.info.serializer)) >>= fun x => pure x.1) st := by
    simp only [createUnpack, createUnpackWith, hc]
    rw [h1]
    rfl
  constructor
  · intro hle
    obtain ⟨vs, st', a1, a2, a3, a4⟩ := u1 hle
    rw [basics_vals] at a2
    refine ⟨vs, st', a1, a2, a3, ?_⟩
    rw [e]
    simp only [bind, M.bind, a4, construct, ha, if_pos a2, Except.bind]
    cases o.info.postInit ((valueNames fs).zip vs) <;> rfl
  · intro hlt
    obtain ⟨st', a⟩ := u2 hlt
    refine ⟨st', ?_⟩
    rw [e]
    simp only [bind, M.bind, a]

/-- **C55** (unpacking into an object), in the byte order of the object. -/
theorem C55_unpack (h : BasicClass ctx bo fs o) (hc : env.classes c = some o.info) (own : Option ByteOrder) (attrs : List (Name × Val)) (n : Nat)
    {src : Src} {st : St} {d : Bytes} (hd : Shows src st d) :
    (extent (own.getD bo) 0 (fs.map (·.2)) ≤ d.length → ∃ vs st', readBack env.plat (own.getD bo) d 0 (fs.map (·.2)) = .ok vs ∧
      vs.length = (valueNames fs).length ∧ Moved src (extent (own.getD bo) 0 (fs.map (·.2))) st st' ∧
      Obj.unpack env (n + 1) (.obj c own attrs) src st =
        .ok (.obj c own (((valueNames fs).zip vs).foldl (fun as nv => setAttr as nv.1 nv.2) attrs)) st') ∧
    (d.length < extent (own.getD bo) 0 (fs.map (·.2)) → ∃ st', Obj.unpack env (n + 1) (.obj c own attrs) src st = .err .structError st') := by
  obtain ⟨ha, _, _⟩ := basicClass_lies h
  obtain ⟨z, h1, h2⟩ := basic_objSer (env := env) h hc own
  obtain ⟨u1, u2⟩ := lies_unpack (env := env) h2 hd
  have e : Obj.unpack env (n + 1) (.obj c own attrs) src st =
      (structUnpackM env z src >>= fun vals => if vals.length = o.info.attrs.length then
        pure (.obj c own ((o.info.attrs.zip vals).foldl (fun as nv => setAttr as nv.1 nv.2) attrs))
      else M.throw .valueError) st := by
    simp only [Obj.unpack, h1]
    rfl
  constructor
  · intro hle
    obtain ⟨vs, st', a1, a2, a3, a4⟩ := u1 hle
    rw [basics_vals] at a2
    refine ⟨vs, st', a1, a2, a3, ?_⟩
    rw [e]
    simp only [bind, M.bind, a4, ha, if_pos a2]
    rfl
  · intro hlt
    obtain ⟨st', a⟩ := u2 hlt
    refine ⟨st', ?_⟩
    rw [e]
    simp only [bind, M.bind, a]

/-- **C55** (the rule).  In the default and native byte orders a field starts at a multiple of its unit, at the first one not before the end of
the field in front of it; in the others right there. -/
theorem C55_rule (t : Basic) (e : Nat) :
    (aligned bo = true → t.unit ∣ t.start bo e ∧ e ≤ t.start bo e ∧ t.start bo e < e + t.unit) ∧ (aligned bo = false → t.start bo e = e) := by
  have hw : 0 < t.unit := by
    cases t <;> first | exact Nat.succ_pos _ | (rename_i w; cases w <;> exact Nat.succ_pos _)
  constructor
  · intro h
    unfold Basic.start
    rw [if_pos h]
    refine ⟨Nat.dvd_mul_left .., ?_, ?_⟩
    · have h1 := Nat.div_add_mod (e + t.unit - 1) t.unit
      have h2 := Nat.mod_lt (e + t.unit - 1) hw
      rw [Nat.mul_comm] at h1
      omega
    · have h1 := Nat.div_mul_le_self (e + t.unit - 1) t.unit
      omega
  · intro h
    unfold Basic.start
    rw [if_neg (by simp [h])]

/-- **C55** (places).  In the bytes of an object every field is at its place, all bytes that belong to no field are zero, and nothing follows
the last field. -/
theorem C55_where {P : Platform} {ts : List Basic} {vs : List Val} {bs : List Bytes} (h : pieces P bo ts vs = .ok bs) :
    (layOut bo 0 ts bs).length = extent bo 0 ts ∧ bs.length = ts.length ∧
    (∀ (i p : Nat) (t : Basic) (b : Bytes), ts[i]? = some t → (starts bo 0 ts)[i]? = some p → bs[i]? = some b →
      b.length = t.width ∧ ((layOut bo 0 ts bs).drop p).take t.width = b) ∧
    (∀ k, k < extent bo 0 ts → (∀ (i : Nat) (t : Basic) (p : Nat), ts[i]? = some t → (starts bo 0 ts)[i]? = some p → ¬ (p ≤ k ∧ k < p + t.width)) →
      (layOut bo 0 ts bs)[k]? = some 0) := by
  have hl := pieces_lengths h
  refine ⟨by simpa using layOut_length (bo := bo) (o := 0) hl, by simpa using congrArg List.length hl, ?_, ?_⟩
  · intro i p t b h1 h2 h3
    refine ⟨?_, by simpa using (layOut_at hl h1 h2 h3).2⟩
    have := congrArg (fun l => l[i]?) hl
    simpa [List.getElem?_map, h1, h3] using this
  · intro k hk hn
    simpa using layOut_gap hl (Nat.zero_le k) hk hn

end Verif

namespace Verif.Samples
open Spec

/-- `a: uint8; b: uint32; _: pad[2]; c: char[3]; d: uint16; e: bool8; f: float64` -/
def mixedFields : List (Name × Basic) :=
  [("a", .int false .one), ("b", .int false .four), ("0_pad_", .pad 2), ("c", .chars 3), ("d", .int false .two), ("e", .bool), ("f", .double)]

def writtenBasic (t : Basic) : Hint := match t.hint hctx with
  | .ok h => h
  | .error _ => .plain "none"

def mixedDecl (bo : ByteOrder) : ClassDecl :=
  { bases := [.structured], byteOrder := bo, anns := mixedFields.map fun f => (if f.1 = "0_pad_" then "_" else f.1, writtenBasic f.2) }

def mixedClass (bo : ByteOrder) : ClassObj := madeBy [80] (mixedDecl bo)

def mixedEnv (bo : ByteOrder) : Env := ⟨plat, fun c => if c = 80 then some (mixedClass bo).info else none⟩

theorem mixed_made : createClass hctx 4 [80] world0 (mixedDecl .default) = .ok (mixedClass .default) := by rfl

theorem mixed_basic : BasicClass hctx .default mixedFields (mixedClass .default) where
  names := by rfl
  hints := each (by rfl)
  self := by decide
  any := by decide
  some := by decide
  made := ⟨4, [80], world0, mixedDecl .default, mixed_made, rfl⟩

def mixedAttrs : List (Name × Val) :=
  [("a", .int 1), ("b", .int 2), ("c", .bytes [97, 98]), ("d", .int 3), ("e", .bool true), ("f", .float 0x3FF0000000000000)]

def mixedVals : List Val := mixedAttrs.map (·.2)

end Verif.Samples

namespace Verif
open Spec Samples

/-- The example of the documentation. -/
example : joinedFormat [.int true .one, .int true .one, .int false .four, .pad 4, .chars 10, .pad 2, .int false .four] = "2bI4x10s2xI".toList ∧
    joinedFormat [.chars 2, .chars 3, .pad 1, .pad 1, .int true .two] = "2s3s2xh".toList := ⟨by rfl, by rfl⟩

/-- `C55_format` applies to a class. -/
example : (mixedClass .default).info.serializer = .struct ⟨"BI2x3sH?d".toList, none⟩ := C55_format mixed_basic

/-- `class MyStructV1(Structured): size: uint32; a: int8; b: char[100]` and `class MyStructV2(MyStructV1): c: float32` -/
def worldV : World := fun c => if c = 81 then some (madeBy [81] { bases := [.structured], anns :=
  [("size", writtenBasic (.int false .four)), ("a", writtenBasic (.int true .one)), ("b", writtenBasic (.chars 100))] }) else Option.none

def declV2 : ClassDecl := { bases := [.cls 81], anns := [("c", writtenBasic .single)] }

set_option maxRecDepth 4000 in
/-- … is packed as `'Ib100sf'`. -/
example : ∃ o, createClass hctx 4 [82] worldV declV2 = .ok o ∧ o.info.serializer = .struct ⟨"Ib100sf".toList, none⟩ :=
  ⟨_, by rfl, C55_format (ctx := hctx) (bo := .default) (fs := [("size", .int false .four), ("a", .int true .one), ("b", .chars 100), ("c", .single)])
    ⟨by rfl, each (by rfl), by decide, by decide, by decide, 4, [82], worldV, declV2, by rfl, rfl⟩⟩

/-- `class MyStruct(Structured): a: int8; b: uint32; c: float32` and `class DerivedStruct(MyStruct): b: None` -/
def worldD : World := fun c => if c = 83 then some (madeBy [83] { bases := [.structured], anns :=
  [("a", writtenBasic (.int true .one)), ("b", writtenBasic (.int false .four)), ("c", writtenBasic .single)] }) else Option.none

def declD : ClassDecl := { bases := [.cls 83], anns := [("b", .noneT)] }

/-- … is packed as `'bf'`. -/
example : ∃ o, createClass hctx 4 [84] worldD declD = .ok o ∧ o.info.serializer = .struct ⟨"bf".toList, none⟩ :=
  ⟨_, by rfl, C55_format (ctx := hctx) (bo := .default) (fs := [("a", .int true .one), ("c", .single)])
    ⟨by rfl, each (by rfl), by decide, by decide, by decide, 4, [84], worldD, declD, by rfl, rfl⟩⟩

/-- `b` starts at 4, `d` at 14 and `f` at 24 … -/
example : starts .default 0 (mixedFields.map (·.2)) = [0, 4, 8, 10, 14, 16, 24] ∧ extent .default 0 (mixedFields.map (·.2)) = 32 := ⟨by rfl, by rfl⟩

/-- … or, with `byte_order=ByteOrder.LE`, at 1, 10 and 13. -/
example : starts .le 0 (mixedFields.map (·.2)) = [0, 1, 5, 7, 10, 12, 13] ∧ extent .le 0 (mixedFields.map (·.2)) = 21 := ⟨by rfl, by rfl⟩

/-- `C55_pack` applies to a class in the default order, … -/
example : ∃ bs, pick mixedAttrs (valueNames mixedFields) = some mixedVals ∧
    pieces plat .default (mixedFields.map (·.2)) mixedVals = .ok bs ∧
    layOut .default 0 (mixedFields.map (·.2)) bs =
      [1, 0, 0, 0, 2, 0, 0, 0, 0, 0, 97, 98, 0, 0, 3, 0, 1, 0, 0, 0, 0, 0, 0, 0, 0, 0, 0, 0, 0, 0, 0xF0, 0x3F] ∧
    Obj.pack (mixedEnv .default) 2 (.obj 80 Option.none mixedAttrs) Samples.st0 = .ok (layOut .default 0 (mixedFields.map (·.2)) bs) Samples.st0 :=
  ⟨_, by rfl, by rfl, by rfl, C55_pack mixed_basic (c := 80) (env := mixedEnv .default) rfl Option.none (attrs := mixedAttrs) (vs := mixedVals) (by rfl) 1 Samples.st0⟩

/-- … to its objects in another one, … -/
example : ∃ bs, pieces plat .be (mixedFields.map (·.2)) mixedVals = .ok bs ∧
    layOut .be 0 (mixedFields.map (·.2)) bs = [1, 0, 0, 0, 2, 0, 0, 97, 98, 0, 0, 3, 1, 0x3F, 0xF0, 0, 0, 0, 0, 0, 0] ∧
    Obj.pack (mixedEnv .default) 2 (.obj 80 (some .be) mixedAttrs) Samples.st0 = .ok (layOut .be 0 (mixedFields.map (·.2)) bs) Samples.st0 :=
  ⟨_, by rfl, by rfl, C55_pack mixed_basic (c := 80) (env := mixedEnv .default) rfl (some .be) (attrs := mixedAttrs) (vs := mixedVals) (by rfl) 1 Samples.st0⟩

/-- … and the value that cannot be packed is found. -/
example : Obj.pack (mixedEnv .default) 2 (.obj 80 Option.none (setAttr mixedAttrs "d" (.int 70000))) Samples.st0 = .err .structError Samples.st0 :=
  (C55_pack mixed_basic (c := 80) (env := mixedEnv .default) rfl Option.none (attrs := setAttr mixedAttrs "d" (.int 70000))
    (vs := (setAttr mixedAttrs "d" (.int 70000)).map (·.2)) (by rfl) 1 Samples.st0).trans (by rfl)

/-- `C55_create`: the bytes in the gaps do not matter. -/
example : createUnpack (mixedEnv .default) 2 80 (.buf [1, 9, 9, 9, 2, 0, 0, 0, 9, 9, 97, 98, 0, 9, 3, 0, 1, 9, 9, 9, 9, 9, 9, 9, 0, 0, 0, 0, 0, 0, 0xF0, 0x3F, 7])
    Samples.st0 = .ok (.obj 80 Option.none (setAttr mixedAttrs "c" (.bytes [97, 98, 0]))) Samples.st0 := by rfl

/-- The alignment is counted from the offset, in `pack_into` as well. -/
example : Obj.packInto (mixedEnv .default) 2 1 (.obj 80 Option.none mixedAttrs) { Samples.st0 with buf := List.replicate 34 255 } =
    .ok () { Samples.st0 with buf :=
      [255, 1, 0, 0, 0, 2, 0, 0, 0, 0, 0, 97, 98, 0, 0, 3, 0, 1, 0, 0, 0, 0, 0, 0, 0, 0, 0, 0, 0, 0, 0, 0xF0, 0x3F, 255] } := by rfl

end Verif
