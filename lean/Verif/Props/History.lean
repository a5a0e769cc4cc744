import Verif.Proofs.HistoryUnpack
import Verif.Proofs.RefineUnpack
import Verif.Props.Packing
/-
C05: outcomes do not depend on earlier operations.  A history is summarised by the state it leaves
behind, so the statements compare runs from two arbitrary states `st1` and `st2`.
-/
namespace Verif
open Samples Sem

/-! ### Packing -/

/-- **C05** (`pack`, partial).  If every object inside `v` uses a serializer that is handed its
partial object wherever it needs one (`Calm`), `obj.pack()` gives the same bytes or the same exception
whatever ran before.  Missing: serializers under a `Condition` that are never handed one
(`C05_full_is_false`), and arrays of arrays, tuples or unions used again inside one of their own
items. -/
theorem C05_pack_partial (env : Env) (n : Nat) (v : Val) (hc : Calm env v.nodes) (st1 st2 : St) :
    result (Obj.pack env n v st1) = result (Obj.pack env n v st2) := by
  have hq := (encObj_quiet (enc_quiet env n) v hc).1
  have h1 := objPack_rel (env := env) (pack_rel env n) v st1
  have h2 := objPack_rel (env := env) (pack_rel env n) v st2
  cases ho : encObj env (enc env n) v with
  | stuck => exact absurd ho hq
  | err e =>
    rw [ho] at h1 h2
    obtain ⟨s1, h1, _⟩ := h1
    obtain ⟨s2, h2, _⟩ := h2
    have e1 : Obj.pack env n v st1 = .err e s1 := by simp [Obj.pack, bind, M.bind, h1]
    have e2 : Obj.pack env n v st2 = .err e s2 := by simp [Obj.pack, bind, M.bind, h2]
    rw [e1, e2]; rfl
  | ok r =>
    rw [ho] at h1 h2
    obtain ⟨⟨b1, x1⟩, s1, h1, p1, _⟩ := h1
    obtain ⟨⟨b2, x2⟩, s2, h2, p2, _⟩ := h2
    have e1 : Obj.pack env n v st1 = .ok b1 s1 := by rw [Obj.pack, M.bind_eq h1]; rfl
    have e2 : Obj.pack env n v st2 = .ok b2 s2 := by rw [Obj.pack, M.bind_eq h2]; rfl
    simp only at p1 p2
    rw [e1, e2, p1, p2]; rfl

/-- **C05** (`pack_write`, partial).  Likewise: the same outcome, and from the same stream the same
stream afterwards, also when an exception is raised half way. -/
theorem C05_pack_write_partial (env : Env) (n : Nat) (v : Val) (hc : Calm env v.nodes) (st1 st2 : St)
    (hio : st1.io = st2.io) :
    result (Obj.packWrite env n v st1) = result (Obj.packWrite env n v st2) ∧
      (after (Obj.packWrite env n v st1)).io = (after (Obj.packWrite env n v st2)).io := by
  have hq := (encObj_quiet (enc_quiet env n) v hc).1
  have h1 := objPackWrite_rel (env := env) (packWrite_rel env n) v _ st1 rfl
  have h2 := objPackWrite_rel (env := env) (packWrite_rel env n) v _ st2 rfl
  cases ho : encObj env (enc env n) v with
  | stuck => exact absurd ho hq
  | err e =>
    rw [ho] at h1 h2
    obtain ⟨s1, h1, f1⟩ := h1
    obtain ⟨s2, h2, f2⟩ := h2
    have e1 : Obj.packWrite env n v st1 = .err e s1 := by simp [Obj.packWrite, bind, M.bind, h1]
    have e2 : Obj.packWrite env n v st2 = .err e s2 := by simp [Obj.packWrite, bind, M.bind, h2]
    rw [e1, e2]
    exact ⟨rfl, by show s1.io = s2.io; rw [f1.2, f2.2, hio]⟩
  | ok r =>
    rw [ho] at h1 h2
    obtain ⟨x1, s1, h1, _, _, f1, _⟩ := h1
    obtain ⟨x2, s2, h2, _, _, f2, _⟩ := h2
    have e1 : Obj.packWrite env n v st1 = .ok () s1 := by rw [Obj.packWrite, M.bind_eq h1]; rfl
    have e2 : Obj.packWrite env n v st2 = .ok () s2 := by rw [Obj.packWrite, M.bind_eq h2]; rfl
    rw [e1, e2]
    exact ⟨rfl, by show s1.io = s2.io; rw [f1.2, f2.2, hio]⟩

/-- **C05** (`pack_into`, partial).  If `obj.pack_into(buffer, offset)` succeeds after one history
without growing the buffer, it succeeds after every other one and leaves the same buffer.  Missing
besides the condition on `v`: buffers that grow, and which exception a failing call raises. -/
theorem C05_pack_into_partial (env : Env) (n off : Nat) (v : Val) (hc : Calm env v.nodes)
    (st1 st2 st1' : St) (hbuf : st1.buf = st2.buf) (hoff : off ≤ st1.buf.length)
    (h : Obj.packInto env n off v st1 = .ok () st1') (hlen : st1'.buf.length = st1.buf.length) :
    ∃ st2', Obj.packInto env n off v st2 = .ok () st2' ∧ st2'.buf = st1'.buf := by
  obtain ⟨b, s1, hp, hfit, _, hb, _, _⟩ := C02_pack_into_partial env n off v st1 st1' h hlen
  have e := C05_pack_partial env n v hc st1 st2
  rw [hp] at e
  cases hp2 : Obj.pack env n v st2 with
  | err e2 s2 => rw [hp2] at e; cases e
  | ok b2 s2 =>
    rw [hp2] at e
    cases e
    obtain ⟨st2', h2, hb2, _⟩ := C02_pack_into_fits env n off v st2 s2 b hp2 (by
      rw [← hbuf]
      rcases hfit with rfl | hfit
      · simpa using hoff
      · exact hfit)
    exact ⟨st2', h2, by rw [hb2, hb, hbuf]⟩

/-- A condition on the classes alone: with every byte order, every serializer is tame and no array has
arrays, tuples or unions as its direct items. -/
def Plain (env : Env) : Prop := ∀ c bo ci ser, objSer env c bo = .ok (ci, ser) →
  ser.tame false = true ∧ ser.itemKeepers = []

theorem calm_of_plain {env : Env} (h : Plain env) (nodes) : Calm env nodes := by
  intro c bo attrs ci ser _ hs
  obtain ⟨h1, h2⟩ := h c bo ci ser hs
  exact ⟨h1, by rw [h2]; simp⟩

/-- **C05** (`pack`, for whole programs, partial).  In a program whose classes are `Plain`, no
`obj.pack()` depends on what ran before, for any object of any class. -/
theorem C05_pack_plain_partial (env : Env) (h : Plain env) (n : Nat) (v : Val) (st1 st2 : St) :
    result (Obj.pack env n v st1) = result (Obj.pack env n v st2) :=
  C05_pack_partial env n v (calm_of_plain h _) st1 st2

theorem samples_plain : Plain env := by
  intro c bo ci ser h
  match c with
  | 0 | 1 | 2 | 3 | 4 | 5 | 6 =>
    cases bo with
    | none => cases h; exact ⟨rfl, rfl⟩
    | some b => cases b <;> (cases h; exact ⟨rfl, rfl⟩)
  | c + 7 => cases h

/-- A tree packed in a fresh interpreter and after another object of the class was packed. -/
example : result (Obj.pack env 12 (tree 1 [tree 2 [], tree 3 [tree 4 []]]) st0)
      = .ok [1, 2, 2, 0, 3, 1, 4, 0] ∧
    result (Obj.pack env 12 (tree 1 [tree 2 [], tree 3 [tree 4 []]])
      (after (Obj.pack env 12 (tree 9 [tree 9 []]) st0))) = .ok [1, 2, 2, 0, 3, 1, 4, 0] ∧
    Plain env := ⟨by rfl, by rfl, samples_plain⟩

/-! ### Unpacking -/

/-- **C05** (`create_unpack`, `create_unpack_from`, `create_unpack_read`, partial).  In a settled
program (`Env.settled`: serializers are handed partial objects where they need one, tuples and union
members are not compounds, no array's item serializer is used again inside the items), unpacking gives
the same object or exception whatever ran before, and leaves a stream at the same position.  Missing:
the cases excluded by `settled`, where it is false (`C05_unpack_full_is_false`). -/
theorem C05_unpack_partial (env : Env) (own : ClassId → List SerId) (hs : env.settled own) (n : Nat)
    (cls : ClassId) (src : Src) (st1 st2 : St) (hio : st1.io = st2.io) :
    result (createUnpack env n cls src st1) = result (createUnpack env n cls src st2) ∧
      (∀ v, result (createUnpack env n cls src st1) = .ok v →
        (after (createUnpack env n cls src st1)).io = (after (createUnpack env n cls src st2)).io) := by
  have hsem : src.sem st2 = src.sem st1 := by cases src <;> simp [Src.sem, hio]
  have hq := (decObj_quiet hs (dec_quiet hs n) cls (src.sem st1)).1
  have h1 := createUnpackWith_rel (env := env) (fun upd => unpack_rel env n upd) cls src st1
  have h2 := createUnpackWith_rel (env := env) (fun upd => unpack_rel env n upd) cls src st2
  rw [hsem] at h2
  cases ho : decObj env (dec env n) cls (src.sem st1) with
  | stuck => exact absurd ho hq
  | err e =>
    rw [ho] at h1 h2
    obtain ⟨s1, h1, f1⟩ := h1
    obtain ⟨s2, h2, f2⟩ := h2
    have e1 : createUnpack env n cls src st1 = .err e s1 := by simp [createUnpack, bind, M.bind, h1]
    have e2 : createUnpack env n cls src st2 = .err e s2 := by simp [createUnpack, bind, M.bind, h2]
    rw [e1, e2]
    exact ⟨rfl, fun v h => by cases h⟩
  | ok r =>
    rw [ho] at h1 h2
    obtain ⟨⟨v1, x1⟩, s1, h1, p1, _, a1, _⟩ := h1
    obtain ⟨⟨v2, x2⟩, s2, h2, p2, _, a2, _⟩ := h2
    have e1 : createUnpack env n cls src st1 = .ok v1 s1 := by rw [createUnpack, M.bind_eq h1]; rfl
    have e2 : createUnpack env n cls src st2 = .ok v2 s2 := by rw [createUnpack, M.bind_eq h2]; rfl
    simp only at p1 p2
    rw [e1, e2]
    refine ⟨by rw [p1, p2]; rfl, fun _ _ => ?_⟩
    show s1.io = s2.io
    have d1 := a1.data
    have d2 := a2.data
    cases src with
    | io =>
      have q1 := a1.ioPos rfl
      have q2 := a2.ioPos rfl
      cases hs1 : s1.io; cases hs2 : s2.io
      simp_all
    | _ => rw [a1.other (by simp), a2.other (by simp), hio]

/-- **C05** (`obj.unpack` and its variants, partial).  The same for unpacking into an existing
object. -/
theorem C05_obj_unpack_partial (env : Env) (own : ClassId → List SerId) (hs : env.settled own) (n : Nat)
    (cls : ClassId) (bo : Option ByteOrder) (attrs : List (Name × Val)) (src : Src)
    (hser : ∀ ci ser, objSer env cls bo = .ok (ci, ser) → ser.tame true = true ∧ ser.apart own cls = true)
    (st1 st2 : St) (hio : st1.io = st2.io) :
    result (Obj.unpack env n (.obj cls bo attrs) src st1) = result (Obj.unpack env n (.obj cls bo attrs) src st2) := by
  have hsem : src.sem st2 = src.sem st1 := by cases src <;> simp [Src.sem, hio]
  simp only [Obj.unpack]
  cases e1 : objSer env cls bo with
  | error e => rfl
  | ok x =>
    obtain ⟨ci, ser⟩ := x
    obtain ⟨ht, ha⟩ := hser ci ser e1
    have r1 := preunpack_rel ser ⟨cls, false, attrs⟩ st1
    have r2 := preunpack_rel ser ⟨cls, false, attrs⟩ st2
    have step : ∀ (f : ClassInfo × Ser → M Val) st, ((M.lift (.ok (ci, ser)) : M (ClassInfo × Ser)) >>= f) st = f (ci, ser) st :=
      fun _ _ => rfl
    rw [step, step]
    simp only
    cases e2 : preU ser ⟨cls, false, attrs⟩ with
    | error e =>
      rw [e2] at r1 r2
      obtain ⟨s1, h1, _⟩ := r1
      obtain ⟨s2, h2, _⟩ := r2
      simp only [bind, M.bind, h1, h2]; rfl
    | ok y =>
      obtain ⟨s', q⟩ := y
      rw [e2] at r1 r2
      obtain ⟨x1, s1, h1, p1, _, hp1, f1, _⟩ := r1
      obtain ⟨x2, s2, h2, p2, _, hp2, f2, _⟩ := r2
      cases p1; cases p2
      rw [M.bind_eq h1, M.bind_eq h2]
      have hp := preU_ok ht ha rfl e2
      have hq := (dec_quiet hs n cls (assignVals ci.attrs) s' q (src.sem s1) (assignVals_ok _) hp.tame hp.ready hp.apart hp.of).1
      have hsem' : src.sem s2 = src.sem s1 := by cases src <;> simp [Src.sem, f1.2, f2.2, hio]
      have u1 := unpack_rel env n (assignVals ci.attrs) s' q src s1 hp1
      have u2 := unpack_rel env n (assignVals ci.attrs) s' q src s2 hp2
      rw [hsem'] at u2
      cases ho : dec env n (assignVals ci.attrs) s' q (src.sem s1) with
      | stuck => exact absurd ho hq
      | err e =>
        rw [ho] at u1 u2
        obtain ⟨t1, h1, _⟩ := u1
        obtain ⟨t2, h2, _⟩ := u2
        simp only [bind, M.bind, h1, h2]; rfl
      | ok r =>
        rw [ho] at u1 u2
        obtain ⟨_, t1, h1, rfl, _⟩ := u1
        obtain ⟨_, t2, h2, rfl, _⟩ := u2
        rw [M.bind_eq h1, M.bind_eq h2]
        split <;> rfl

/-- What the sample classes hand a partial object to. -/
def samplesOwn : ClassId → List SerId
  | 1 => [[11]]
  | 2 => [[20]]
  | 6 => [[60]]
  | _ => []

theorem samples_settled : env.settled samplesOwn := by
  intro c ci h
  match c with
  | 0 | 1 | 2 | 3 | 4 | 5 | 6 =>
    cases h
    refine ⟨rfl, rfl, ?_, ?_⟩ <;> decide
  | c + 7 => cases h

example : result (createUnpack env 12 2 (.buf [1, 2, 2, 0, 3, 1, 4, 0]) st0)
      = .ok (tree 1 [tree 2 [], tree 3 [tree 4 []]]) ∧
    result (createUnpack env 12 2 (.buf [1, 2, 2, 0, 3, 1, 4, 0])
      (after (createUnpack env 12 2 (.buf [1, 1, 2, 0]) st0)))
      = .ok (tree 1 [tree 2 [], tree 3 [tree 4 []]]) ∧ env.settled samplesOwn :=
  ⟨by rfl, by rfl, samples_settled⟩

/-! ### Where it fails -/

/--
    U = Annotated[uint8 | uint16, LookbackDecider(lambda o: o.kind, {0: uint8, 1: uint16})]
    class A(Structured):                       # 0
        kind: uint8
        body: U
    class B(Structured):                       # 1
        kind: uint8
        body: Annotated[U, Condition(lambda o: True, 0)]
    class C(Structured):                       # 2
        pair: tuple[uint8, char[uint8]]
        z: uint8

`unions.py` does not override `with_byte_order`, so both classes hold the same union object. -/
def oddClasses : ClassId → Option ClassInfo
  | 0 => some
    { attrs := ["kind", "body"], byteOrder := .default
      serializer := .compound [1] [.struct u8, .lookback [9] kindOf [.int 0, .int 1] [.struct u8, .struct ⟨['H'], none⟩] .null] }
  | 1 => some
    { attrs := ["kind", "body"], byteOrder := .default
      serializer := .compound [2] [.struct u8, .cond
        (.lookback [9] kindOf [.int 0, .int 1] [.struct u8, .struct ⟨['H'], none⟩] .null) (fun _ => .ok (.bool true)) [.int 0]] }
  | 2 => some
    { attrs := ["pair", "z"], byteOrder := .default
      serializer := .compound [3] [.tuple [31] (.compound [32] [.struct u8, .dynChar [33] u8]), .struct u8] }
  | _ => none

def oddEnv : Env := ⟨plat, oddClasses⟩

/-- **C05 is false in full** (packing).  An object of `B` cannot be packed in a fresh interpreter
(`AttributeError`), can be after an object of `A` was packed, and its union is then decided by that
other object: the same `pack()` writes one or two bytes for the union. -/
theorem C05_full_is_false : ∃ (env : Env) (v a0 a1 : Val) (st : St),
    result (Obj.pack env 9 v st) = .error .attributeError ∧
    result (Obj.pack env 9 v (after (Obj.pack env 9 a0 st))) = .ok [0, 5] ∧
    result (Obj.pack env 9 v (after (Obj.pack env 9 a1 st))) = .ok [0, 5, 0] := by
  refine ⟨oddEnv, .obj 1 none [("kind", .int 0), ("body", .int 5)], .obj 0 none [("kind", .int 0), ("body", .int 1)],
    .obj 0 none [("kind", .int 1), ("body", .int 1)], st0, by rfl, by rfl, by rfl⟩

/-- **C05 is false in full** (unpacking).  A tuple of more than one serializer is unpacked lazily and
its size read before: the field after it is read from a place that depends on earlier operations. -/
theorem C05_unpack_full_is_false : ∃ (env : Env) (cls : ClassId) (b : Bytes) (v : Val) (st : St),
    result (createUnpack env 9 cls (.buf b) st) = .ok (.obj cls none [("pair", .gen), ("z", .int 1)]) ∧
    result (createUnpack env 9 cls (.buf b) (after (Obj.pack env 9 v st)))
      = .ok (.obj cls none [("pair", .gen), ("z", .int 7)]) := by
  refine ⟨oddEnv, 2, [1, 1, 65, 7], .obj 2 none [("pair", .tup [.int 1, .bytes [65]]), ("z", .int 7)], st0, by rfl, by rfl⟩

end Verif
