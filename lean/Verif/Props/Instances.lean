import Verif.Instances
import Verif.Proofs.EqLemmas
import Verif.Proofs.LooksAt
import Verif.Proofs.HistoryPack
import Verif.Samples
/-
C29: attributes set by `__init__` and by unpacking.  C30: equality of instances.
-/
namespace Verif
open Samples

/-! ### Attributes -/

/-- **C29** (`__init__`).  `cls(*values)` with as many values as the class has attributes gives an instance of the class on
which the `i`-th attribute is the `i`-th value, and no others are set (before `__post_init__` runs on it). -/
theorem C29_init (cls : ClassId) (ci : ClassInfo) (hn : ci.attrs.Nodup) (vals : List Val) (hl : vals.length = ci.attrs.length) :
    ∃ as : List (Name × Val), callClass cls ci vals = (do .ok (.obj cls none (← ci.postInit as))) ∧ as.map Prod.fst = ci.attrs ∧
      ∀ (i : Nat) (h1 : i < ci.attrs.length) (h2 : i < vals.length), getAttr? as ci.attrs[i] = some vals[i] := by
  refine ⟨setAll [] (ci.attrs.zip vals), ?_, ?_, getAttr_setAll_zip _ _ _ hn⟩
  · rw [callClass, if_neg (by simp [hl])]; rfl
  · rw [setAll_zip hn, List.map_fst_zip (by omega)]

/-- **C29** (`__init__`).  Any other number of values is a `TypeError`. -/
theorem C29_init_wrong_count (cls : ClassId) (ci : ClassInfo) (vals : List Val) (hl : vals.length ≠ ci.attrs.length) :
    callClass cls ci vals = .error .typeError := by
  rw [callClass, if_pos hl]

example : callClass 0 ⟨["x", "y"], .struct ⟨"<Hb".toList, none⟩, .le, .ok⟩ [.int 3, .int 4] = .ok (point 3 4) := by rfl
example : callClass 0 ⟨["x", "y"], .struct ⟨"<Hb".toList, none⟩, .le, .ok⟩ [.int 3] = .error .typeError := by rfl

/-- **C29** (`unpack`, `unpack_from`, `unpack_read` of an instance).  When unpacking succeeds the serializer gave exactly
one value per attribute; the `i`-th attribute is the `i`-th value; every other attribute is what it was. -/
theorem C29_unpack (env : Env) (n : Nat) (cls : ClassId) (bo : Option ByteOrder) (attrs : List (Name × Val)) (src : Src) (st st' : St) (w : Val)
    (h : Obj.unpack env n (.obj cls bo attrs) src st = .ok w st') :
    ∃ ci ser s vals st1 st2 as, objSer env cls bo = .ok (ci, ser) ∧ ser.preunpack ⟨cls, false, attrs⟩ st1 = .ok s st2 ∧
      unpack env n (assignVals ci.attrs) s src st2 = .ok vals st' ∧ vals.length = ci.attrs.length ∧ w = .obj cls bo as ∧
      (ci.attrs.Nodup → ∀ (i : Nat) (h1 : i < ci.attrs.length) (h2 : i < vals.length), getAttr? as ci.attrs[i] = some vals[i]) ∧
      ∀ a, a ∉ ci.attrs → getAttr? as a = getAttr? attrs a := by
  unfold Obj.unpack at h
  obtain ⟨⟨ci, ser⟩, t1, h1, h⟩ := M.bind_ok h
  obtain ⟨s, t2, h2, h⟩ := M.bind_ok h
  obtain ⟨vals, t3, h3, h⟩ := M.bind_ok h
  have h1' : objSer env cls bo = .ok (ci, ser) := by
    simp only [M.lift] at h1
    split at h1
    · rename_i hx; cases h1; exact hx
    · cases h1
  split at h
  · rename_i hl
    cases h
    refine ⟨ci, ser, s, vals, t1, t2, _, h1', h2, h3, hl, rfl, fun hn => ?_, fun a ha => ?_⟩
    · exact getAttr_setAll_zip _ _ attrs hn
    · exact getAttr_setAll_other _ _ fun hm => ha ((zip_fst_sublist _ _).subset hm)
  · cases h

/-- **C29** (`unpack` of an instance).  If the serializer gives another number of values, `ValueError`. -/
theorem C29_unpack_wrong_count (env : Env) (n : Nat) (cls : ClassId) (bo : Option ByteOrder) (attrs : List (Name × Val)) (src : Src)
    (ci : ClassInfo) (ser s : Ser) (vals : List Val) (st st1 st2 : St) (h1 : objSer env cls bo = .ok (ci, ser))
    (h2 : ser.preunpack ⟨cls, false, attrs⟩ st = .ok s st1) (h3 : unpack env n (assignVals ci.attrs) s src st1 = .ok vals st2)
    (hl : vals.length ≠ ci.attrs.length) : Obj.unpack env n (.obj cls bo attrs) src st = .err .valueError st2 := by
  unfold Obj.unpack
  have e : M.lift (objSer env cls bo) st = .ok (ci, ser) st := by rw [h1]; rfl
  simp only [bind, M.bind, e, h2, h3, if_neg hl]
  rfl

/-- **C29** (`create_unpack`, `create_unpack_from`, `create_unpack_read`).  A new instance of the class with exactly the
attributes of the class, the `i`-th being the `i`-th value read, handed to `__post_init__`; the same instance as
`cls(*values)` makes. -/
theorem C29_create_unpack (env : Env) (n : Nat) (cls : ClassId) (src : Src) (st st' : St) (w : Val)
    (h : createUnpack env n cls src st = .ok w st') :
    ∃ ci s vals st1, env.classes cls = some ci ∧ ci.serializer.preunpack ⟨cls, true, []⟩ st = .ok s st1 ∧
      unpack env n (assignVals ci.attrs) s src st1 = .ok vals st' ∧ vals.length = ci.attrs.length ∧
      (ci.attrs.Nodup → callClass cls ci vals = .ok w) := by
  unfold createUnpack createUnpackWith at h
  obtain ⟨⟨v, ser⟩, t1, h1, h⟩ := M.bind_ok h
  cases h
  cases hc : env.classes cls with
  | none => simp only [hc] at h1; cases h1
  | some ci =>
    simp only [hc] at h1
    obtain ⟨s, t2, h2, h1⟩ := M.bind_ok h1
    obtain ⟨vals, t3, h3, h1⟩ := M.bind_ok h1
    obtain ⟨v', t4, h4, h1⟩ := M.bind_ok h1
    cases h1
    have h5 : construct cls ci vals = .ok w ∧ st' = t3 := by
      simp only [M.lift] at h4
      split at h4
      · rename_i h6; cases h4; exact ⟨h6, rfl⟩
      · cases h4
    obtain ⟨h5, rfl⟩ := h5
    unfold construct at h5
    split at h5
    · rename_i hl
      refine ⟨ci, s, vals, t2, rfl, h2, h3, hl, fun hn => ?_⟩
      rw [callClass, if_neg (by simp [hl])]
      show (do let attrs ← ci.postInit (setAll [] (ci.attrs.zip vals)); Except.ok (Val.obj cls none attrs)) = _
      rw [setAll_zip hn]
      exact h5
    · cases h5

/-- **C29** (`create_unpack`).  If the serializer gives another number of values, `ValueError`. -/
theorem C29_create_unpack_wrong_count (env : Env) (n : Nat) (cls : ClassId) (src : Src) (ci : ClassInfo) (s : Ser) (vals : List Val)
    (st st1 st2 : St) (h1 : env.classes cls = some ci) (h2 : ci.serializer.preunpack ⟨cls, true, []⟩ st = .ok s st1)
    (h3 : unpack env n (assignVals ci.attrs) s src st1 = .ok vals st2) (hl : vals.length ≠ ci.attrs.length) :
    createUnpack env n cls src st = .err .valueError st2 := by
  unfold createUnpack createUnpackWith
  simp only [h1]
  have e : M.lift (construct cls ci vals) st2 = .err .valueError st2 := by rw [construct, if_neg hl]; rfl
  simp only [bind, M.bind, h2, h3, e]

-- the attribute `extra` stays, `x` and `y` are replaced
example : result (Obj.unpack env 5 (.obj 0 none [("y", .int 0), ("extra", .none), ("x", .int 9)]) (.buf [1, 2, 3]) st0)
    = .ok (.obj 0 none [("y", .int 3), ("extra", .none), ("x", .int 513)]) := by rfl

/-! ### C30 -/

/-- **C30**.  Two instances are equal exactly when they have the same class and every serialized attribute is present on both
and equal. -/
theorem C30_eq (env : Env) (ue : Val → Val → Except Err Bool) (n : Nat) (c d : ClassId) (b1 b2 : Option ByteOrder) (as bs : List (Name × Val)) :
    pyEq env ue (n + 1) (.obj c b1 as) (.obj d b2 bs) = .ok true ↔
      c = d ∧ ∃ ci, env.classes c = some ci ∧
        ∀ a ∈ ci.attrs, ∃ v w, getAttr? as a = some v ∧ getAttr? bs a = some w ∧ pyEq env ue n v w = .ok true := by
  rw [pyEq_obj]
  by_cases h : c = d
  · subst h
    rw [if_neg (by simp)]
    cases hc : env.classes c with
    | none => simp
    | some ci =>
      simp only [Option.some.injEq, exists_eq_left', true_and]
      exact eqAttrs_true
  · rw [if_pos h]; simp [h]

/-- **C30**.  Instances of different classes are never equal, whatever their attributes. -/
theorem C30_different_class (env : Env) (ue : Val → Val → Except Err Bool) (n : Nat) (c d : ClassId) (b1 b2 : Option ByteOrder)
    (as bs : List (Name × Val)) (h : c ≠ d) : pyEq env ue (n + 1) (.obj c b1 as) (.obj d b2 bs) = .ok false := by
  rw [pyEq_obj, if_pos h]

/-- **C30**.  Unequal instances of one class differ in a serialized attribute. -/
theorem C30_not_eq (env : Env) (ue : Val → Val → Except Err Bool) (n : Nat) (c : ClassId) (b1 b2 : Option ByteOrder)
    (as bs : List (Name × Val)) (h : pyEq env ue (n + 1) (.obj c b1 as) (.obj c b2 bs) = .ok false) :
    ∃ ci, env.classes c = some ci ∧ ∃ a ∈ ci.attrs, ∃ v w, getAttr? as a = some v ∧ getAttr? bs a = some w ∧ pyEq env ue n v w = .ok false := by
  rw [pyEq_obj, if_neg (by simp)] at h
  cases hc : env.classes c with
  | none => simp [hc] at h
  | some ci =>
    simp only [hc] at h
    exact ⟨ci, rfl, eqAttrs_false h⟩

/-- **C30** (attributes that are not there).  If the first attribute in which two instances of one class are not equal is missing in one of
them, the comparison raises `AttributeError`. -/
theorem C30_missing (env : Env) (ue : Val → Val → Except Err Bool) (n : Nat) (c : ClassId) (b1 b2 : Option ByteOrder)
    (as bs : List (Name × Val)) (ci : ClassInfo) (hc : env.classes c = some ci) (pre post : List Name) (a : Name) (ha : ci.attrs = pre ++ a :: post)
    (hp : ∀ a ∈ pre, ∃ v w, getAttr? as a = some v ∧ getAttr? bs a = some w ∧ pyEq env ue n v w = .ok true)
    (hm : getAttr? as a = none ∨ getAttr? bs a = none) :
    pyEq env ue (n + 1) (.obj c b1 as) (.obj c b2 bs) = .error .attributeError := by
  rw [pyEq_obj, if_neg (by simp), hc]
  simp only [ha]
  clear ha
  induction pre with
  | nil =>
    simp only [List.nil_append, eqAttrs]
    rcases hm with h | h
    · rw [h]
    · rw [h]
      cases getAttr? as a <;> rfl
  | cons x pre ih =>
    obtain ⟨v, w, h1, h2, h3⟩ := hp x List.mem_cons_self
    simp only [List.cons_append, eqAttrs, h1, h2, h3, bind, Except.bind, if_true]
    exact ih fun a h => hp a (List.mem_cons_of_mem _ h)

/-- **C30** (laws).  Equality of instances is reflexive, symmetric and transitive when equality of their attributes is. -/
theorem C30_equivalence (env : Env) (ue : Val → Val → Except Err Bool) (n : Nat) (c d e : ClassId) (b1 b2 b3 : Option ByteOrder)
    (as bs cs : List (Name × Val)) :
    ((∃ ci, env.classes c = some ci ∧ ∀ a ∈ ci.attrs, ∃ v, getAttr? as a = some v ∧ pyEq env ue n v v = .ok true) →
      pyEq env ue (n + 1) (.obj c b1 as) (.obj c b1 as) = .ok true) ∧
    ((∀ v w, pyEq env ue n v w = .ok true → pyEq env ue n w v = .ok true) →
      pyEq env ue (n + 1) (.obj c b1 as) (.obj d b2 bs) = .ok true → pyEq env ue (n + 1) (.obj d b2 bs) (.obj c b1 as) = .ok true) ∧
    ((∀ u v w, pyEq env ue n u v = .ok true → pyEq env ue n v w = .ok true → pyEq env ue n u w = .ok true) →
      pyEq env ue (n + 1) (.obj c b1 as) (.obj d b2 bs) = .ok true → pyEq env ue (n + 1) (.obj d b2 bs) (.obj e b3 cs) = .ok true →
      pyEq env ue (n + 1) (.obj c b1 as) (.obj e b3 cs) = .ok true) := by
  simp only [C30_eq]
  refine ⟨?_, ?_, ?_⟩
  · rintro ⟨ci, h1, h2⟩
    refine ⟨trivial, ci, h1, fun a ha => ?_⟩
    obtain ⟨v, hv, he⟩ := h2 a ha
    exact ⟨v, v, hv, hv, he⟩
  · rintro hs ⟨rfl, ci, h1, h2⟩
    refine ⟨rfl, ci, h1, fun a ha => ?_⟩
    obtain ⟨v, w, hv, hw, he⟩ := h2 a ha
    exact ⟨w, v, hw, hv, hs _ _ he⟩
  · rintro ht ⟨rfl, ci, h1, h2⟩ ⟨rfl, ci', h1', h2'⟩
    rw [h1] at h1'
    cases h1'
    refine ⟨rfl, ci, h1, fun a ha => ?_⟩
    obtain ⟨v, w, hv, hw, he⟩ := h2 a ha
    obtain ⟨w', u, hw', hu, he'⟩ := h2' a ha
    rw [hw] at hw'
    cases hw'
    exact ⟨v, u, hv, hu, ht _ _ _ he he'⟩

/-- **C30** (laws for all values).  For numbers, strings, containers and nested instances of any depth nothing needs to be
assumed: `==` is symmetric and transitive (integers, booleans and doubles compare by exact value), and reflexive on values
without NaN, given a large enough recursion limit. -/
theorem C30_value_laws (env : Env) (ue : Val → Val → Except Err Bool) :
    (∀ n v, v.sane env = true → v.eqDepth ≤ n → pyEq env ue n v v = .ok true) ∧
    ((∀ a b, ue a b = .ok true → ue b a = .ok true) → ∀ n v w, pyEq env ue n v w = .ok true → pyEq env ue n w v = .ok true) ∧
    (UserTrans env ue → ∀ n u v w, pyEq env ue n u v = .ok true → pyEq env ue n v w = .ok true → pyEq env ue n u w = .ok true) :=
  ⟨pyEq_refl env ue, fun h => pyEq_symm env h, fun h => pyEq_trans env h⟩

/-- No user types. -/
def noUser : Val → Val → Except Err Bool := fun _ _ => .ok false

example : pyEq env noUser 3 (msg 1 [104] [point 1 2, point 3 4]) (msg 1 [104] [point 1 2, point 3 4]) = .error .recursionError := by rfl
example : pyEq env noUser 9 (msg 1 [104] [point 1 2, point 3 4]) (msg 1 [104] [point 1 2, point 3 4]) = .ok true := by rfl
example : pyEq env noUser 9 (msg 1 [104] [point 1 2, point 3 4]) (msg 1 [104] [point 1 2, point 3 5]) = .ok false := by rfl
example : (msg 1 [104] [point 1 2, point 3 4]).sane env = true := by rfl
-- `1.0 == True`
example : pyEq env noUser 2 (.obj 3 none [("data", .float 0x3FF0000000000000)]) (.obj 3 none [("data", .bool true)]) = .ok true := by rfl

/-- **C30** (packing, partial).  Two instances of one class with the same instance byte order whose serialized attributes are the
same values pack to the same bytes (or fail alike), from any states, if the deciders and conditions of the class look at
serialized attributes only.  Missing: instances that differ in byte order (`C30_byte_order_is_false`), deciders looking at
other attributes (`C30_decider_is_false`). -/
theorem C30_pack_partial (env : Env) (n : Nat) (c : ClassId) (bo : Option ByteOrder) (as bs : List (Name × Val)) (ci : ClassInfo) (ser : Ser)
    (hs : objSer env c bo = .ok (ci, ser)) (hl : ser.looksAt ci.attrs) (h : ∀ a ∈ ci.attrs, getAttr? as a = getAttr? bs a)
    (hc : Calm env (Val.obj c bo as).nodes) (st1 st2 : St) :
    result (Obj.pack env n (.obj c bo as) st1) = result (Obj.pack env n (.obj c bo bs) st2) := by
  have hq := (encObj_quiet (enc_quiet env n) (.obj c bo as) hc).1
  have h1 := objPack_rel (env := env) (pack_rel env n) (.obj c bo as) st1
  have h2 := objPack_rel (env := env) (pack_rel env n) (.obj c bo bs) st2
  rw [← encObj_agrees env n c bo as bs hs hl h] at h2
  cases ho : Sem.encObj env (Sem.enc env n) (.obj c bo as) with
  | stuck => exact absurd ho hq
  | err e =>
    rw [ho] at h1 h2
    obtain ⟨s1, h1, _⟩ := h1
    obtain ⟨s2, h2, _⟩ := h2
    have e1 : Obj.pack env n (.obj c bo as) st1 = .err e s1 := by simp [Obj.pack, bind, M.bind, h1]
    have e2 : Obj.pack env n (.obj c bo bs) st2 = .err e s2 := by simp [Obj.pack, bind, M.bind, h2]
    rw [e1, e2]; rfl
  | ok r =>
    rw [ho] at h1 h2
    obtain ⟨⟨b1, x1⟩, s1, h1, p1, _⟩ := h1
    obtain ⟨⟨b2, x2⟩, s2, h2, p2, _⟩ := h2
    have e1 : Obj.pack env n (.obj c bo as) st1 = .ok b1 s1 := by rw [Obj.pack, M.bind_eq h1]; rfl
    have e2 : Obj.pack env n (.obj c bo bs) st2 = .ok b2 s2 := by rw [Obj.pack, M.bind_eq h2]; rfl
    simp only at p1 p2
    rw [e1, e2, p1, p2]; rfl

-- the decider of `Alt` looks at `kind`, a serialized attribute
example : ∃ ci ser, objSer env 6 none = .ok (ci, ser) ∧ ser.looksAt ci.attrs := by
  refine ⟨_, _, rfl, ?_⟩
  simp only [Ser.looksAt, Ser.looksAtList, true_and, and_true]
  intro p q h
  simp only [kindOf, h.2.2 "kind" (by simp)]

/-- **C30** is false across instance byte orders: `p == p.with_byte_order(BIG_ENDIAN)`, yet they pack differently. -/
theorem C30_byte_order_is_false : ∃ (env : Env) (p q : Val), Obj.withByteOrder env .be p = .ok q ∧
    pyEq env noUser 3 p q = .ok true ∧ result (Obj.pack env 3 p st0) ≠ result (Obj.pack env 3 q st0) := by
  refine ⟨env, point 1 2, .obj 0 (some .be) [("x", .int 1), ("y", .int 2)], by rfl, by rfl, ?_⟩
  have h1 : result (Obj.pack env 3 (point 1 2) st0) = .ok [1, 0, 2] := by rfl
  have h2 : result (Obj.pack env 3 (.obj 0 (some .be) [("x", .int 1), ("y", .int 2)]) st0) = .ok [0, 1, 2] := by rfl
  rw [h1, h2]; simp

/-- One field: a union decided by the attribute `kind`, which is not serialized. -/
def hiddenKind : Env := ⟨plat, fun _ => some
  { attrs := ["body"], byteOrder := .default
    serializer := .lookback [1] kindOf [.int 0, .int 1] [.struct u8, .struct ⟨"<H".toList, none⟩] .null }⟩

/-- **C30** is false with a decider that looks at an attribute that is not serialized: equal instances pack to different
bytes. -/
theorem C30_decider_is_false : ∃ (env : Env) (p q : Val), pyEq env noUser 3 p q = .ok true ∧
    result (Obj.pack env 3 p st0) ≠ result (Obj.pack env 3 q st0) := by
  refine ⟨hiddenKind, .obj 0 none [("body", .int 5), ("kind", .int 0)], .obj 0 none [("body", .int 5), ("kind", .int 1)], by rfl, ?_⟩
  have h1 : result (Obj.pack hiddenKind 3 (.obj 0 none [("body", .int 5), ("kind", .int 0)]) st0) = .ok [5] := by rfl
  have h2 : result (Obj.pack hiddenKind 3 (.obj 0 none [("body", .int 5), ("kind", .int 1)]) st0) = .ok [5, 0] := by rfl
  rw [h1, h2]; simp

end Verif
