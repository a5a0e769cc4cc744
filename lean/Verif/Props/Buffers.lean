import Verif.Proofs.BufferLemmas
import Verif.Proofs.BufferViews
import Verif.Samples
/-
C46: it does not matter whether a buffer is a `bytes`, a `bytearray` or a `memoryview`.
-/
namespace Verif
open Buf

/-! ### Reading -/

/-- **C46**.  On `bytes`, the description with kinds is the one of the other properties. -/
theorem C46_bytes (env : Env) (n : Nat) (cls : ClassId) (src : Src) (st : St) :
    Buf.createUnpack env .bytes n cls src st = Verif.createUnpack env n cls src st := by
  have h := same_create (k := .bytes) (env := env) (raw := true) (net := true) (fun h => absurd rfl h)
    (fun upd hu => same_unpack (env := env) (fun h => absurd rfl h) n upd hu) (cls := cls) (src := src) (.inl rfl) (st := st)
    (fun h => absurd rfl h)
  exact bind_congr2 h fun q st1 _ => rfl

/-- **C46** (part).  `create_unpack` of a `bytearray` or a `memoryview` gives what it gives for `bytes`: the same object, the
same exception, the same state, for programs without read-to-end strings and `char[NET]` strings. -/
theorem C46_buffer_partial (env : Env) (k : Kind) (n : Nat) (cls : ClassId) (b : Bytes) (st : St)
    (he : env.Plain false false) (hst : st.Plain) :
    Buf.createUnpack env k n cls (.buf b) st = Verif.createUnpack env n cls (.buf b) st := by
  have h := same_create (k := k) (cls := cls) (src := .buf b) (st := st) (fun _ => he)
    (fun upd hu => same_unpack (fun _ => he) n upd hu) (.inr ⟨Bool.noConfusion, Bool.noConfusion⟩) (fun _ => hst)
  exact bind_congr2 h fun q st1 _ => rfl

/-- **C46** (part).  The same for `create_unpack_from`, with `char[NET]` strings. -/
theorem C46_offset_partial (env : Env) (k : Kind) (n : Nat) (cls : ClassId) (b : Bytes) (off : Nat) (st : St)
    (he : env.Plain false true) (hst : st.Plain) :
    Buf.createUnpack env k n cls (.at b off) st = Verif.createUnpack env n cls (.at b off) st := by
  have h := same_create (k := k) (cls := cls) (src := .at b off) (st := st) (fun _ => he)
    (fun upd hu => same_unpack (fun _ => he) n upd hu) (.inr ⟨Bool.noConfusion, fun _ => rfl⟩) (fun _ => hst)
  exact bind_congr2 h fun q st1 _ => rfl

/-- **C46**.  Reading from a stream never makes slices of buffers. -/
theorem C46_stream (env : Env) (k : Kind) (n : Nat) (cls : ClassId) (st : St)
    (he : env.Plain true true) (hst : st.Plain) :
    Buf.createUnpack env k n cls .io st = Verif.createUnpack env n cls .io st := by
  have h := same_create (k := k) (cls := cls) (src := .io) (st := st) (fun _ => he)
    (fun upd hu => same_unpack (fun _ => he) n upd hu) (.inr ⟨fun _ => rfl, fun _ => rfl⟩) (fun _ => hst)
  exact bind_congr2 h fun q st1 _ => rfl

/-- **C46**.  No object read from `bytes`, and no partial object left behind, has a slice of another kind of buffer. -/
theorem C46_plain (env : Env) (n : Nat) (cls : ClassId) (src : Src) (st st' : St) (v : Val)
    (he : env.Plain true true) (hst : st.Plain) (h : Verif.createUnpack env n cls src st = .ok v st') :
    v.NoSlice ∧ st'.Plain := by
  obtain ⟨q, st1, h1, h2⟩ := M.bind_ok h
  cases h2
  exact good_create he (fun upd hu => good_unpack he n upd hu) hst h1

/-- **C46** (part).  A read-to-end string takes the kind of the buffer, and nothing else of the outcome changes: after other
parts without such strings it is the last value, a slice of the buffer from where the parts end. -/
theorem C46_rest_partial (env : Env) (k : Kind) (n : Nat) (id j : SerId) (ss : List Ser) (b : Bytes) (off : Nat) (st : St)
    (he : env.Plain false true) (hs : Ser.PlainList false true ss) (hst : st.Plain) :
    match Verif.unpack env (n + 2) noUpd (.compound id (ss ++ [.consuming j])) (.at b off) st with
    | .err e st' => Buf.unpack env k (n + 2) noUpd (.compound id (ss ++ [.consuming j])) (.at b off) st = .err e st'
    | .ok vs st' => ∃ ws size, vs = ws ++ [.bytes (b.drop (off + size))] ∧
        Buf.unpack env k (n + 2) noUpd (.compound id (ss ++ [.consuming j])) (.at b off) st =
          .ok (ws ++ [k.wrap (b.drop (off + size))]) st' := by
  have r := rest_loop (k := k) (same_unpack (fun _ => he) (n + 1) noUpd noUpd_plain) (b := b) (off := off) (j := j) ss 0 st hs
    fun _ => hst
  have e1 : Verif.unpack env (n + 2) noUpd (.compound id (ss ++ [.consuming j])) (.at b off) =
      (unpackLoop (Verif.unpack env (n + 1) noUpd) (.at b off) 0 (ss ++ [.consuming j]) >>= fun q => do
        setSize id q.2
        pure q.1) := rfl
  have e2 : Buf.unpack env k (n + 2) noUpd (.compound id (ss ++ [.consuming j])) (.at b off) =
      (unpackLoop (Buf.unpack env k (n + 1) noUpd) (.at b off) 0 (ss ++ [.consuming j]) >>= fun q => do
        setSize id q.2
        pure q.1) := rfl
  rw [e1, e2]
  cases h : unpackLoop (Verif.unpack env (n + 1) noUpd) (.at b off) 0 (ss ++ [.consuming j]) st with
  | err er st1 =>
    rw [h] at r
    rw [bind_eq_err h, bind_eq_err r]
  | ok q st1 =>
    rw [h] at r
    obtain ⟨ws, sz, h1, h2⟩ := r
    rw [M.bind_eq h, M.bind_eq h2]
    exact ⟨ws, sz, h1, rfl⟩

/-! ### Writing -/

/-- **C46**.  `pack_into` a `memoryview` does what `pack_into` a `bytearray` does - same bytes, same exception, same state -
unless that makes the `bytearray` longer; then it raises `ValueError`.  The length of the view never changes. -/
theorem C46_view (env : Env) (n off : Nat) (v : Val) (st : St) :
    SameUnlessGrown st (Buf.Obj.packIntoView env n off v st) (Verif.Obj.packInto env n off v st) := by
  have h : ViewOf (Buf.Obj.packIntoView env n off v) (Verif.Obj.packInto env n off v) :=
    ViewOf.bind (objPackInto_view env off (packIntoView_of env n) v) fun _ =>
      ViewOf.of_safe (Safe.pure keep_frame _)
  rcases h.run st with ⟨h1, h2⟩ | ⟨st', h1, h2, h3⟩
  · exact ⟨by rw [h1]; exact h2, .inl ⟨h2, h1⟩⟩
  · exact ⟨by rw [h1]; exact h2, .inr ⟨h3, st', h1⟩⟩

/-! ### Concrete cases and counterexamples -/

open Samples

theorem kindOf_plain (p : PObj) (r : Val) (hp : Val.NoSliceAttrs p.attrs) (h : kindOf p = .ok r) : r.NoSlice := by
  unfold kindOf at h
  cases hg : getAttr? p.attrs "kind" with
  | none => rw [hg] at h; cases h
  | some v =>
    rw [hg] at h
    cases h
    unfold getAttr? at hg
    cases hf : p.attrs.find? (fun q => q.1 == "kind") with
    | none => rw [hf] at hg; cases hg
    | some q =>
      rw [hf] at hg
      cases hg
      exact noSliceAttrs_mem.1 hp _ (List.mem_of_find?_eq_some hf)

/-- The sample program without its read-to-end string. -/
def boundedSamples : Env := ⟨plat, fun c => if c = 3 then none else classes c⟩

theorem u8_plain : u8.Plain := plain_of_none rfl

theorem boundedSamples_plain : boundedSamples.Plain false false := by
  intro c ci h
  simp only [boundedSamples] at h
  by_cases hc : c = 3
  · rw [if_pos hc] at h; cases h
  · rw [if_neg hc] at h
    simp only [Samples.classes] at h
    split at h <;> cases h <;>
      first
      | exact absurd rfl hc
      | exact ⟨by simp [Ser.Plain, Ser.PlainList, u8_plain, Val.NoSliceList, Val.NoSlice]; try
          (first | done | exact plain_of_none rfl | exact fun p r hp h => kindOf_plain p r hp h),
          fun as as' h e => by cases e; exact h⟩

theorem st0_plain : st0.Plain := by intro i p h; cases h

/-- A message, from a `bytearray` and from a view of one. -/
example : result (Buf.createUnpack boundedSamples .bytearray 9 1 (.buf [5, 2, 65, 66, 1, 9, 0, 3]) st0) =
      .ok (msg 5 [65, 66] [point 9 3]) ∧
    result (Buf.createUnpack boundedSamples (.view true) 9 6 (.at [9, 1, 2, 65, 66, 7] 1) st0) =
      .ok (alt 1 (.bytes [65, 66]) 7) := ⟨rfl, rfl⟩

/-- A read-to-end string is a slice of the kind of the buffer; from a file it is `bytes`. -/
example : result (Buf.createUnpack env .bytearray 9 3 (.buf [65, 66]) st0) =
      .ok (.obj 3 none [("data", Kind.bytearray.wrap [65, 66])]) ∧
    result (Buf.createUnpack env .bytearray 9 3 .io { st0 with io := ⟨[65, 66], 0⟩ }) = .ok (blob [65, 66]) := ⟨rfl, rfl⟩

/-- After a count and a string. -/
example : result (Buf.unpack env (.view false) 9 noUpd (.compound [1] ([.struct u8, .dynChar [10] u8] ++ [.consuming [11]]))
    (.at [9, 1, 2, 65, 66, 7, 8] 1) st0) = .ok ([.int 1, .bytes [65, 66]] ++ [(Kind.view false).wrap [7, 8]]) := rfl

/-- A point goes into a view; a name that is too long fails as in a `bytearray`. -/
example : (after (Buf.Obj.packIntoView env 9 1 (point 513 3) { st0 with buf := [9, 9, 9, 9, 9] })).buf = [9, 1, 2, 3, 9] ∧
    result (Buf.Obj.packIntoView env 9 1 (msg 1 [65, 66] []) { st0 with buf := [9, 9, 9] }) = .error .structError := ⟨rfl, rfl⟩

/-- A read-to-end string that fits. -/
example : (after (Buf.Obj.packIntoView env 9 1 (blob [65, 66]) { st0 with buf := [9, 9, 9, 9, 9] })).buf = [9, 65, 66, 9, 9] := rfl

/-- `class Text(Structured): text: unicode[math.inf]` and `class Key(Structured)` with a union chosen by a `char[NET]` read
ahead. -/
def kindEnv : Env := ⟨plat, fun c =>
  if c = 0 then some
    { attrs := ["text"], byteOrder := .default
      serializer := .unicode (.consuming [1]) (fun _ => .ok []) (fun b => .ok (b.map fun x => x.toNat)) }
  else if c = 1 then some
    { attrs := ["body"], byteOrder := .default
      serializer := .lookahead [2] (.net [3]) (fun _ => .ok (.bytes [65])) [.bytes [65]] [.net [4]] .null }
  else none⟩

/-- **C46** (violated).  A string with an encoding that takes the rest of the buffer is read from `bytes`; from a `bytearray` or
a `memoryview` it is a `TypeError`. -/
theorem C46_unicode_is_false : ∃ (env : Env) (st : St) (b : Bytes), st.Plain ∧
    result (Buf.createUnpack env .bytes 9 0 (.buf b) st) = .ok (.obj 0 none [("text", .str [65, 66])]) ∧
    result (Buf.createUnpack env .bytearray 9 0 (.buf b) st) = .error .typeError ∧
    result (Buf.createUnpack env (.view false) 9 0 (.at b 0) st) = .error .typeError :=
  ⟨kindEnv, st0, [65, 66], st0_plain, rfl, rfl, rfl⟩

/-- **C46** (violated).  A key read ahead as `char[NET]` is a `TypeError` for a `bytearray`, a `ValueError` for a view of
one, and as for `bytes` in a view of `bytes`. -/
theorem C46_key_is_false : ∃ (env : Env) (st : St) (b : Bytes) (body : Val), st.Plain ∧
    result (Buf.createUnpack env .bytes 9 1 (.buf b) st) = .ok (.obj 1 none [("body", body)]) ∧
    result (Buf.createUnpack env .bytearray 9 1 (.buf b) st) = .error .typeError ∧
    result (Buf.createUnpack env (.view true) 9 1 (.buf b) st) = .error .valueError ∧
    result (Buf.createUnpack env (.view false) 9 1 (.buf b) st) = .ok (.obj 1 none [("body", (Kind.view false).wrap [65])]) :=
  ⟨kindEnv, st0, [1, 65], .bytes [65], st0_plain, rfl, rfl, rfl, rfl⟩

/-- **C46** (violated).  A read-to-end string that reaches past the end makes a `bytearray` longer and is a `ValueError` for a
view. -/
theorem C46_grow_is_false : ∃ (env : Env) (st : St) (v : Val),
    result (Verif.Obj.packInto env 9 1 v st) = .ok () ∧
    st.buf.length < (Verif.Obj.packInto env 9 1 v st).final.buf.length ∧
    result (Buf.Obj.packIntoView env 9 1 v st) = .error .valueError :=
  ⟨env, { st0 with buf := [9, 9] }, blob [65, 66], rfl, by decide, rfl⟩

/-- **C46** (tuples as keys).  A tuple is a key exactly if each of its items is, and then it is the tuple of their keys. -/
theorem C46_tuple_key (k : Kind) (hk : k ≠ .bytes) (vs ks : List Val) :
    Buf.keyOf k (.tup vs) = .ok (.tup ks) ↔ vs.map (Buf.keyOf k) = ks.map .ok := by
  have h1 : ∀ v, Buf.keyOf k v = Buf.asKey v := by cases k <;> simp_all [Buf.keyOf]
  have h2 : ∀ vs ks, Buf.asKeys vs = .ok ks ↔ vs.map Buf.asKey = ks.map .ok := by
    intro vs
    induction vs with
    | nil => intro ks; cases ks <;> simp [Buf.asKeys]
    | cons v vs ih =>
      intro ks
      simp only [Buf.asKeys]
      cases hv : Buf.asKey v with
      | error e => cases ks <;> simp [bind, Except.bind, hv]
      | ok w =>
        cases hb : Buf.asKeys vs with
        | error e =>
          cases ks with
          | nil => simp [bind, Except.bind]
          | cons x ks =>
            have := ih ks
            rw [hb] at this
            simp only [reduceCtorEq, false_iff] at this
            simp [bind, Except.bind, this]
        | ok us =>
          cases ks with
          | nil => simp [bind, Except.bind]
          | cons x ks =>
            have := ih ks
            rw [hb] at this
            simp only [Except.ok.injEq] at this
            simp [bind, Except.bind, hv, this]
  simp only [h1, Buf.asKey]
  rw [show List.map (Buf.keyOf k) vs = vs.map Buf.asKey from List.map_congr_left fun v _ => h1 v, ← h2]
  cases Buf.asKeys vs <;> simp [bind, Except.bind]

example : Buf.keyOf (.view false) (.tup [.int 1, (Kind.view false).wrap [65]]) = .ok (.tup [.int 1, .bytes [65]]) :=
  (C46_tuple_key (.view false) (by simp) _ [.int 1, .bytes [65]]).2 rfl
example : Buf.keyOf .bytearray (.tup [.int 1, Kind.bytearray.wrap [65]]) = .error .typeError := by rfl

end Verif
