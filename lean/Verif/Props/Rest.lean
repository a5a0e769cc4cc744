import Verif.Spec.Rest
import Verif.Proofs.RestLemmas
import Verif.Proofs.RefineInto
/-
C48: read-to-end byte strings (`char[math.inf]`).
-/
namespace Verif
set_option linter.unusedSimpArgs false
open Spec Samples

/-! ### One serializer -/

/-- **C48** (`pack`).  The bytes are packed as they are, and `size` is their number. -/
theorem C48_pack (env : Env) (n : Nat) (c : SerId) (b : Bytes) (st : St) :
    ∃ st', pack env (n + 1) (.consuming c) [.bytes b] st = .ok b st' ∧ (st'.cells c).size = b.length ∧ st'.buf = st.buf ∧ st'.io = st.io :=
  ⟨_, rfl, by simp, rfl, rfl⟩

/-- **C48** (`pack_into`).  The bytes replace those from the offset on, as many as there are; a buffer that ends before grows. -/
theorem C48_pack_into (env : Env) (n : Nat) (c : SerId) (off : Nat) (b : Bytes) (st : St) :
    ∃ st', packInto env (n + 1) (.consuming c) off [.bytes b] st = .ok () st' ∧ (st'.cells c).size = b.length ∧
      st'.buf = st.buf.take off ++ b ++ st.buf.drop (off + b.length) ∧ st'.io = st.io :=
  ⟨_, rfl, by simp, rfl, rfl⟩

/-- **C48** (`pack_write`).  Behind earlier content the bytes are added to the stream. -/
theorem C48_pack_write (env : Env) (n : Nat) (c : SerId) (b : Bytes) (st : St) (h : st.io.pos = st.io.data.length) :
    ∃ st', packWrite env (n + 1) (.consuming c) [.bytes b] st = .ok () st' ∧ (st'.cells c).size = b.length ∧
      st'.io = ⟨st.io.data ++ b, st.io.pos + b.length⟩ ∧ st'.buf = st.buf := by
  refine ⟨_, rfl, by simp, ?_, rfl⟩
  show st.io.write b = _
  unfold Stream.write
  by_cases hb : b = []
  · subst hb; simp
  · rw [if_neg hb, h]
    simp

/-- **C48** (unpacking).  All that is left is taken: of a buffer, behind the offset (nothing if it is past the end), of a stream,
which ends up at its end. -/
theorem C48_unpack (env : Env) (n : Nat) (upd : Upd) (c : SerId) (src : Src) (st : St) :
    ∃ st', unpack env (n + 1) upd (.consuming c) src st = .ok [.bytes (left src 0 st)] st' ∧
      (st'.cells c).size = (left src 0 st).length ∧ st'.buf = st.buf ∧ st'.io.data = st.io.data ∧
      st'.io.pos = st.io.pos + (match src with | .io => (left src 0 st).length | _ => 0) := by
  cases src with
  | buf b => exact ⟨_, rfl, by simp [left], rfl, rfl, rfl⟩
  | «at» b off => exact ⟨_, rfl, by simp [left], rfl, rfl, rfl⟩
  | io => exact ⟨_, rfl, by simp [left], rfl, rfl, rfl⟩

/-- **C48** (round trip).  What is packed is read back. -/
theorem C48_round_trip (env : Env) (n : Nat) (upd : Upd) (c : SerId) (b : Bytes) (st st1 : St) :
    ∃ d, result (pack env (n + 1) (.consuming c) [.bytes b] st) = .ok d ∧
      result (unpack env (n + 1) upd (.consuming c) (.buf d) st1) = .ok [.bytes b] :=
  ⟨b, rfl, rfl⟩

/-- **C48** (values).  A value without `len()` raises `TypeError` with all three methods, and nothing is changed. -/
theorem C48_type (env : Env) (n : Nat) (c : SerId) (off : Nat) (v : Val) (h : noLen v = true) (st : St) :
    pack env (n + 1) (.consuming c) [v] st = .err .typeError st ∧
    packInto env (n + 1) (.consuming c) off [v] st = .err .typeError st ∧
    packWrite env (n + 1) (.consuming c) [v] st = .err .typeError st := by
  have hd : consumeData [v] = .error .typeError := by
    show (match v.strip with | .bytes b => Except.ok b | _ => Except.error Err.typeError) = _
    have : noLen v.strip = true := by
      revert h
      apply Val.rec (motive_1 := fun v => noLen v = true → noLen v.strip = true) (motive_2 := fun _ => True) (motive_3 := fun _ => True)
        (motive_4 := fun _ => True) (t := v) <;> first | exact trivial | (intros; trivial) | skip
      all_goals (try intros; try assumption)
      rename_i ih h
      exact ih h
    revert this
    cases v.strip <;> simp [noLen]
  refine ⟨?_, ?_, ?_⟩
  · show M.bind (M.lift (consumeData [v])) _ st = _; rw [hd]; rfl
  · show M.bind (M.lift (consumeData [v])) _ st = _; rw [hd]; rfl
  · show M.bind (M.lift (consumeData [v])) _ st = _; rw [hd]; rfl

/-! ### The last field of a class -/

theorem pre_steady {p : PObj} {x : Ser} (h : steady x) {st : St} {x' : Ser} {st' : St} (e : x.prepack p st = .ok x' st') :
    x'.numValues = x.numValues := by
  cases x with
  | cond s cf ds =>
    simp only [Ser.prepack, M.lift] at e
    cases hc : cf p with
    | error er => rw [hc] at e; cases e
    | ok r =>
      rw [hc] at e
      simp only [bind, Except.bind] at e
      unfold condPick at e
      by_cases h1 : ¬ r.hashable = true
      · simp only [if_pos h1] at e; cases e
      · by_cases h2 : r.keyEq (.bool true) = true
        · simp only [if_neg h1, if_pos h2] at e; cases e; rfl
        · by_cases h3 : r.keyEq (.bool false) = true
          · simp only [if_neg h1, if_neg h2, if_pos h3] at e; cases e; exact h
          · simp only [if_neg h1, if_neg h2, if_neg h3] at e; cases e
  | compound i ss =>
    simp only [Ser.prepack] at e
    by_cases hn : needsPreprocess ss = true
    · simp only [if_pos hn] at e; cases e; rfl
    · simp only [if_neg hn] at e; cases e; rfl
  | _ => cases e; rfl

/-- **C48** (last field, packing).  Whatever the fields before, with or without unions, conditions and so on: the bytes of the
last field follow those of the fields before; if those cannot be packed, the error is the same. -/
theorem C48_last_pack (env : Env) (n : Nat) (i c : SerId) (p : PObj) (ss : List Ser) (hs : ∀ x ∈ ss, steady x) (vs : List Val)
    (hl : vs.length = Ser.numValuesList ss) (b : Bytes) (st : St) :
    result (pack env (n + 2) (.specialized i p (ss ++ [.consuming c])) (vs ++ [.bytes b]) st) =
      (result (pack env (n + 2) (.specialized i p ss) vs st)).map (· ++ b) := by
  show result (((packLoop (pack env (n + 1)) (fun s => s.prepack p) (ss ++ [.consuming c]) (vs ++ [.bytes b])) >>= _) st) =
    (result (((packLoop (pack env (n + 1)) (fun s => s.prepack p) ss vs) >>= _) st)).map (· ++ b)
  rw [bind_andThen, bind_andThen, packLoop_snoc _ _ _ _ _ _ (fun x hx _ _ _ e => pre_steady (hs x hx) e) hl]
  cases packLoop (pack env (n + 1)) (fun s => s.prepack p) ss vs st with
  | err e st1 => rfl
  | ok a st1 => obtain ⟨h, t⟩ := a; simp [Res.andThen, packLoop, bind_andThen, Ser.prepack, pure, M.pure, pack, consumeData, first,
      M.lift, bind, Except.bind, M.bind, setSize, M.modify, Ser.readSize, getCellSize, result, Except.map, Ser.numValues, Val.strip]

/-- The same for classes without unions, conditions, arrays and so on. -/
theorem C48_last_pack_plain (env : Env) (n : Nat) (i c : SerId) (ss : List Ser) (vs : List Val)
    (hl : vs.length = Ser.numValuesList ss) (b : Bytes) (st : St) :
    result (pack env (n + 2) (.compound i (ss ++ [.consuming c])) (vs ++ [.bytes b]) st) =
      (result (pack env (n + 2) (.compound i ss) vs st)).map (· ++ b) := by
  show result (((packLoop (pack env (n + 1)) pure (ss ++ [.consuming c]) (vs ++ [.bytes b])) >>= _) st) =
    (result (((packLoop (pack env (n + 1)) pure ss vs) >>= _) st)).map (· ++ b)
  rw [bind_andThen, bind_andThen, packLoop_snoc _ _ _ _ _ _ (fun x _ _ _ _ e => by cases e; rfl) hl]
  cases packLoop (pack env (n + 1)) pure ss vs st with
  | err e st1 => rfl
  | ok a st1 => obtain ⟨h, t⟩ := a; simp [Res.andThen, packLoop, bind_andThen, pure, M.pure, pack, consumeData, first,
      M.lift, bind, Except.bind, M.bind, setSize, M.modify, Ser.readSize, getCellSize, result, Except.map, Ser.numValues, Val.strip]

/-- **C48** (last field, unpacking).  If the fields are unpacked, the last one is all that the fields before have left, which are
unpacked as without it. -/
theorem C48_last_unpack (env : Env) (n : Nat) (upd : Upd) (i c : SerId) (p : PObj) (ss : List Ser) (src : Src) (st : St)
    (ws : List Val) (st' : St) (h : unpack env (n + 2) upd (.specialized i p (ss ++ [.consuming c])) src st = .ok ws st') :
    ∃ vs st1, unpack env (n + 2) upd (.specialized i p ss) src st = .ok vs st1 ∧
      ws = vs ++ [.bytes (left src (st1.cells i).size st1)] := by
  obtain ⟨⟨ws', total⟩, st2, h1, h2⟩ := M.bind_ok h
  cases h2
  obtain ⟨vs, t, st3, us, h3, h4, h5, -⟩ := unpackLoopSpec_snoc _ _ _ _ _ _ _ _ _ _ _ _ h1
  obtain ⟨st4, h6, -⟩ := C48_unpack env n noUpd c (src.next t) st3
  rw [h6] at h4
  cases h4
  refine ⟨vs, { st3 with cells := fun j => if j = i then { st3.cells j with size := t } else st3.cells j }, ?_, ?_⟩
  · show ((unpackLoopSpec (unpack env (n + 1) noUpd) upd src p 0 0 ss) >>= _) st = _
    rw [bind_andThen, h3]
    rfl
  · rw [h5]
    cases src <;> simp [Src.next, left]

theorem C48_last_unpack_plain (env : Env) (n : Nat) (upd : Upd) (i c : SerId) (ss : List Ser) (src : Src) (st : St) :
    result (unpack env (n + 2) upd (.compound i (ss ++ [.consuming c])) src st) =
      match unpack env (n + 2) upd (.compound i ss) src st with
      | .ok vs st1 => .ok (vs ++ [.bytes (left src (st1.cells i).size st1)])
      | .err e _ => .error e := by
  have h1 : ∀ ss, unpack env (n + 2) upd (.compound i ss) src = (unpackLoop (unpack env (n + 1) noUpd) src 0 ss) >>= fun r => (do
      setSize i r.2
      pure r.1) := fun _ => rfl
  rw [h1, h1, bind_andThen, bind_andThen, unpackLoop_snoc]
  cases unpackLoop (unpack env (n + 1) noUpd) src 0 ss st with
  | err e st1 => rfl
  | ok a st1 =>
    obtain ⟨vs, t⟩ := a
    obtain ⟨st4, h6, -⟩ := C48_unpack env n noUpd c (src.next t) st1
    simp only [Res.andThen, unpackLoop, bind_andThen, h6]
    cases src <;> simp [left, Src.next, Res.andThen, bind_andThen, Ser.readSize, getCellSize, M.pure, pure, bind, M.bind, setSize, M.modify, result]

/-- Two numbers, a union, and the rest. -/
def restFields : List Ser := [.struct u8, .lookback [7] (fun _ => .ok (.int 1)) [.int 1] [.struct u8] .null]

example (st : St) : result (pack env 5 (.specialized [8] ⟨0, false, []⟩ (restFields ++ [.consuming [9]])) [.int 1, .int 2, .bytes [3, 4]] st) =
    .ok [1, 2, 3, 4] := by rfl

example : result (unpack env 5 noUpd (.specialized [8] ⟨0, false, []⟩ (restFields ++ [.consuming [9]])) (.at [0, 1, 2, 3, 4] 1) st0) =
    .ok [.int 1, .int 2, .bytes [3, 4]] := by rfl

example : ∀ x ∈ restFields, steady x := by intro x h; simp only [restFields, List.mem_cons, List.not_mem_nil, or_false] at h; rcases h with rfl | rfl <;> trivial

/-! ### Values of other kinds -/

/-- With byte strings and values without `len()`, `Rest` is what `pack_into` and `pack_write` do. -/
theorem rest_into (env : Env) (n : Nat) (c : SerId) (off : Nat) (b : Bytes) :
    Rest.packInto c off [.bytes b] = packInto env (n + 1) (.consuming c) off [.bytes b] := rfl

theorem rest_write (env : Env) (n : Nat) (c : SerId) (b : Bytes) :
    Rest.packWrite c [.bytes b] = packWrite env (n + 1) (.consuming c) [.bytes b] := rfl

theorem rest_pack (env : Env) (n : Nat) (c : SerId) (b : Bytes) :
    Rest.pack c [.bytes b] = (do let b ← pack env (n + 1) (.consuming c) [.bytes b]; pure (.bytes b)) := rfl

/-- **C48** (streams).  Writing to a stream, a value of another kind raises `TypeError` and writes nothing. -/
theorem C48_write_type (c : SerId) (v : Val) (h : ∀ b, v.strip ≠ .bytes b) (st : St) :
    ∃ st', Rest.packWrite c [v] st = .err .typeError st' ∧ st'.io = st.io ∧ st'.buf = st.buf := by
  show ∃ st', (M.lift (pyLen v) >>= fun n => do
    setSize c n
    match v.strip with
    | .bytes b => ioWrite b
    | _ => M.throw .typeError) st = _ ∧ _
  unfold pyLen
  revert h
  cases v.strip with
  | bytes b => intro h; exact absurd rfl (h b)
  | _ => intro _; exact ⟨_, rfl, rfl, rfl⟩

/-- **C48** (no objects).  What is no object has no `pack`. -/
theorem C48_no_object {v : Val} (hv : ∀ c b as, v ≠ .obj c b as) (env : Env) (st : St) : Rest.objPack env v st = .err .attributeError st := by
  cases v with
  | obj c b as => exact absurd rfl (hv c b as)
  | _ => rfl

example : Rest.objPack ⟨Samples.plat, fun _ => Option.none⟩ (.bytes [1]) Samples.st0 = .err .attributeError Samples.st0 := C48_no_object (fun _ _ _ h => by cases h) _ _

/-- **C48** (values, as a whole) is false: `pack` and `pack_into` do not look at the kind of a value.  With a list of numbers
`pack` returns the list, `pack_into` writes the numbers, and `pack_write` raises `TypeError`. -/
theorem C48_values_is_false : ∃ (v : Val) (env : Env) (st : St), (∀ b, v.strip ≠ .bytes b) ∧
    result (Rest.objPack env (.obj 3 Option.none [("data", v)]) st) = .ok v ∧
    (∃ st', Rest.packInto [30] 0 [v] st = .ok () st' ∧ st'.buf = [1, 2, 3]) ∧
    result (Rest.packWrite [30] [v] st) = .error .typeError :=
  ⟨.list [.int 1, .int 2, .int 3], env, st0, by simp [Val.strip], rfl, ⟨_, rfl, rfl⟩, rfl⟩

/-- A number that is no byte is noticed, and the buffer is left alone. -/
example : ∃ st', Rest.packInto [30] 0 [.list [.int 1, .int 256]] st0 = .err .valueError st' ∧ st'.buf = st0.buf := ⟨_, rfl, rfl⟩
example : result (Rest.packInto [30] 0 [.str [97]] st0) = .error .typeError := by rfl

/-- **C48** (`pack_into`, values).  If `pack_into` accepts a value, it is a byte string or a list or tuple of numbers from 0 to
255, and those are what is written. -/
theorem C48_into_values (c : SerId) (off : Nat) (v : Val) (st st' : St) (h : Rest.packInto c off [v] st = .ok () st') :
    ∃ b : Bytes, st'.buf = st.buf.take off ++ b ++ st.buf.drop (off + b.length) ∧
      (v.strip = .bytes b ∨ ∃ vs, (v.strip = .list vs ∨ v.strip = .tup vs) ∧ vs.map Val.asIndex = b.map (fun x => some (x.toNat : Int))) := by
  have h' : (M.lift (pyLen v) >>= fun n => do
    setSize c n
    let b ← M.lift (Rest.assignable v)
    M.modify fun st => { st with buf := splice st.buf off b }) st = .ok () st' := h
  obtain ⟨n, st1, h1, h2⟩ := M.bind_ok h'
  obtain ⟨_, st2, h3, h4⟩ := M.bind_ok h2
  obtain ⟨b, st3, h5, h6⟩ := M.bind_ok h4
  cases h3
  have hst1 : st1 = st := by
    revert h1; unfold M.lift; cases pyLen v <;> intro h1 <;> cases h1; rfl
  subst hst1
  have hb : Rest.assignable v = .ok b := by
    revert h5; unfold M.lift; cases Rest.assignable v <;> intro h5 <;> cases h5; rfl
  rw [hb] at h5
  cases h5
  cases h6
  refine ⟨b, rfl, ?_⟩
  unfold Rest.assignable at hb
  revert hb
  cases v.strip with
  | bytes d => intro hb; cases hb; exact .inl rfl
  | list vs => intro hb; exact .inr ⟨vs, .inl rfl, (bytesOf_iff vs b).1 hb⟩
  | tup vs => intro hb; exact .inr ⟨vs, .inr rfl, (bytesOf_iff vs b).1 hb⟩
  | _ => intro hb; cases hb

/-- **C48** (`pack_into`, bad items).  The first item of a list that is no byte raises: `TypeError` if it is no number,
`ValueError` if it is out of range.  The buffer is left alone. -/
theorem C48_into_item (c : SerId) (off : Nat) (v bad : Val) (pre : Bytes) (front back : List Val)
    (hv : v.strip = .list (front ++ bad :: back) ∨ v.strip = .tup (front ++ bad :: back))
    (hp : front.map Val.asIndex = pre.map (fun x => some (x.toNat : Int))) (e : Err)
    (hb : (bad.asIndex = Option.none ∧ e = .typeError) ∨
      (e = .valueError ∧ ∃ i, bad.asIndex = some i ∧ ¬ (0 ≤ i ∧ i < 256))) (st : St) :
    ∃ st', Rest.packInto c off [v] st = .err e st' ∧ st'.buf = st.buf := by
  have h1 : Rest.bytesOf (front ++ bad :: back) = .error e := by
    rw [bytesOf_append_bad ((bytesOf_iff front pre).2 hp)]
    simp only [Rest.bytesOf, Rest.byteOf]
    rcases hb with ⟨h, rfl⟩ | ⟨rfl, i, h, hi⟩
    · rw [h]; rfl
    · rw [h]; simp only [if_neg hi]; rfl
  have h2 : Rest.assignable v = .error e := by
    unfold Rest.assignable
    rcases hv with h | h <;> rw [h] <;> exact h1
  have h3 : ∃ n, pyLen v = .ok n := by
    unfold pyLen
    rcases hv with h | h <;> rw [h] <;> exact ⟨_, rfl⟩
  obtain ⟨n, h3⟩ := h3
  have h4 : Rest.packInto c off [v] st = (M.lift (pyLen v) >>= fun n => do
      setSize c n
      let b ← M.lift (Rest.assignable v)
      M.modify fun st => { st with buf := splice st.buf off b }) st := rfl
  rw [h4, h3, h2]
  exact ⟨_, rfl, rfl⟩

example : ∃ st', Rest.packInto [30] 1 [.list [.int 1, .str [97], .int 256]] st0 = .err .typeError st' ∧ st'.buf = st0.buf :=
  C48_into_item [30] 1 _ (.str [97]) [1] [.int 1] [.int 256] (.inl rfl) rfl .typeError (.inl ⟨rfl, rfl⟩) st0
example : ∃ st', Rest.packInto [30] 1 [.tup [.int (-1), .none]] st0 = .err .valueError st' ∧ st'.buf = st0.buf :=
  C48_into_item [30] 1 _ (.int (-1)) [] [] [.none] (.inr rfl) rfl .valueError (.inr ⟨rfl, -1, rfl, by decide⟩) st0

end Verif
