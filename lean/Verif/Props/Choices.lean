import Verif.Proofs.ChoiceLemmas
import Verif.Proofs.ArrayBasic
import Verif.Proofs.Proxy
/-
C21 (LookbackDecider unions), C22 (LookaheadDecider unions), C23 (Condition).
-/
namespace Verif
open Spec Samples

/-! ## C21 -/

/-- **C21** (packing).  What any packing method of a union does is what the same method of the type chosen by the map
does, the decider being asked about the object that is packed.  (Holds for both kinds of union.) -/
theorem C21_pack {id : SerId} {dec : Decider} {keys : List Val} {opts : List Ser} {d o u : Ser} {p : PObj} {r : Val}
    (env : Env) (n : Nat) (hu : IsUnion id dec keys opts d u) (hd : dec p = .ok r) (hr : r.hashable = true)
    (hc : Chosen keys opts d r o) (st : St) (hs : ∀ o' s1, o.prepack p (st.withPart id p) = .ok o' s1 → HasSize o')
    (vs : List Val) (off : Nat) :
    SameOutcome (packGiven env (n + 1) u p vs st) (packGiven env n o p vs (st.withPart id p)) ∧
    SameOutcome (packIntoGiven env (n + 1) u p off vs st) (packIntoGiven env n o p off vs (st.withPart id p)) ∧
    SameOutcome (packWriteGiven env (n + 1) u p vs st) (packWriteGiven env n o p vs (st.withPart id p)) := by
  rw [union_pack_eq hu hd hr hc, union_packInto_eq hu hd hr hc, union_packWrite_eq hu hd hr hc]
  exact ⟨then_size _ hs, then_size _ hs, then_size _ hs⟩

/-- **C21** (unpacking).  The same for unpacking a lookback union. -/
theorem C21_unpack {id : SerId} {dec : Decider} {keys : List Val} {opts : List Ser} {d o : Ser} {p : PObj} {r : Val}
    (env : Env) (n : Nat) (hd : dec p = .ok r) (hr : r.hashable = true)
    (hc : Chosen keys opts d r o) (st : St)
    (hs : ∀ o' s1, o.preunpack p (st.withPart id p) = .ok o' s1 → HasSize o' ∧ o'.isCompound = false) (src : Src) :
    SameOutcome (unpackGiven env (n + 1) (.lookback id dec keys opts d) p src st)
      (unpackGiven env n o p src (st.withPart id p)) := by
  rw [lookback_unpack_eq hd hr hc]
  refine Eq.mp ?_ (then_size (id := id) (m := fun s => unpack env n noUpd s src) (o.preunpack p) (fun o' s1 h => (hs o' s1 h).1))
  congr 1
  simp only [bind, M.bind]
  cases h1 : o.preunpack p (st.withPart id p) with
  | err e s1 => rfl
  | ok o' s1 =>
    simp only
    rw [unionUnpack_eq (hs o' s1 h1).2]
    rfl

/-- **C21** (no type).  A result that is no key raises `ValueError` when there is no default; exceptions of the decider
are passed on.  Nothing is written or read. -/
theorem C21_no_type {id : SerId} {dec : Decider} {keys : List Val} {opts : List Ser} {u : Ser} {p : PObj} {e : Err}
    (env : Env) (n : Nat) (hu : IsUnion id dec keys opts .null u)
    (hd : dec p = .error e ∨ (e = .valueError ∧ ∃ r, dec p = .ok r ∧ r.hashable = true ∧ ∀ k ∈ keys, k.keyEq r = false))
    (st : St) (vs : List Val) (off : Nat) (src : Src) :
    packGiven env (n + 1) u p vs st = .err e (st.withPart id p) ∧
    packIntoGiven env (n + 1) u p off vs st = .err e (st.withPart id p) ∧
    packWriteGiven env (n + 1) u p vs st = .err e (st.withPart id p) ∧
    unpackGiven env (n + 1) (.lookback id dec keys opts .null) p src st = .err e (st.withPart id p) := by
  have key : ∀ {α : Type} (b : Bool) (f : Ser → M α), (getPart id >>= fun p => M.lift (dec p) >>= fun r =>
      getSerializer b id keys opts .null r >>= f) (st.withPart id p) = .err e (st.withPart id p) := by
    intro α b f
    rw [M.bind_eq getPart_withPart]
    rcases hd with hd | ⟨rfl, r, hd, hr, hk⟩
    · rw [hd]; rfl
    · rw [hd]
      show (getSerializer b id keys opts .null r >>= f) _ = _
      unfold getSerializer
      rw [unionPick_none hr hk]
      rfl
  refine ⟨?_, ?_, ?_, key false _⟩ <;> cases hu <;> exact key true _

mutual
theorem hashable_of : ∀ v : Val, ¬ Unhashable v → v.hashable = true
  | .list vs, h => absurd (.list vs) h
  | .obj c b a, h => absurd (.obj c b a) h
  | .tup vs, h => hashableList_of vs (fun v hv hu => h (.tup vs v hv hu))
  | .none, _ => rfl
  | .bool _, _ => rfl
  | .int _, _ => rfl
  | .float _, _ => rfl
  | .bytes _, _ => rfl
  | .str _, _ => rfl
  | .custom .., _ => rfl
  | .gen, _ => rfl
theorem hashableList_of : ∀ vs : List Val, (∀ v ∈ vs, ¬ Unhashable v) → Val.hashableList vs = true
  | [], _ => rfl
  | v :: vs, h => by
    simp only [Val.hashableList, hashable_of v (h v (by simp)), hashableList_of vs (fun w hw => h w (by simp [hw])), Bool.and_self]
end

theorem hashableList_mem : ∀ {vs : List Val} {v : Val}, v ∈ vs → v.hashable = false → Val.hashableList vs = false
  | w :: vs, v, hm, h => by
    simp only [Val.hashableList, Bool.and_eq_false_iff]
    rcases List.mem_cons.1 hm with rfl | hm
    · exact .inl h
    · exact .inr (hashableList_mem hm h)

theorem unhashable_not {v : Val} (h : Unhashable v) : v.hashable = false := by
  induction h with
  | list => rfl
  | obj => rfl
  | tup vs v hm _ ih => exact hashableList_mem hm ih

/-- **C21, C23** (keys).  The values that the other theorems take as keys are exactly those that Python can hash. -/
theorem C21_hashable (v : Val) : v.hashable = true ↔ ¬ Unhashable v :=
  ⟨fun h hu => Bool.noConfusion ((unhashable_not hu).symm.trans h), hashable_of v⟩

/-- **C21** (results that cannot be keys).  A list, an object or a tuple with one in it raises `TypeError`, default or not.
Nothing is written or read. -/
theorem C21_unhashable {id : SerId} {dec : Decider} {keys : List Val} {opts : List Ser} {d u : Ser} {p : PObj} {r : Val}
    (env : Env) (n : Nat) (hu : IsUnion id dec keys opts d u) (hd : dec p = .ok r) (hr : Unhashable r)
    (st : St) (vs : List Val) (off : Nat) (src : Src) :
    packGiven env (n + 1) u p vs st = .err .typeError (st.withPart id p) ∧
    packIntoGiven env (n + 1) u p off vs st = .err .typeError (st.withPart id p) ∧
    packWriteGiven env (n + 1) u p vs st = .err .typeError (st.withPart id p) ∧
    unpackGiven env (n + 1) (.lookback id dec keys opts d) p src st = .err .typeError (st.withPart id p) := by
  have key : ∀ {α : Type} (b : Bool) (f : Ser → M α), (getPart id >>= fun p => M.lift (dec p) >>= fun r =>
      getSerializer b id keys opts d r >>= f) (st.withPart id p) = .err .typeError (st.withPart id p) := by
    intro α b f
    rw [M.bind_eq getPart_withPart, hd]
    show (getSerializer b id keys opts d r >>= f) _ = _
    unfold getSerializer unionPick
    rw [unhashable_not hr]
    rfl
  refine ⟨?_, ?_, ?_, key false _⟩ <;> cases hu <;> exact key true _

/-- `lambda o: o.kind` where `kind` is a list, or a tuple holding one. -/
example :
    let u : Ser := .lookback [60] kindOf [.int 0] [.struct u8] (.struct u8)
    result (packGiven Samples.env 5 u ⟨6, false, [("kind", .list [])]⟩ [.int 1] st0) = .error .typeError ∧
    result (packGiven Samples.env 5 u ⟨6, false, [("kind", .tup [.int 1, .list []])]⟩ [.int 1] st0) = .error .typeError ∧
    result (packGiven Samples.env 5 u ⟨6, false, [("kind", .tup [.int 1])]⟩ [.int 1] st0) = .ok [1] :=
  ⟨by rfl, by rfl, by rfl⟩

/-- `Alt`: `kind` decides between `uint8` and `char[uint8]`. -/
example :
    Chosen [.int 0, .int 1] [.struct u8, .dynChar [61] u8] .null (.int 1) (.dynChar [61] u8) ∧
    result (packGiven Samples.env 5 (.lookback [60] kindOf [.int 0, .int 1] [.struct u8, .dynChar [61] u8] .null)
      ⟨6, false, [("kind", .int 1)]⟩ [.bytes [97, 98]] st0) = .ok [2, 97, 98] ∧
    result (packGiven Samples.env 5 (.lookback [60] kindOf [.int 0, .int 1] [.struct u8, .dynChar [61] u8] .null)
      ⟨6, false, [("kind", .int 3)]⟩ [.bytes [97, 98]] st0) = .error .valueError := by
  refine ⟨.mapped 1 (.int 1) _ rfl rfl (by rfl) ?_, by rfl, by rfl⟩
  intro j k hj hk
  have : j = 0 := by omega
  subst this
  cases hk
  rfl

/-- **C21** (what the decider sees).  While a class is unpacked, the partial object that the field behind `pre` is given
has exactly the attributes read by the fields `pre`. -/
theorem C21_sees (names : List Name) (hn : names.Nodup) (f : Ser → Src → M (List Val)) (cls : ClassId) (src : Src)
    (pre : List Ser) (s : Ser) (post : List Ser) (st st' : St) (vs : List Val) (size : Nat)
    (h : unpackLoopSpec f (assignVals names) src ⟨cls, true, []⟩ 0 0 pre st = .ok (vs, size) st') :
    unpackLoopSpec f (assignVals names) src ⟨cls, true, []⟩ 0 0 (pre ++ s :: post) st =
      (unpackLoopSpec f (assignVals names) src ⟨cls, true, names.zip vs⟩ vs.length size (s :: post) >>=
        fun q => pure (vs ++ q.1, q.2)) st' := by
  rw [unpackLoopSpec_append (Nat.zero_le _) h]
  simp only [List.drop_zero, Nat.zero_add, setAll_zip hn]

/-- The same for `obj.unpack`: the object has its old attributes, those already read replaced. -/
theorem C21_sees_instance (names : List Name) (attrs : List (Name × Val)) (f : Ser → Src → M (List Val)) (cls : ClassId)
    (src : Src) (pre : List Ser) (s : Ser) (post : List Ser) (st st' : St) (vs : List Val) (size : Nat)
    (h : unpackLoopSpec f (assignVals names) src ⟨cls, false, attrs⟩ 0 0 pre st = .ok (vs, size) st') :
    unpackLoopSpec f (assignVals names) src ⟨cls, false, attrs⟩ 0 0 (pre ++ s :: post) st =
      (unpackLoopSpec f (assignVals names) src ⟨cls, false, setAll attrs (names.zip vs)⟩ vs.length size (s :: post) >>=
        fun q => pure (vs ++ q.1, q.2)) st' := by
  rw [unpackLoopSpec_append (Nat.zero_le _) h]
  simp only [List.drop_zero, Nat.zero_add]

/-- In `Alt` the decider of `body` sees `kind` and nothing else. -/
example : unpackLoopSpec (unpack Samples.env 4 noUpd) (assignVals ["kind", "body", "tail"]) (.buf [1, 1, 97, 5]) ⟨6, true, []⟩ 0 0
      [.struct u8] st0 = .ok ([.int 1], 1) st0 ∧
    ["kind", "body", "tail"].zip [Val.int 1] = [("kind", .int 1)] := ⟨by rfl, by rfl⟩

/-! ## C22 -/

theorem lookahead_unpack_eq {id : SerId} {ra : Ser} {dec : Decider} {keys : List Val} {opts : List Ser} {d o : Ser} {p : PObj}
    {r : Val} {rs : List Val} {env : Env} {n : Nat} {st s1 s2 : St} {src : Src}
    (h1 : unpack env n noUpd ra src (st.withPart id p) = .ok (r :: rs) s1) (h2 : src.rewind ra s1 = .ok () s2)
    (hp : (s2.cells id).part = some p) (hr : r.hashable = true) (hc : Chosen keys opts d r o) :
    unpackGiven env (n + 1) (.lookahead id ra dec keys opts d) p src st =
      (o.preunpack p >>= fun s => unionUnpack (unpack env n noUpd) id s src) s2 := by
  show (unpack env n noUpd ra src >>= _) (st.withPart id p) = _
  rw [M.bind_eq h1]
  show (src.rewind ra >>= _) s1 = _
  rw [M.bind_eq h2]
  have : getSerializer false id keys opts d r s2 = o.preunpack p s2 := by
    unfold getSerializer
    rw [unionPick_chosen hr hc]
    show (getPart id >>= _) _ = _
    have h3 : getPart id s2 = .ok p s2 := by simp [getPart, hp]
    rw [M.bind_eq h3]
    rfl
  simp only [bind, M.bind, this]

/-- **C22.**  If the read-ahead type reads the key `r` from the upcoming bytes and its `size` is the number `k` of bytes
it used, then unpacking the union is unpacking the chosen type with the buffer and the stream as they were before: the
key is not consumed, for every kind of source. -/
theorem C22_unpack {id : SerId} {ra : Ser} {dec : Decider} {keys : List Val} {opts : List Ser} {d o : Ser} {p : PObj}
    {r : Val} {rs : List Val} (env : Env) (n : Nat) (st s1 : St) (src : Src) (k : Nat)
    (h1 : unpack env n noUpd ra src (st.withPart id p) = .ok (r :: rs) s1) (hm : Moved src k (st.withPart id p) s1)
    (hz : ra.readSize s1 = .ok k s1) (hp : (s1.cells id).part = some p) (hr : r.hashable = true)
    (hc : Chosen keys opts d r o)
    (hs : ∀ st o' s1, o.preunpack p st = .ok o' s1 → HasSize o' ∧ o'.isCompound = false) :
    ∃ s2, s2.buf = st.buf ∧ s2.io = st.io ∧ s2.cells = s1.cells ∧
      SameOutcome (unpackGiven env (n + 1) (.lookahead id ra dec keys opts d) p src st) (unpackGiven env n o p src s2) := by
  have hrw : ∃ s2, src.rewind ra s1 = .ok () s2 ∧ s2.buf = st.buf ∧ s2.io = st.io ∧ s2.cells = s1.cells := by
    obtain ⟨m1, m2, m3⟩ := hm
    cases src with
    | buf b => exact ⟨s1, rfl, m1, by
        simp only [Nat.add_zero] at m3
        show s1.io = st.io
        cases h : s1.io; cases h' : st.io
        simp only [h, St.withPart, h'] at m2 m3
        simp [m2, m3], rfl⟩
    | «at» b off => exact ⟨s1, rfl, m1, by
        simp only [Nat.add_zero] at m3
        show s1.io = st.io
        cases h : s1.io; cases h' : st.io
        simp only [h, St.withPart, h'] at m2 m3
        simp [m2, m3], rfl⟩
    | io =>
      refine ⟨{ s1 with io := s1.io.seekCur (-(k : Int)) }, ?_, m1, ?_, rfl⟩
      · show (ra.readSize >>= _) s1 = _
        rw [M.bind_eq hz]
        rfl
      · simp only [Stream.seekCur]
        cases h : s1.io; cases h' : st.io
        simp only [h, St.withPart, h'] at m2 m3
        simp only [m2, m3, Stream.mk.injEq, true_and]
        omega
  obtain ⟨s2, r1, r2, r3, r4⟩ := hrw
  refine ⟨s2, r2, r3, r4, ?_⟩
  rw [lookahead_unpack_eq h1 r1 (by rw [r4]; exact hp) hr hc]
  refine Eq.mp ?_ (then_size (id := id) (st := s2) (m := fun s => unpack env n noUpd s src) (o.preunpack p)
    (fun o' s1 h => (hs _ o' s1 h).1))
  congr 1
  simp only [bind, M.bind]
  cases h1 : o.preunpack p s2 with
  | err e s1 => rfl
  | ok o' s1 =>
    simp only
    rw [unionUnpack_eq (hs _ o' s1 h1).2]
    rfl

theorem structUnpackM_cells {env : Env} {s : StructSer} {src : Src} {st st' : St} {vs : List Val}
    (h : structUnpackM env s src st = .ok vs st') : st'.cells = st.cells := by
  have key : ∀ {x : Except Err (List Val)} {st st'}, M.lift x st = .ok vs st' → st' = st := by
    intro x st st' h
    cases x <;> cases h
    rfl
  cases src with
  | buf b => rw [key h]
  | «at» b off => rw [key h]
  | io =>
    obtain ⟨dd, s1, h1, h2⟩ := M.bind_ok h
    rw [key h2]
    cases h1
    rfl

/-- **C22** (basic read-ahead types).  With a struct serializer of one value as read-ahead type, wherever the bytes `kb` of
the key stand in front. -/
theorem C22_basic {id : SerId} {ra : StructSer} {dec : Decider} {keys : List Val} {opts : List Ser} {d o : Ser} {p : PObj}
    {v r : Val} {kb rest : Bytes} (env : Env) (n : Nat) (st : St) (src : Src)
    (hk : ra.pack env.plat [v] = .ok kb) (hv : ra.kept env.plat [v] = .ok [r]) (hsh : Shows src st (kb ++ rest))
    (hr : r.hashable = true) (hc : Chosen keys opts d r o)
    (hs : ∀ st o' s1, o.preunpack p st = .ok o' s1 → HasSize o' ∧ o'.isCompound = false) :
    SameOutcome (unpackGiven env (n + 2) (.lookahead id (.struct ra) dec keys opts d) p src st)
      (unpackGiven env (n + 1) o p src (st.withPart id p)) := by
  have hsh' : Shows src (st.withPart id p) (kb ++ rest) := by cases src <;> exact hsh
  obtain ⟨s1, h1, h2, _⟩ := structUnpackM_shows hk hv hsh'
  have hcells : s1.cells = (st.withPart id p).cells := structUnpackM_cells h1
  obtain ⟨s2, a1, a2, a3, a4⟩ := C22_unpack (id := id) (ra := .struct ra) (dec := dec) env (n + 1) st s1 src kb.length h1 h2
    (by rw [structSer_pack_length hk]; rfl) (by rw [hcells]; simp [St.withPart]) hr hc hs
  have : s2 = st.withPart id p := by
    cases s2
    simp only at a1 a2 a3
    subst a1; subst a2; subst a3
    rw [hcells]; rfl
  rw [← this]
  exact a4

/-- `LookaheadDecider(uint8, …, {1: uint16, 2: char[2]})` in little endian: the key is the first byte of the value. -/
example :
    let u : Ser := .lookahead [8] (.struct u8) kindOf [.int 1, .int 2] [.struct ⟨"<H".toList, none⟩, .struct ⟨"2s".toList, none⟩] .null
    result (unpackGiven Samples.env 5 u ⟨0, true, []⟩ (.buf [1, 2, 9]) st0) = .ok [.int 0x201] ∧
    result (unpackGiven Samples.env 5 u ⟨0, true, []⟩ (.at [7, 2, 9] 1) st0) = .ok [.bytes [2, 9]] ∧
    result (unpackGiven Samples.env 5 u ⟨0, true, []⟩ .io { st0 with io := ⟨[7, 2, 9], 1⟩ }) = .ok [.bytes [2, 9]] ∧
    (after (unpackGiven Samples.env 5 u ⟨0, true, []⟩ .io { st0 with io := ⟨[7, 2, 9], 1⟩ })).io.pos = 3 ∧
    result (unpackGiven Samples.env 5 u ⟨0, true, []⟩ (.buf [3, 2, 9]) st0) = .error .valueError :=
  ⟨by rfl, by rfl, by rfl, by rfl, by rfl⟩

/-- **C22 is false in full** (read-ahead type `char[NET]`, data cut short).  The string claims 5 bytes and has 1.  Its
`size` is then 6 although 2 bytes were read, so the stream is rewound to before the union, and the chosen `uint8` is
read from there: the first byte of the stream instead of the one at position 3. -/
theorem C22_full_is_false :
    let u : Ser := .lookahead [8] (.net [9]) kindOf [.bytes [97]] [.struct u8] .null
    result (unpackGiven Samples.env 5 u ⟨0, true, []⟩ .io { st0 with io := ⟨[77, 2, 3, 5, 97], 3⟩ }) = .ok [.int 77] ∧
    result (unpackGiven Samples.env 5 (.struct u8) ⟨0, true, []⟩ .io { st0 with io := ⟨[77, 2, 3, 5, 97], 3⟩ }) =
      .ok [.int 5] :=
  ⟨by rfl, by rfl⟩

/-- **C22 is false in full** (the same through a buffer).  `unpack` accepts the short key and `unpack_from` does not. -/
theorem C22_methods_differ_is_false :
    let u : Ser := .lookahead [8] (.net [9]) kindOf [.bytes [97]] [.struct u8] .null
    result (unpackGiven Samples.env 5 u ⟨0, true, []⟩ (.buf [5, 97]) st0) = .ok [.int 5] ∧
    result (unpackGiven Samples.env 5 u ⟨0, true, []⟩ (.at [5, 97] 0) st0) = .error .structError :=
  ⟨by rfl, by rfl⟩

/-! ## C23 -/

theorem floatEqInt_unique {f : UInt64} {i j : Int} (h1 : floatEqInt f i = true) (h2 : floatEqInt f j = true) : i = j := by
  unfold floatEqInt at h1 h2
  simp only at h1 h2
  split at h1
  · cases h1
  · rename_i he
    rw [if_neg he] at h2
    have key : ∀ (ee : Nat) (v : Int), (if 1075 ≤ ee then v * 2 ^ (ee - 1075) == i else v == i * 2 ^ (1075 - ee)) = true →
        (if 1075 ≤ ee then v * 2 ^ (ee - 1075) == j else v == j * 2 ^ (1075 - ee)) = true → i = j := by
      intro ee v h1 h2
      by_cases hk : 1075 ≤ ee
      · rw [if_pos hk, beq_iff_eq] at h1 h2
        exact h1.symm.trans h2
      · rw [if_neg hk, beq_iff_eq] at h1 h2
        exact Int.eq_of_mul_eq_mul_right (Int.pow_ne_zero (by decide)) (h1.symm.trans h2)
    exact key _ _ h1 h2

theorem keyEq_false_true {r : Val} (h : r.keyEq (.bool false) = true) : r.keyEq (.bool true) = false := by
  cases r with
  | int i => simp only [Val.keyEq] at h ⊢; simp at h; subst h; rfl
  | bool b => cases b <;> first | rfl | cases h
  | float f =>
    cases h' : Val.keyEq (.float f) (.bool true) with
    | false => rfl
    | true =>
      simp only [Val.keyEq] at h h'
      have := floatEqInt_unique h h'
      simp at this
  | _ => simp [Val.keyEq] at h ⊢

/-- **C23** (condition false).  The field takes no bytes: nothing is packed by any method, and unpacking gives the
defaults without touching the input. -/
theorem C23_false {c : Decider} {p : PObj} {r : Val} (env : Env) (n : Nat) (ser : Ser) (defaults : List Val) (hc : c p = .ok r)
    (hr : r.keyEq (.bool false) = true) (hh : r.hashable = true) (vs : List Val) (off : Nat) (src : Src) (st : St) :
    packGiven env (n + 1) (.cond ser c defaults) p vs st = .ok [] st ∧
    packIntoGiven env (n + 1) (.cond ser c defaults) p off vs st = .ok () st ∧
    packWriteGiven env (n + 1) (.cond ser c defaults) p vs st = .ok () st ∧
    unpackGiven env (n + 1) (.cond ser c defaults) p src st = .ok defaults st := by
  have hp : ∀ st, (Ser.cond ser c defaults).prepack p st = .ok (.skip defaults) st := by
    intro st
    have : condPick ser defaults r = .ok (.skip defaults) := by
      unfold condPick
      rw [if_neg (by simp [hh]), if_neg (by rw [keyEq_false_true hr]; simp), if_pos hr]
    simp only [Ser.prepack, M.lift, hc, bind, Except.bind, this]
  unfold packGiven packIntoGiven packWriteGiven unpackGiven
  refine ⟨?_, ?_, ?_, ?_⟩
  · rw [M.bind_eq (hp st)]; rfl
  · rw [M.bind_eq (hp st)]; rfl
  · rw [M.bind_eq (hp st)]; rfl
  · rw [M.bind_eq (show (Ser.cond ser c defaults).preunpack p st = _ from hp st)]; rfl

/-- **C23** (condition true, partial).  The field behaves as the same field without `Condition`, for every type that does
not need to know the object (basic types, strings, text, arrays of basic types, nested classes).  Missing, and false:
the other types (`C23_array_is_false`, `C23_self_is_false`). -/
theorem C23_true_partial {c : Decider} {p : PObj} {r : Val} (env : Env) (n : Nat) (ser : Ser) (defaults : List Val)
    (hs : ser.overridesPre = false) (hc : c p = .ok r) (hr : r.keyEq (.bool true) = true) (hh : r.hashable = true)
    (vs : List Val) (off : Nat) (src : Src) (st : St) :
    packGiven env n (.cond ser c defaults) p vs st = packGiven env n ser p vs st ∧
    packIntoGiven env n (.cond ser c defaults) p off vs st = packIntoGiven env n ser p off vs st ∧
    packWriteGiven env n (.cond ser c defaults) p vs st = packWriteGiven env n ser p vs st ∧
    unpackGiven env n (.cond ser c defaults) p src st = unpackGiven env n ser p src st := by
  have hp : (Ser.cond ser c defaults).prepack p st = .ok ser st := by
    have : condPick ser defaults r = .ok ser := by
      unfold condPick
      rw [if_neg (by simp [hh]), if_pos hr]
    simp only [Ser.prepack, M.lift, hc, bind, Except.bind, this]
  have hq : ser.prepack p st = .ok ser st ∧ ser.preunpack p st = .ok ser st := by
    cases ser <;> first | exact ⟨rfl, rfl⟩ | cases hs
  unfold packGiven packIntoGiven packWriteGiven unpackGiven
  simp only [bind, M.bind, hp, hq.1, hq.2, show (Ser.cond ser c defaults).preunpack p st = _ from hp, and_self]

/-- **C23** (other results).  An exception of the condition is passed on; a hashable result that equals neither `True`
nor `False` raises `KeyError`. -/
theorem C23_other {c : Decider} {p : PObj} {e : Err} (env : Env) (n : Nat) (ser : Ser) (defaults : List Val)
    (hc : c p = .error e ∨ (e = .keyError ∧ ∃ r, c p = .ok r ∧ r.hashable = true ∧ r.keyEq (.bool true) = false ∧
      r.keyEq (.bool false) = false)) (vs : List Val) (off : Nat) (src : Src) (st : St) :
    packGiven env n (.cond ser c defaults) p vs st = .err e st ∧
    packIntoGiven env n (.cond ser c defaults) p off vs st = .err e st ∧
    packWriteGiven env n (.cond ser c defaults) p vs st = .err e st ∧
    unpackGiven env n (.cond ser c defaults) p src st = .err e st := by
  have hp : (Ser.cond ser c defaults).prepack p st = .err e st := by
    rcases hc with hc | ⟨rfl, r, hc, hh, h1, h2⟩
    · simp only [Ser.prepack, M.lift, hc, bind, Except.bind]
    · have : condPick ser defaults r = .error .keyError := by
        unfold condPick
        rw [if_neg (by simp [hh]), if_neg (by simp [h1]), if_neg (by simp [h2])]
      simp only [Ser.prepack, M.lift, hc, bind, Except.bind, this]
  unfold packGiven packIntoGiven packWriteGiven unpackGiven
  simp only [bind, M.bind, hp, show (Ser.cond ser c defaults).preunpack p st = _ from hp, and_self]

/-- **C23** (results that cannot be keys).  A list, an object or a tuple with one in it raises `TypeError`. -/
theorem C23_unhashable {c : Decider} {p : PObj} {r : Val} (env : Env) (n : Nat) (ser : Ser) (defaults : List Val)
    (hc : c p = .ok r) (hr : Unhashable r) (vs : List Val) (off : Nat) (src : Src) (st : St) :
    packGiven env n (.cond ser c defaults) p vs st = .err .typeError st ∧
    packIntoGiven env n (.cond ser c defaults) p off vs st = .err .typeError st ∧
    packWriteGiven env n (.cond ser c defaults) p vs st = .err .typeError st ∧
    unpackGiven env n (.cond ser c defaults) p src st = .err .typeError st := by
  have hp : (Ser.cond ser c defaults).prepack p st = .err .typeError st := by
    have : condPick ser defaults r = .error .typeError := by
      unfold condPick
      rw [if_pos (by simp [unhashable_not hr])]
    simp only [Ser.prepack, M.lift, hc, bind, Except.bind, this]
  unfold packGiven packIntoGiven packWriteGiven unpackGiven
  simp only [bind, M.bind, hp, show (Ser.cond ser c defaults).preunpack p st = _ from hp, and_self]

example : result (packGiven Samples.env 3 (.cond (.struct u8) kindOf [.int 7]) ⟨0, false, [("kind", .list [.bool true])]⟩ [.int 5] st0) =
    .error .typeError := by rfl

/-- `Condition(lambda o: o.kind, 7)` on a `uint8`. -/
example :
    let s : Ser := .cond (.struct u8) kindOf [.int 7]
    result (packGiven Samples.env 3 s ⟨0, false, [("kind", .bool false)]⟩ [.int 5] st0) = .ok [] ∧
    result (packGiven Samples.env 3 s ⟨0, false, [("kind", .bool true)]⟩ [.int 5] st0) = .ok [5] ∧
    result (packGiven Samples.env 3 s ⟨0, false, [("kind", .int 1)]⟩ [.int 5] st0) = .ok [5] ∧
    result (unpackGiven Samples.env 3 s ⟨0, true, [("kind", .bool false)]⟩ (.buf [9]) st0) = .ok [.int 7] ∧
    result (unpackGiven Samples.env 3 s ⟨0, true, [("kind", .bool true)]⟩ (.buf [9]) st0) = .ok [.int 9] ∧
    result (unpackGiven Samples.env 3 s ⟨0, true, [("kind", .int 2)]⟩ (.buf [9]) st0) = .error .keyError :=
  ⟨by rfl, by rfl, by rfl, by rfl, by rfl, by rfl⟩

/-- C23 as stated for a true condition. -/
def C23_Full : Prop := ∀ (env : Env) (n : Nat) (ser : Ser) (c : Decider) (defaults : List Val) (p : PObj) (vs : List Val),
  c p = .ok (.bool true) → result (packGiven env n (.cond ser c defaults) p vs st0) = result (packGiven env n ser p vs st0)

/-- **C23 is false in full** (arrays).  `Condition` around an array of anything but basic types: the array is never told
its object, packing raises `AttributeError`. -/
theorem C23_array_is_false : ¬ C23_Full := by
  intro h
  have := h Samples.env 5 (.array [8] (some u8) (.structured [9] 0) (-1)) (fun _ => .ok (.bool true)) [.list []] ⟨0, false, []⟩
    [.list [point 1 2]] rfl
  exact absurd this (by
    rw [show result (packGiven Samples.env 5 (.cond (.array [8] (some u8) (.structured [9] 0) (-1)) (fun _ => .ok (.bool true))
      [.list []]) ⟨0, false, []⟩ [.list [point 1 2]] st0) = .error .attributeError from rfl,
      show result (packGiven Samples.env 5 (.array [8] (some u8) (.structured [9] 0) (-1)) ⟨0, false, []⟩
      [.list [point 1 2]] st0) = .ok [1, 1, 0, 2] from rfl]
    simp)

/-- **C23 is false in full** (`Self`).  A conditional `Self` cannot be packed nor unpacked at all. -/
theorem C23_self_is_false (env : Env) (n : Nat) (id : SerId) (c : Decider) (defaults : List Val) (p : PObj) (vs : List Val)
    (src : Src) (st : St) (hc : c p = .ok (.bool true)) :
    packGiven env (n + 1) (.cond (.selfT id) c defaults) p vs st = .err .notImplementedError st ∧
    unpackGiven env (n + 1) (.cond (.selfT id) c defaults) p src st = .err .notImplementedError st := by
  have hp : (Ser.cond (.selfT id) c defaults).prepack p st = .ok (.selfT id) st := by
    simp only [Ser.prepack, M.lift, hc, bind, Except.bind]
    rfl
  unfold packGiven unpackGiven
  refine ⟨?_, ?_⟩
  · rw [M.bind_eq hp]; rfl
  · rw [M.bind_eq (show (Ser.cond (.selfT id) c defaults).preunpack p st = _ from hp)]; rfl

/-- **C21** (tuples as keys).  Two tuples are the same key exactly if they have the same length and the same keys in each
place. -/
theorem C21_tuple_key (as bs : List Val) : (Val.tup as).keyEq (.tup bs) = true ↔
    as.length = bs.length ∧ ∀ (i : Nat) (a b : Val), as[i]? = some a → bs[i]? = some b → a.keyEq b = true := by
  show Val.keyEqList as bs = true ↔ _
  induction as generalizing bs with
  | nil => cases bs <;> simp [Val.keyEqList]
  | cons a as ih =>
    cases bs with
    | nil => simp [Val.keyEqList]
    | cons b bs =>
      simp only [Val.keyEqList, Bool.and_eq_true, ih, List.length_cons, Nat.add_right_cancel_iff]
      constructor
      · rintro ⟨h1, h2, h3⟩
        refine ⟨h2, fun i => ?_⟩
        cases i with
        | zero => intro x y hx hy; cases hx; cases hy; exact h1
        | succ i => exact h3 i
      · rintro ⟨h1, h2⟩
        exact ⟨h2 0 a b rfl rfl, h1, fun i => h2 (i + 1)⟩

example : (Val.tup [.int 1, .str [97]]).keyEq (.tup [.bool true, .str [97]]) = true :=
  (C21_tuple_key _ _).2 ⟨rfl, fun i a b ha hb => by
    match i with
    | 0 => cases ha; cases hb; rfl
    | 1 => cases ha; cases hb; rfl
    | i + 2 => cases ha⟩
example : (Val.tup [.int 1]).keyEq (.tup [.int 1, .int 2]) = false := by rfl

end Verif
