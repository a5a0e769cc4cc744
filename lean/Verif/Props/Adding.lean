import Verif.Proofs.AddRun
import Verif.Samples
/-
C34 (adding serializers), the last part of C11 and the first part of C24.
-/
namespace Verif
open Spec

variable {cf : ClassId → Bool} {id : SerId}

/-- **C34** (order and nesting).  However an addition of serializers is bracketed, the result consists of the
operands in their order, where `NullSerializer`s are left out and neighbouring struct serializers may have been added up;
no compound is inside another. -/
theorem C34_order {e : Sum} {s : Ser} (hl : ∀ x ∈ e.leaves, Simple x) (h : e.eval cf = .ok s) :
    Merge IsSum e.leaves (parts s) ∧ (∀ x ∈ parts s, Simple x) ∧ (Simple s ∨ ∃ id ss, s = .compound id ss) := by
  obtain ⟨f, m⟩ := eval_flat hl h
  exact ⟨m, f.simple, f.notSpecial⟩

/-- **C34** (identity).  `NullSerializer` is neutral on both sides. -/
theorem C34_null_left (s : Ser) : Ser.add cf id .null s = .ok s := by
  cases s <;> rfl

theorem C34_null_right {s : Ser} (hs : Simple s) : Ser.add cf id s .null = .ok s := by
  cases s <;> first | rfl | cases hs

/-- A compound with `NullSerializer` added is a new compound of the same serializers. -/
theorem C34_null_compound {i : SerId} {ss : List Ser} (h0 : ss ≠ []) (hs : ∀ x ∈ ss, Simple x) :
    Ser.add cf id (.compound i ss) .null = .ok (.compound id ss) := by
  unfold Ser.add
  dsimp only
  cases hr : ss.reverse with
  | nil => exact absurd (by simpa using hr) h0
  | cons last front =>
    have he := reverse_cons hr
    have hl : Simple last := hs last (by rw [he]; simp)
    dsimp only
    rw [addImpl, addSimple_null]
    simp only [bind, Except.bind]
    rw [if_neg (by rw [hl]; simp), addImpl, ← he]
    simp only [mkCompound]
    rw [if_neg]
    rw [Bool.not_eq_true, List.any_eq_false]
    intro x hx
    rw [show x.isCompound = false from hs x hx]
    simp

/-! ### Behaviour -/

/-- **C34** (packing).  If the additions were clean, then packing with the result is packing with the operands one after
another: the same values lead to success, the bytes, sizes and attributes afterwards are the same.  `pre` is what
`prepack` does for an object, or nothing. -/
theorem C34_pack_partial {xs ys : List Ser} (h : Merge CleanSum xs ys) (env : Env) (n : Nat) (i : SerId) (p : PObj)
    (vs : List Val) :
    SameOk (pack env (n + 2) (.compound i xs) vs) (pack env (n + 2) (.compound i ys) vs) ∧
    SameOk (pack env (n + 2) (.specialized i p xs) vs) (pack env (n + 2) (.specialized i p ys) vs) := by
  constructor
  · rw [pack, pack]
    exact (packLoop_merge fixes_pure h vs).bind_left
  · rw [pack, pack]
    exact (packLoop_merge (fixes_prepack p) h vs).bind_left

/-- **C34** (`pack_into`) -/
theorem C34_pack_into_partial {xs ys : List Ser} (h : Merge CleanSum xs ys) (env : Env) (n : Nat) (i : SerId) (p : PObj)
    (off : Nat) (vs : List Val) :
    SameOk (packInto env (n + 2) (.compound i xs) off vs) (packInto env (n + 2) (.compound i ys) off vs) ∧
    SameOk (packInto env (n + 2) (.specialized i p xs) off vs) (packInto env (n + 2) (.specialized i p ys) off vs) := by
  constructor
  · rw [packInto, packInto]
    exact (packIntoLoop_merge fixes_pure h off 0 vs).bind_left
  · rw [packInto, packInto]
    exact (packIntoLoop_merge (fixes_prepack p) h off 0 vs).bind_left

/-- **C34** (`pack_write`) -/
theorem C34_pack_write_partial {xs ys : List Ser} (h : Merge CleanSum xs ys) (env : Env) (n : Nat) (i : SerId) (p : PObj)
    (vs : List Val) :
    SameOk (packWrite env (n + 2) (.compound i xs) vs) (packWrite env (n + 2) (.compound i ys) vs) ∧
    SameOk (packWrite env (n + 2) (.specialized i p xs) vs) (packWrite env (n + 2) (.specialized i p ys) vs) := by
  constructor
  · rw [packWrite, packWrite]
    exact (packWriteLoop_merge fixes_pure h 0 vs).bind_left
  · rw [packWrite, packWrite]
    exact (packWriteLoop_merge (fixes_prepack p) h 0 vs).bind_left

/-- **C34** (unpacking, all three methods). -/
theorem C34_unpack_partial {xs ys : List Ser} (h : Merge CleanSum xs ys) (env : Env) (n : Nat) (i : SerId) (p : PObj)
    (names : List Name) (src : Src) :
    SameOk (unpack env (n + 2) noUpd (.compound i xs) src) (unpack env (n + 2) noUpd (.compound i ys) src) ∧
    (∀ upd, upd = noUpd ∨ upd = assignVals names →
      SameOk (unpack env (n + 2) upd (.specialized i p xs) src) (unpack env (n + 2) upd (.specialized i p ys) src)) := by
  constructor
  · rw [unpack, unpack]
    exact (unpackLoop_merge h src 0).bind_left
  · rintro upd (rfl | rfl)
    · rw [unpack, unpack]
      exact (unpackLoopSpec_merge updSeq_noUpd h src p 0 0).bind_left
    · rw [unpack, unpack]
      exact (unpackLoopSpec_merge (updSeq_assign names) h src p 0 0).bind_left

/-- **C34** (grouping).  Two ways of adding the same operands, both clean, give serializers that behave alike. -/
theorem C34_grouping_partial {leaves xs ys : List Ser} (h1 : Merge CleanSum leaves xs) (h2 : Merge CleanSum leaves ys)
    (env : Env) (n : Nat) (i : SerId) (p : PObj) (vs : List Val) (src : Src) (names : List Name) :
    SameOk (pack env (n + 2) (.specialized i p xs) vs) (pack env (n + 2) (.specialized i p ys) vs) ∧
    SameOk (pack env (n + 2) (.compound i xs) vs) (pack env (n + 2) (.compound i ys) vs) ∧
    SameOk (unpack env (n + 2) noUpd (.compound i xs) src) (unpack env (n + 2) noUpd (.compound i ys) src) ∧
    SameOk (unpack env (n + 2) (assignVals names) (.specialized i p xs) src)
      (unpack env (n + 2) (assignVals names) (.specialized i p ys) src) :=
  ⟨(C34_pack_partial h1 env n i p vs).2.symm.trans (C34_pack_partial h2 env n i p vs).2,
   (C34_pack_partial h1 env n i p vs).1.symm.trans (C34_pack_partial h2 env n i p vs).1,
   (C34_unpack_partial h1 env n i p names src).1.symm.trans (C34_unpack_partial h2 env n i p names src).1,
   ((C34_unpack_partial h1 env n i p names src).2 _ (.inr rfl)).symm.trans
     ((C34_unpack_partial h2 env n i p names src).2 _ (.inr rfl))⟩

/-- **C11** (adding).  Clean additions add up the numbers of values. -/
theorem C11_add_partial {xs ys : List Ser} (h : Merge CleanSum xs ys) (i : SerId) :
    (Ser.compound i xs).numValues = (Ser.compound i ys).numValues := by
  have app : ∀ p q, Ser.numValuesList (p ++ q) = Ser.numValuesList p + Ser.numValuesList q := by
    intro p q
    induction p with
    | nil => simp [Ser.numValuesList]
    | cons s p ih => simp only [List.cons_append, Ser.numValuesList, ih]; omega
  rw [Ser.numValues, Ser.numValues]
  induction h with
  | refl xs => rfl
  | null _ ih =>
    rw [← ih, app, app, Ser.numValuesList, Ser.numValues]; omega
  | join hj _ ih =>
    rw [← ih, app, app, Ser.numValuesList, Ser.numValuesList, Ser.numValuesList, Ser.numValues, Ser.numValues, Ser.numValues,
      hj.numValues]
    omega

/-- **C24** (sums).  A sum in which anything but `NullSerializer`s follows a serializer that reads to the end cannot be
made, however it is bracketed. -/
theorem C24_sum_partial {e : Sum} {pre post : List Ser} {x y : Ser} (hl : ∀ x ∈ e.leaves, Simple x)
    (he : e.leaves = pre ++ x :: post) (hx : x.isFinal cf = true) (hy : y ∈ post) (hy0 : y ≠ .null) :
    ∃ err, e.eval cf = .error err := by
  cases h : e.eval cf with
  | error err => exact ⟨err, rfl⟩
  | ok s =>
    exfalso
    obtain ⟨f, m⟩ := eval_flat hl h
    exact hy0 (finalLast_split (finalLast_merge m (finalLast_of f.final)) he hx y hy)

/-! ### Fields of a class -/

/-- What is known while the fields of a class are added up. -/
structure SumState (cf : ClassId → Bool) (bo : ByteOrder) (s : Ser) : Prop where
  flat : Flat cf s
  nonempty : ∀ i, s ≠ .compound i []
  notNull : ∀ x ∈ parts s, x ≠ .null
  valid : ∀ x, .struct x ∈ parts s → x.Valid ∧ x.byteOrder = bo

theorem addSimple_error {bo : ByteOrder} {a b : Ser} {e : Err} (sa : Simple a) (sb : Simple b)
    (ha : ∀ x, a = .struct x → x.Valid ∧ x.byteOrder = bo) (hb : FieldOf bo b) (h : a.addSimple cf id b = .error e) :
    e = .typeError := by
  unfold Ser.addSimple at h
  split at h
  · cases h
  · cases h
  · rename_i x y
    obtain ⟨v1, b1⟩ := ha x rfl
    obtain ⟨v2, b2, s2⟩ := hb.2 y rfl
    obtain ⟨c, hc⟩ : ∃ c, x.add y = .ok c := by
      by_cases hact : x.actions ≠ none ∨ y.actions ≠ none
      · obtain ⟨c, hc, _⟩ := C35_add_partial x y v1 v2 (b1.trans b2.symm) hact (.inl s2)
        exact ⟨c, hc⟩
      · simp only [not_or, Decidable.not_not] at hact
        obtain ⟨c, hc, _⟩ := C09_add_partial x y v1 v2 (by simpa using hact.1) (by simpa using hact.2) (b1.trans b2.symm) (.inl s2)
        exact ⟨c, hc⟩
    rw [hc] at h
    cases h
  · split at h
    · cases h; rfl
    · unfold mkCompound at h
      split at h
      · cases h; rfl
      · cases h

theorem SumState.ne_nil {bo : ByteOrder} {a : Ser} (ha : SumState cf bo a) (h : parts a = []) : a = .null := by
  rcases ha.flat.notSpecial with sa | ⟨i, ss, rfl⟩
  · rcases parts_simple sa with ⟨_, rfl⟩ | hp
    · rfl
    · rw [hp] at h; cases h
  · have : ss = [] := h
    exact absurd (by rw [this]) (ha.nonempty i)

/-- Adding a field: what comes out, or `TypeError`. -/
theorem add_field {bo : ByteOrder} {a b : Ser} (ha : SumState cf bo a) (hb : FieldOf bo b) :
    (∃ s, a.add cf id b = .ok s ∧ SumState cf bo s) ∨ a.add cf id b = .error .typeError := by
  cases h : a.add cf id b with
  | ok s =>
    left
    suffices hh : (∀ i, s ≠ .compound i []) ∧ (∀ x ∈ parts s, x ≠ .null) ∧
        (∀ x, .struct x ∈ parts s → x.Valid ∧ x.byteOrder = bo) from
      ⟨s, rfl, (add_merge ha.flat (flat_simple hb.1) h).1, hh.1, hh.2.1, hh.2.2⟩
    refine ⟨?_, ?_⟩
    · rintro i rfl
      rcases add_one ha.flat ha.notNull hb.1 h with ⟨rfl, he⟩ | ⟨hb0, he, _⟩ | ⟨front, x, y, z, h1, rfl, hz, he⟩
      · cases ha.ne_nil he.symm
        cases h
      · have : ([] : List Ser) = parts a ++ [b] := he
        simp at this
      · have : ([] : List Ser) = front ++ [.struct z] := he
        simp at this
    · rcases add_one ha.flat ha.notNull hb.1 h with ⟨rfl, he⟩ | ⟨hb0, he, _⟩ | ⟨front, x, y, z, h1, rfl, hz, he⟩
      · exact ⟨by rw [he]; exact ha.notNull, by rw [he]; exact ha.valid⟩
      · refine ⟨fun x hx => ?_, fun x hx => ?_⟩
        · rw [he] at hx
          rcases List.mem_append.1 hx with hx | hx
          · exact ha.notNull x hx
          · rw [List.mem_singleton.1 hx]; exact hb0
        · rw [he] at hx
          rcases List.mem_append.1 hx with hx | hx
          · exact ha.valid x hx
          · have := hb.2 x (List.mem_singleton.1 hx).symm
            exact ⟨this.1, this.2.1⟩
      · obtain ⟨vx, bx⟩ := ha.valid x (by rw [h1]; simp)
        obtain ⟨vy, by', sy⟩ := hb.2 y rfl
        have hc := sum_facts vx vy (bx.trans by'.symm) (.inl sy) hz
        refine ⟨fun w hw => ?_, fun w hw => ?_⟩
        · rw [he] at hw
          rcases List.mem_append.1 hw with hw | hw
          · exact ha.notNull w (by rw [h1]; simp [hw])
          · rw [List.mem_singleton.1 hw]; simp
        · rw [he] at hw
          rcases List.mem_append.1 hw with hw | hw
          · exact ha.valid w (by rw [h1]; simp [hw])
          · cases List.mem_singleton.1 hw
            exact ⟨hc.valid, hc.byteOrder.trans bx⟩
  | error e =>
    right
    have key : ∀ a', Simple a' → a' ∈ parts a ∨ a' = .null → a'.addSimple cf id b = .error e → e = .typeError := by
      intro a' sa' hm hh
      refine addSimple_error sa' hb.1 (fun x hx => ?_) hb hh
      rcases hm with hm | hm
      · exact ha.valid x (by rw [← hx]; exact hm)
      · rw [hm] at hx; cases hx
    rcases ha.flat.notSpecial with sa | ⟨i, ss, rfl⟩
    · have hs : a.addSimple cf id b = .error e := by
        cases a <;> first | cases sa | skip
        all_goals cases b <;> first | exact h | cases hb.1 | cases h
      have : a ∈ parts a ∨ a = .null := by
        rcases parts_simple sa with ⟨_, h0⟩ | hp
        · exact .inr h0
        · exact .inl (by rw [hp]; simp)
      rw [key a sa this hs]
    · have h' : (match ss.reverse with
          | [] => (.error .indexError : Except Err Ser)
          | last :: front => do mkCompound id (← addImpl cf id front.reverse last [b])) = .error e := by
        cases b <;> first | exact h | cases hb.1
      cases hr : ss.reverse with
      | nil => exact absurd (by rw [show ss = [] by simpa using hr]) (ha.nonempty i)
      | cons last front =>
        rw [hr] at h'
        dsimp only at h'
        have he := reverse_cons hr
        have hm : last ∈ ss := by rw [he]; simp
        have hl : Simple last := ha.flat.simple last hm
        rw [addImpl] at h'
        cases hj : last.addSimple cf id b with
        | error e' =>
          rw [hj] at h'
          cases h'
          rw [key last hl (.inl hm) hj]
        | ok j =>
          rw [hj] at h'
          simp only [bind, Except.bind] at h'
          split at h'
          · rename_i hh
            split at hh <;> rw [addImpl] at hh <;> cases hh
          · unfold mkCompound at h'
            split at h'
            · cases h'; rfl
            · cases h'

theorem sumState_null {bo : ByteOrder} : SumState cf bo .null :=
  ⟨flat_simple rfl, by simp, by simp [parts], by simp [parts]⟩

/-- **C34** (classes).  The serializer of a class whose fields have one byte order without alignment consists of the
fields' serializers, cleanly added. -/
theorem C34_fields {bo : ByteOrder} (hbo : bo.isNative = false) {ss : List Ser} {s : Ser} (hs : ∀ x ∈ ss, FieldOf bo x)
    (h : sumSers cf id ss = .ok s) : Merge CleanSum ss (parts s) := by
  suffices ∀ (ss done : List Ser) (acc : Ser), (∀ x ∈ ss, FieldOf bo x) → SumState cf bo acc →
      Merge CleanSum done (parts acc) → ss.foldlM (fun acc s => acc.add cf id s) acc = .ok s →
      Merge CleanSum (done ++ ss) (parts s) by
    simpa using this ss [] .null hs sumState_null (.refl _) h
  intro ss
  induction ss with
  | nil =>
    intro done acc _ _ hm h
    cases h
    simpa using hm
  | cons b ss ih =>
    intro done acc hf hp hm h
    rw [List.foldlM_cons] at h
    obtain ⟨acc', ha, h⟩ := Except.bind_ok' h
    have hb := hf b (by simp)
    have hm1 := hm.append [] [b]
    simp only [List.nil_append] at hm1
    have hp' : SumState cf bo acc' := by
      rcases add_field (id := id) hp hb with ⟨s', e, k⟩ | e
      · rw [ha] at e; cases e; exact k
      · rw [ha] at e; cases e
    have step : Merge CleanSum (parts acc ++ [b]) (parts acc') := by
      rcases add_one hp.flat hp.notNull hb.1 ha with ⟨rfl, he⟩ | ⟨hb0, he, _⟩ | ⟨front, x, y, z, h1, rfl, hz, he⟩
      · rw [he]
        exact .null (post := []) (by rw [List.append_nil]; exact .refl _)
      · rw [he]; exact .refl _
      · obtain ⟨vx, bx⟩ := hp.valid x (by rw [h1]; simp)
        obtain ⟨vy, bo_y, sy⟩ := hb.2 y rfl
        have hc : CleanSum x y z := ⟨hz, vx, vy, bx.trans bo_y.symm, .inl sy, fun t _ => by
          rw [bx, hbo, align_std]; omega⟩
        rw [h1, he, List.append_assoc]
        exact .join (post := []) hc (.refl _)
    have := ih (done ++ [b]) acc' (fun x hx => hf x (by simp [hx])) hp' (hm1.trans step) h
    simpa using this

/-- **C24** (fields of a class).  If anything that takes up bytes follows a field that reads to the end, the serializer
of the class cannot be made: `TypeError`. -/
theorem C24_fields_partial {bo : ByteOrder} {ss pre post : List Ser} {x y : Ser} (hs : ∀ x ∈ ss, FieldOf bo x)
    (he : ss = pre ++ x :: post) (hx : x.isFinal cf = true) (hy : y ∈ post) (hy0 : y ≠ .null) :
    sumSers cf id ss = .error .typeError := by
  suffices ∀ (ss done : List Ser) (acc : Ser), (∀ x ∈ ss, FieldOf bo x) → SumState cf bo acc →
      Merge IsSum done (parts acc) →
      (∃ s, ss.foldlM (fun acc s => acc.add cf id s) acc = .ok s ∧ SumState cf bo s ∧ Merge IsSum (done ++ ss) (parts s)) ∨
      ss.foldlM (fun acc s => acc.add cf id s) acc = .error .typeError by
    rcases this ss [] .null hs sumState_null (.refl _) with ⟨s, _, f, m⟩ | h
    · exfalso
      exact hy0 (finalLast_split (finalLast_merge m (finalLast_of f.flat.final)) he hx y hy)
    · exact h
  intro ss
  induction ss with
  | nil => exact fun done acc _ hp hm => .inl ⟨acc, rfl, hp, by simpa using hm⟩
  | cons b ss ih =>
    intro done acc hf hp hm
    have hb := hf b (by simp)
    rw [List.foldlM_cons]
    rcases add_field (id := id) hp hb with ⟨acc', e, k⟩ | e
    · rw [e]
      have step := (add_merge hp.flat (flat_simple hb.1) e).2
      have m1 := hm.append [] [b]
      have m2 : Merge IsSum (parts acc ++ [b]) (parts acc') := by
        have := (merge_parts (J := IsSum) hb.1).append (parts acc) []
        simp only [List.append_nil] at this
        exact this.trans step
      simp only [List.nil_append] at m1
      have := ih (done ++ [b]) acc' (fun x hx => hf x (by simp [hx])) k (m1.trans m2)
      rw [List.append_assoc] at this
      exact this
    · rw [e]; exact .inr rfl

/-- A class `a: uint8; b: uint8; n: char[uint8]; c: int16` in little endian: the first two are merged. -/
def sampleFields : List Ser :=
  [.struct ⟨"<B".toList, none⟩, .struct ⟨"<B".toList, none⟩, .dynChar [9] Samples.u8, .struct ⟨"<h".toList, none⟩]

/-- `C34_fields` applies to it. -/
example : (∀ x ∈ sampleFields, FieldOf .le x) ∧
    sumSers (fun _ => false) [7] sampleFields = .ok (.compound [7] [.struct ⟨"<2B".toList, none⟩,
      .dynChar [9] Samples.u8, .struct ⟨"<h".toList, none⟩]) := by
  refine ⟨?_, by rfl⟩
  intro x hx
  simp only [sampleFields, List.mem_cons, List.not_mem_nil, or_false] at hx
  rcases hx with rfl | rfl | rfl | rfl
  · exact ⟨rfl, fun x hx => by cases hx; exact ⟨⟨by decide, by simp⟩, by decide, [], 'B', by decide, by decide, by decide⟩⟩
  · exact ⟨rfl, fun x hx => by cases hx; exact ⟨⟨by decide, by simp⟩, by decide, [], 'B', by decide, by decide, by decide⟩⟩
  · exact ⟨rfl, fun x hx => by cases hx⟩
  · exact ⟨rfl, fun x hx => by cases hx; exact ⟨⟨by decide, by simp⟩, by decide, [], 'h', by decide, by decide, by decide⟩⟩

/-- `'<B', '<B', char[uint8], '<h'` in a different bracketing: the same again. -/
example : Sum.eval (fun _ => false) (.plus [1] (.leaf (.struct ⟨"<B".toList, none⟩)) (.plus [2] (.leaf .null) (.plus [3]
      (.leaf (.struct ⟨"<B".toList, none⟩)) (.plus [4] (.leaf (.dynChar [9] Samples.u8))
        (.leaf (.struct ⟨"<h".toList, none⟩)))))) = .ok (.compound [1] [.struct ⟨"<2B".toList, none⟩,
      .dynChar [9] Samples.u8, .struct ⟨"<h".toList, none⟩]) := by rfl

/-- Packing `[1, 2, b'xy', -1]` with the sum. -/
example : Samples.result (pack Samples.env 3 (.compound [7] sampleFields) [.int 1, .int 2, .bytes [120, 121], .int (-1)] Samples.st0)
      = .ok [1, 2, 2, 120, 121, 255, 255] ∧
    Samples.result (pack Samples.env 3 (.compound [7] [.struct ⟨"<2B".toList, none⟩, .dynChar [9] Samples.u8,
      .struct ⟨"<h".toList, none⟩]) [.int 1, .int 2, .bytes [120, 121], .int (-1)] Samples.st0)
      = .ok [1, 2, 2, 120, 121, 255, 255] := ⟨by rfl, by rfl⟩

/-- A field that reads to the end may come last; a `uint8` after such a field is refused. -/
example : sumSers (fun _ => false) [7] [.struct Samples.u8, .consuming [3]] = .ok (.compound [7] [.struct Samples.u8, .consuming [3]]) ∧
    sumSers (fun _ => false) [7] [.struct Samples.u8, .unicode (.consuming [3]) (fun _ => .error .typeError) (fun _ => .error .typeError),
      .null, .struct Samples.u8] = .error .typeError := ⟨by rfl, by rfl⟩

/-! ### What goes wrong -/

/-- **C34 is false in full** (grouping).  `('h' + 'h') + 'I'` has three values, `'h' + ('h' + 'I')` two: the `'I'` is
lost in `fold_overlaps`. -/
theorem C34_grouping_is_false : ∃ a b c l r : Ser,
    Sum.eval (fun _ => false) (.plus [1] (.plus [2] (.leaf a) (.leaf b)) (.leaf c)) = .ok l ∧
    Sum.eval (fun _ => false) (.plus [1] (.leaf a) (.plus [2] (.leaf b) (.leaf c))) = .ok r ∧
    l.numValues = 3 ∧ r.numValues = 2 :=
  ⟨.struct ⟨['h'], none⟩, .struct ⟨['h'], none⟩, .struct ⟨['I'], none⟩, .struct ⟨"2hI".toList, none⟩,
    .struct ⟨"2h".toList, none⟩, by rfl, by rfl, by rfl, by rfl⟩

/-- **C34 is false in full** (alignment).  Fields `uint8`, `uint32` in the default byte order: the sum inserts three
bytes of padding, which the two serializers one after the other do not. -/
theorem C34_native_is_false : ∃ s : Ser,
    sumSers (fun _ => false) [7] [.struct Samples.u8, .struct ⟨['I'], none⟩] = .ok s ∧
    Samples.result (pack Samples.env 3 s [.int 1, .int 2] Samples.st0) = .ok [1, 0, 0, 0, 2, 0, 0, 0] ∧
    Samples.result (pack Samples.env 3 (.compound [7] [.struct Samples.u8, .struct ⟨['I'], none⟩]) [.int 1, .int 2] Samples.st0)
      = .ok [1, 2, 0, 0, 0] :=
  ⟨.struct ⟨"BI".toList, none⟩, by rfl, by rfl, by rfl⟩

/-- **C34 is false in full** (grouping, byte order).  A serializer with actions is added without comparing byte orders;
whether the sum can be made depends on the brackets. -/
theorem C34_byte_order_is_false (f : Action) : ∃ a b c s : Ser,
    Sum.eval (fun _ => false) (.plus [1] (.plus [2] (.leaf a) (.leaf b)) (.leaf c)) = .error .valueError ∧
    Sum.eval (fun _ => false) (.plus [1] (.leaf a) (.plus [2] (.leaf b) (.leaf c))) = .ok s :=
  ⟨.struct ⟨"<I".toList, none⟩, .struct ⟨">B".toList, none⟩, .struct ⟨">h".toList, some [f]⟩,
    .struct ⟨"<IBh".toList, some [noopAction, noopAction, f]⟩, by rfl, by rfl⟩

end Verif
