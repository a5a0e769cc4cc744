import Verif.Proofs.NegUnpack
import Verif.Proofs.RefineInto
/-
Packing into a buffer at an integer offset against packing at the natural number it stands for.
-/
namespace Verif.Neg

variable {t : Bool}

mutual
theorem noTail_wbo (bo : ByteOrder) : ∀ {s s' : Ser}, s.withByteOrder bo = .ok s' → s'.noTail t = s.noTail t
  | .struct st, s', h => by
    simp only [Ser.withByteOrder] at h
    cases h1 : st.withByteOrder bo <;> rw [h1] at h <;> cases h
    simp [Ser.noTail]
  | .dynChar id st, s', h => by
    simp only [Ser.withByteOrder] at h
    cases h1 : st.withByteOrder bo <;> rw [h1] at h <;> cases h
    simp [Ser.noTail]
  | .array id hdr item sl, s', h => by
    simp only [Ser.withByteOrder] at h
    cases hdr with
    | none =>
      obtain ⟨hdr', _, h⟩ := Except.bind_ok' h
      obtain ⟨item', h2, h⟩ := Except.bind_ok' h
      cases h
      simp [Ser.noTail, noTail_wbo bo h2]
    | some hd =>
      obtain ⟨_, _, h⟩ := Except.bind_ok' h
      obtain ⟨hdr', _, h⟩ := Except.bind_ok' h
      obtain ⟨item', h2, h⟩ := Except.bind_ok' h
      cases h
      simp [Ser.noTail, noTail_wbo bo h2]
  | .staticArr count item ser, s', h => by
    simp only [Ser.withByteOrder] at h
    obtain ⟨item', h1, h⟩ := Except.bind_ok' h
    obtain ⟨ser', h2, h⟩ := Except.bind_ok' h
    cases h
    simp [Ser.noTail]
  | .dynArr id cnt item, s', h => by
    simp only [Ser.withByteOrder] at h
    obtain ⟨hdr', h1, h⟩ := Except.bind_ok' h
    obtain ⟨item', h2, h⟩ := Except.bind_ok' h
    cases h
    simp [Ser.noTail]
  | .cond ser c defs, s', h => by
    simp only [Ser.withByteOrder] at h
    obtain ⟨ser', h1, h⟩ := Except.bind_ok' h
    split at h <;> cases h
    simp [Ser.noTail, noTail_wbo bo h1]
  | .compound id ss, s', h => by
    simp only [Ser.withByteOrder] at h
    obtain ⟨ss', h1, h⟩ := Except.bind_ok' h
    unfold mkCompound at h
    split at h <;> cases h
    simp [Ser.noTail, noTailList_wbo bo h1]
  | .specialized id p ss, s', h => by
    simp only [Ser.withByteOrder] at h
    obtain ⟨ss', h1, h⟩ := Except.bind_ok' h
    unfold mkCompound at h
    split at h <;> cases h
    simp [Ser.noTail, noTailList_wbo bo h1]
  | .null, s', h | .consuming _, s', h | .terminated .., s', h | .net _, s', h | .unicode .., s', h
  | .tuple .., s', h | .lookback .., s', h | .lookahead .., s', h | .skip _, s', h | .structured .., s', h
  | .selfT _, s', h => by simp only [Ser.withByteOrder] at h; cases h; rfl
theorem noTailList_wbo (bo : ByteOrder) : ∀ {ss ss' : List Ser}, Ser.withByteOrderList bo ss = .ok ss' →
    Ser.noTailList t ss' = Ser.noTailList t ss
  | [], ss', h => by simp only [Ser.withByteOrderList] at h; cases h; rfl
  | s :: ss, ss', h => by
    simp only [Ser.withByteOrderList] at h
    obtain ⟨s', h1, h⟩ := Except.bind_ok' h
    obtain ⟨ss'', h2, h⟩ := Except.bind_ok' h
    cases h
    simp [Ser.noTailList, noTail_wbo bo h1, noTailList_wbo bo h2]
end

variable {strict : Bool} {α β : Type}

/-- A success is the same success and leaves the length of the buffer (unless `strict`); an exception is the same
exception if `strict`. -/
def Same (strict : Bool) (st : St) (r r' : Res α) : Prop :=
  match r with
  | .ok a st1 => r' = .ok a st1 ∧ (strict = false → st1.buf.length = st.buf.length)
  | .err e st1 => strict = true → r' = .err e st1

theorem Same.bind {x x' : M α} {k k' : α → M β} {st : St} (h : Same strict st (x st) (x' st))
    (hk : ∀ a st1, x st = .ok a st1 → (strict = false → st1.buf.length = st.buf.length) →
      Same strict st1 (k a st1) (k' a st1)) :
    Same strict st ((x >>= k) st) ((x' >>= k') st) := by
  show Same strict st (M.bind x k st) (M.bind x' k' st)
  unfold M.bind
  cases hx : x st with
  | ok a st1 =>
    rw [hx] at h
    obtain ⟨h1, h2⟩ := h
    rw [h1]
    have := hk a st1 hx h2
    simp only
    cases hr : k a st1 with
    | ok c st2 =>
      rw [hr] at this
      exact ⟨this.1, fun hs => (this.2 hs).trans (h2 hs)⟩
    | err e st2 =>
      rw [hr] at this
      exact this
  | err e st1 =>
    rw [hx] at h
    intro hs
    rw [h hs]

/-- An operation that does not touch the buffer. -/
def Still (x : M α) : Prop := ∀ st a st1, x st = .ok a st1 → st1.buf = st.buf

theorem Same.still {x : M α} (h : Still x) {st : St} : Same strict st (x st) (x st) := by
  cases hx : x st with
  | ok a st1 => exact ⟨rfl, fun _ => by rw [h st a st1 hx]⟩
  | err e st1 => exact fun _ => rfl

theorem still_pure (a : α) : Still (pure a : M α) := by intro st b st1 h; cases h; rfl

theorem still_throw (e : Err) : Still (M.throw e : M α) := by intro st b st1 h; cases h

theorem still_lift (x : Except Err α) : Still (M.lift x) := by
  intro st b st1 h
  cases x <;> cases h
  rfl

theorem still_bind {x : M α} {k : α → M β} (hx : Still x) (hk : ∀ a, Still (k a)) : Still (x >>= k) := by
  intro st b st1 h
  obtain ⟨a, st2, h1, h2⟩ := M.bind_ok h
  rw [hk a st2 b st1 h2, hx st a st2 h1]

theorem still_setSize (i : SerId) (k : Nat) : Still (Verif.setSize i k) := by intro st b st1 h; cases h; rfl

theorem still_setPart (i : SerId) (p : PObj) : Still (setPart i p) := by intro st b st1 h; cases h; rfl

theorem still_getPart (i : SerId) : Still (getPart i) := by
  intro st b st1 h
  unfold getPart at h
  cases hp : (st.cells i).part <;> rw [hp] at h <;> cases h
  rfl

theorem still_prepack (s : Ser) (p : PObj) : Still (s.prepack p) := by
  cases s with
  | array => exact still_bind (still_setPart _ _) fun _ => still_pure _
  | tuple => exact still_bind (still_setPart _ _) fun _ => still_pure _
  | lookback => exact still_bind (still_setPart _ _) fun _ => still_pure _
  | lookahead => exact still_bind (still_setPart _ _) fun _ => still_pure _
  | cond => exact still_lift _
  | _ => exact still_pure _

theorem still_getSerializer {id : SerId} {keys : List Val} {opts : List Ser} {dflt : Ser} {r : Val} :
    Still (getSerializer true id keys opts dflt r) :=
  still_bind (still_lift _) fun _ => still_bind (still_getPart _) fun _ => still_prepack _ _

theorem still_readSize : ∀ s : Ser, Still s.readSize
  | .unicode inner _ _ => still_readSize inner
  | .tuple _ inner => still_readSize inner
  | .null | .struct _ | .skip _ | .staticArr .. => still_pure _
  | .cond .. | .selfT _ => still_throw _
  | .dynChar .. | .consuming _ | .terminated .. | .net _ | .array .. | .dynArr .. | .lookback .. | .lookahead ..
  | .structured .. | .compound .. | .specialized .. => by intro st b st1 h; cases h; rfl

/-! ### Leaves -/

/-- What a struct writes when it succeeds. -/
theorem packInto_ok {P : Platform} {s : StructSer} {b b' : Bytes} {m : Nat} {vs : List Val}
    (h : s.packInto P b m vs = (b', none)) : ∃ d, s.pack P vs = .ok d ∧ d.length = s.size ∧ m + s.size ≤ b.length ∧
      b' = splice b m d := by
  unfold StructSer.packInto Verif.structPackInto at h
  by_cases h1 : vs.length = numVals s.toks
  · rw [if_pos h1] at h
    by_cases h2 : m ≤ b.length ∧ sizeToks s.byteOrder.isNative s.toks ≤ b.length - m
    · rw [if_pos h2] at h
      cases hd : packToks s.byteOrder s.toks 0 vs (P := P) with
      | error e => rw [hd] at h; cases h
      | ok d =>
        rw [hd] at h
        cases h
        have := packToks_length hd
        refine ⟨d, ?_, ?_, ?_, rfl⟩
        · unfold StructSer.pack structPack
          rw [if_pos h1, hd]
        · unfold StructSer.size sizeToks; omega
        · unfold StructSer.size; omega
    · rw [if_neg h2] at h; cases h
  · rw [if_neg h1] at h; cases h

theorem packInto_of_pack {P : Platform} {s : StructSer} {b : Bytes} {m : Nat} {vs : List Val} {d : Bytes}
    (h : s.pack P vs = .ok d) (hl : m + s.size ≤ b.length) : s.packInto P b m vs = (splice b m d, none) := by
  unfold StructSer.pack structPack at h
  unfold StructSer.size at hl
  unfold StructSer.packInto Verif.structPackInto
  by_cases h1 : vs.length = numVals s.toks
  · rw [if_pos h1] at h ⊢
    rw [if_pos (by omega), h]
  · rw [if_neg h1] at h; cases h

theorem same_struct (env : Env) {s : StructSer} {o : Int} {m : Nat} {vs : List Val} {st : St}
    (h : Off strict st.buf.length o m) :
    Same strict st (structPackIntoM env s m vs st) (structPackInto env s o vs st) := by
  unfold structPackInto structPackIntoM
  cases hp : s.packInto env.plat st.buf m vs with
  | mk b e =>
    cases e with
    | some e =>
      intro hs
      rcases h with rfl | ⟨h1, _⟩
      · rw [start_nat]
        simp only
        rw [hp]
      · rw [hs] at h1; cases h1
    | none =>
      obtain ⟨d, hd, hl, hm, rfl⟩ := packInto_ok hp
      refine ⟨?_, fun _ => splice_length (by omega)⟩
      rcases h with rfl | ⟨h1, h2⟩
      · rw [start_nat]
        simp only
        rw [hp]
      · unfold start
        by_cases ho : o < 0
        · rw [if_pos ho, if_neg (by omega), if_neg (by omega), show (o + st.buf.length).toNat = m by omega]
          simp only
          rw [hp]
        · rw [if_neg ho]
          simp only
          rw [packInto_of_pack hd (by omega)]
          have : d = [] := List.eq_nil_of_length_eq_zero (by omega)
          subst this
          simp only [splice_nil]

theorem same_opt (env : Env) {s : Option StructSer} {o : Int} {m : Nat} {vs : List Val} {st : St}
    (h : Off strict st.buf.length o m) :
    Same strict st (Verif.packIntoOpt env s m vs st) (packIntoOpt env s o vs st) := by
  cases s with
  | none => exact ⟨rfl, fun _ => rfl⟩
  | some s => exact same_struct env h

theorem assign_eq (b d : Bytes) (m : Nat) : assignSlice b (m : Int) (m + d.length) d = splice b m d := by
  unfold assignSlice splice bound
  rw [if_neg (by omega), if_neg (by omega), Int.toNat_natCast, show ((m : Int) + d.length).toNat = m + d.length by omega,
    ← List.take_eq_take_min]
  congr 1
  by_cases h : m + d.length ≤ b.length
  · congr 1; omega
  · rw [List.drop_eq_nil_of_le (by omega), List.drop_eq_nil_of_le (by omega)]

theorem Off.len {o : Int} {m : Nat} {st st1 : St} (h : Off strict st.buf.length o m)
    (hl : strict = false → st1.buf.length = st.buf.length) : Off strict st1.buf.length o m := by
  rcases h with h | ⟨h1, h2⟩
  · exact .inl h
  · exact .inr ⟨h1, by rw [hl h1]; exact h2⟩

/-! ### Loops -/

/-- What the induction hypothesis says about the recursive calls. -/
def SameN (strict : Bool) (f : Ser → Nat → List Val → M Unit) (f' : Ser → Int → List Val → M Unit) : Prop :=
  ∀ (s : Ser) (o : Int) (m : Nat) (vs : List Val) (st : St), Off strict st.buf.length o m →
    (strict = false → s.noTail true = true) → Same strict st (f s m vs st) (f' s o vs st)

variable {f : Ser → Nat → List Val → M Unit} {f' : Ser → Int → List Val → M Unit}

theorem same_loop (ih : SameN strict f f') {pre : Ser → M Ser} (hp : ∀ s, Still (pre s))
    (hn : ∀ s s' st st1, pre s st = .ok s' st1 → s.noTail true = true → s'.noTail true = true) {o : Int} {m : Nat} :
    ∀ (ss : List Ser) (vs : List Val) (size : Nat) (st : St), Off strict st.buf.length o m →
      (strict = false → Ser.noTailList true ss = true) →
      Same strict st (Verif.packIntoLoop f pre m size ss vs st) (packIntoLoop f' pre o size ss vs st)
  | [], _, _, _, _, _ => ⟨rfl, fun _ => rfl⟩
  | s :: ss, vs, size, st, h, hs => by
    simp only [Ser.noTailList, Bool.and_eq_true] at hs
    refine Same.bind (Same.still (hp s)) fun s' st1 h1 l1 => ?_
    have h := h.len l1
    refine Same.bind (ih s' _ _ _ _ h.add fun hb => hn _ _ _ _ h1 (hs hb).1) fun _ st2 _ l2 => ?_
    have h := h.len l2
    refine Same.bind (Same.still (still_readSize s')) fun sz st3 _ l3 => ?_
    have h := h.len l3
    exact same_loop ih hp hn ss _ (size + sz) st3 h fun hb => (hs hb).2

theorem same_items (ih : SameN strict f f') {item : Ser} (hi : strict = false → item.noTail true = true) {o : Int} {m : Nat} :
    ∀ (vs : List Val) (size : Nat) (st : St), Off strict st.buf.length o m →
      Same strict st (Verif.packIntoItems f item m size vs st) (packIntoItems f' item o size vs st)
  | [], _, _, _ => ⟨rfl, fun _ => rfl⟩
  | v :: vs, size, st, h => by
    refine Same.bind (ih item _ _ _ _ h.add hi) fun _ st2 _ l2 => ?_
    have h := h.len l2
    refine Same.bind (Same.still (still_readSize item)) fun sz st3 _ l3 => ?_
    exact same_items ih hi vs (size + sz) st3 (h.len l3)

theorem noTail_objSer {env : Env} (he : env.noTail t) {cls : ClassId} {bo : Option ByteOrder} {ci : ClassInfo} {ser : Ser}
    (h : objSer env cls bo = .ok (ci, ser)) : ser.noTail t = true := by
  unfold objSer at h
  cases hc : env.classes cls with
  | none => rw [hc] at h; cases h
  | some c =>
    rw [hc] at h
    cases bo with
    | none => cases h; exact he _ _ hc
    | some bo =>
      obtain ⟨s, h1, h⟩ := Except.bind_ok' h
      cases h
      rw [noTail_wbo bo h1]
      exact he _ _ hc

theorem same_obj {env : Env} (he : strict = false → env.noTail true) (ih : SameN strict f f') {v : Val} {o : Int} {m : Nat}
    {st : St} (h : Off strict st.buf.length o m) :
    Same strict st (Verif.objPackInto env f m v st) (objPackInto env f' o v st) := by
  unfold Verif.objPackInto objPackInto
  cases v with
  | obj cls bo attrs =>
    refine Same.bind (Same.still (still_lift _)) fun q st1 hq l1 => ?_
    have h := h.len l1
    refine Same.bind (Same.still (still_prepack _ _)) fun s st2 hs l2 => ?_
    have h := h.len l2
    refine Same.bind (Same.still (still_lift _)) fun vals st3 _ l3 => ?_
    have h := h.len l3
    refine Same.bind (ih s _ _ _ _ h fun hb => noTail_prepack hs (noTail_objSer (he hb) (M.lift_ok hq).1)) fun _ st4 _ _ => ?_
    exact Same.still (still_pure _)
  | _ => exact Same.still (still_throw _)

/-! ### The induction -/

theorem same_packInto {env : Env} (he : strict = false → env.noTail true) :
    ∀ n : Nat, SameN strict (Verif.packInto env n) (Neg.packInto env n)
  | 0, _, _, _, _, _, _, _ => Same.still (still_throw _)
  | n + 1, s, o, m, vs, st, h, hs => by
    have ih := same_packInto he n
    cases s with
    | null => exact Same.still (still_pure _)
    | struct s => exact same_struct env h
    | dynChar i s =>
      refine Same.bind (Same.still (still_lift _)) fun q st1 _ l1 => ?_
      have h := h.len l1
      refine Same.bind (Same.still (still_setSize _ _)) fun _ st2 _ l2 => ?_
      exact same_struct env (h.len l2)
    | consuming i =>
      cases strict with
      | false => exact absurd (hs rfl) (by simp [Ser.noTail])
      | true =>
        rcases h with rfl | ⟨h, _⟩
        · refine Same.bind (Same.still (still_lift _)) fun d st1 _ _ => ?_
          refine Same.bind (Same.still (still_setSize _ _)) fun _ st2 _ _ => ?_
          refine ⟨?_, fun h => by cases h⟩
          show Res.ok () { st2 with buf := assignSlice st2.buf m (m + d.length) d } = _
          rw [assign_eq]
        · cases h
    | terminated i t =>
      refine Same.bind (Same.still (still_lift _)) fun d st1 _ l1 => ?_
      have h := h.len l1
      refine Same.bind (Same.still (still_setSize _ _)) fun _ st2 _ l2 => ?_
      have h := h.len l2
      refine Same.bind (Same.still (still_lift _)) fun s st3 _ l3 => ?_
      exact same_opt env (h.len l3)
    | net i =>
      refine Same.bind (Same.still (still_lift _)) fun q st1 _ l1 => ?_
      have h := h.len l1
      refine Same.bind (Same.still (still_setSize _ _)) fun _ st2 _ l2 => ?_
      exact same_struct env (h.len l2)
    | unicode inner enc dec =>
      refine Same.bind (Same.still (still_lift _)) fun d st1 _ l1 => ?_
      exact ih inner _ _ _ _ (h.len l1) (by simpa [Ser.noTail] using hs)
    | array i hdr item sl =>
      simp only [Ser.noTail] at hs
      refine Same.bind (Same.still (still_lift _)) fun v st1 _ l1 => ?_
      have h := h.len l1
      refine Same.bind (Same.still (still_getPart _)) fun p st2 _ l2 => ?_
      have h := h.len l2
      refine Same.bind (Same.still (still_prepack _ _)) fun item' st3 hi l3 => ?_
      have h := h.len l3
      refine Same.bind (Same.still (still_lift _)) fun items st4 _ l4 => ?_
      have h := h.len l4
      refine Same.bind (same_items ih (fun hb => noTail_prepack hi (hs hb)) items _ st4 h) fun size st5 _ l5 => ?_
      have h := h.len l5
      refine Same.bind (Same.still (still_lift _)) fun hv st6 _ l6 => ?_
      have h := h.len l6
      refine Same.bind (Same.still (still_setSize _ _)) fun _ st7 _ l7 => ?_
      exact same_opt env (h.len l7)
    | staticArr c k ser =>
      refine Same.bind (Same.still (still_lift _)) fun items st1 _ l1 => ?_
      exact same_opt env (h.len l1)
    | dynArr i cnt item =>
      refine Same.bind (Same.still (still_lift _)) fun q st1 _ l1 => ?_
      have h := h.len l1
      refine Same.bind (Same.still (still_setSize _ _)) fun _ st2 _ l2 => ?_
      exact same_struct env (h.len l2)
    | tuple i inner =>
      simp only [Ser.noTail] at hs
      match vs with
      | [v] =>
        refine Same.bind (Same.still (still_getPart _)) fun p st1 _ l1 => ?_
        have h := h.len l1
        refine Same.bind (Same.still (still_prepack _ _)) fun inner' st2 hi l2 => ?_
        have h := h.len l2
        refine Same.bind (Same.still (still_lift _)) fun vals st3 _ l3 => ?_
        exact ih inner' _ _ _ _ (h.len l3) fun hb => noTail_prepack hi (hs hb)
      | [] => exact Same.still (still_throw _)
      | _ :: _ :: _ => exact Same.still (still_throw _)
    | lookback i decider keys opts dflt =>
      simp only [Ser.noTail, Bool.and_eq_true] at hs
      refine Same.bind (Same.still (still_getPart _)) fun p st1 _ l1 => ?_
      have h := h.len l1
      refine Same.bind (Same.still (still_lift _)) fun r st2 _ l2 => ?_
      have h := h.len l2
      refine Same.bind (Same.still still_getSerializer) fun s st3 hg l3 => ?_
      have h := h.len l3
      refine Same.bind (ih s _ _ _ _ h fun hb => noTail_getSerializer hg (hs hb).1 (hs hb).2) fun _ st4 _ _ => ?_
      exact Same.still (still_bind (still_readSize s) fun _ => still_setSize _ _)
    | lookahead i ra decider keys opts dflt =>
      simp only [Ser.noTail, Bool.and_eq_true] at hs
      refine Same.bind (Same.still (still_getPart _)) fun p st1 _ l1 => ?_
      have h := h.len l1
      refine Same.bind (Same.still (still_lift _)) fun r st2 _ l2 => ?_
      have h := h.len l2
      refine Same.bind (Same.still still_getSerializer) fun s st3 hg l3 => ?_
      have h := h.len l3
      refine Same.bind (ih s _ _ _ _ h fun hb => noTail_getSerializer hg (hs hb).1.2 (hs hb).2) fun _ st4 _ _ => ?_
      exact Same.still (still_bind (still_readSize s) fun _ => still_setSize _ _)
    | cond => exact Same.still (still_throw _)
    | skip vals => exact Same.still (still_pure _)
    | structured i cls =>
      match vs with
      | [v] =>
        refine Same.bind (same_obj he ih h) fun ser st1 _ _ => ?_
        exact Same.still (still_bind (still_readSize ser) fun _ => still_setSize _ _)
      | [] => exact Same.still (still_throw _)
      | _ :: _ :: _ => exact Same.still (still_throw _)
    | selfT => exact Same.still (still_throw _)
    | compound i ss =>
      simp only [Ser.noTail] at hs
      refine Same.bind (same_loop ih (fun _ => still_pure _) ?_ ss vs 0 st h hs) fun total st1 _ _ => ?_
      · intro s s' st st1 h hs; cases h; exact hs
      · exact Same.still (still_setSize _ _)
    | specialized i p ss =>
      simp only [Ser.noTail] at hs
      refine Same.bind (same_loop ih (fun _ => still_prepack _ _) ?_ ss vs 0 st h hs) fun total st1 _ _ => ?_
      · intro s s' st st1 h hs; exact noTail_prepack h hs
      · exact Same.still (still_setSize _ _)

theorem same_objPackInto {env : Env} (he : strict = false → env.noTail true) {n : Nat} {v : Val} {o : Int} {m : Nat}
    {st : St} (h : Off strict st.buf.length o m) :
    Same strict st (Verif.Obj.packInto env n m v st) (Obj.packInto env n o v st) :=
  Same.bind (same_obj he (same_packInto he n) h) fun _ _ _ _ => Same.still (still_pure _)

theorem agree_objUnpack {b : Bytes} {env : Env} (he : env.noTail strict) {n : Nat} {v : Val} {o : Int} {m : Nat}
    (h : Off strict b.length o m) {st : St} :
    Agree strict id (Verif.Obj.unpack env n v (.at b m) st) (Obj.unpack env n v b o (emb st)) := by
  unfold Verif.Obj.unpack Obj.unpack
  cases v with
  | obj cls bo attrs =>
    refine Agree.bind1 Agree.lift fun q st1 hq => ?_
    refine Agree.bind1 (Agree.base (quiet_preunpack _ _)) fun s st2 hs => ?_
    refine Agree.bind1 (agree_unpack he n _ s _ _ _ h (noTail_preunpack hs (noTail_objSer he (M.lift_ok hq).1))) fun vals st3 _ => ?_
    by_cases hl : vals.length = q.1.attrs.length
    · simp only [if_pos hl]; rfl
    · simp only [if_neg hl]; exact Agree.throw
  | _ => exact Agree.throw

end Verif.Neg
