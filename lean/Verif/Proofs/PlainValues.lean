import Verif.Spec.Buffers
import Verif.Proofs.NegUnpack
/-
Reading with plain callbacks gives plain values and leaves plain partial objects (C46).
-/
namespace Verif
open Buf Verif.Neg

variable {env : Env} {raw net : Bool}

theorem noSliceList_mem {vs : List Val} : Val.NoSliceList vs ↔ ∀ v ∈ vs, v.NoSlice := by
  induction vs with
  | nil => simp [Val.NoSliceList]
  | cons v vs ih => simp [Val.NoSliceList, ih]

theorem noSliceAttrs_mem {as : List (Name × Val)} : Val.NoSliceAttrs as ↔ ∀ a ∈ as, a.2.NoSlice := by
  induction as with
  | nil => simp [Val.NoSliceAttrs]
  | cons a as ih => obtain ⟨n, v⟩ := a; simp [Val.NoSliceAttrs, ih]

theorem noSliceList_append {vs ws : List Val} (h1 : Val.NoSliceList vs) (h2 : Val.NoSliceList ws) :
    Val.NoSliceList (vs ++ ws) := by
  rw [noSliceList_mem] at *
  intro v hv
  rcases List.mem_append.1 hv with h | h
  · exact h1 v h
  · exact h2 v h

theorem noSliceAttrs_set {as : List (Name × Val)} {a : Name} {v : Val} (h : Val.NoSliceAttrs as) (hv : v.NoSlice) :
    Val.NoSliceAttrs (setAttr as a v) := by
  induction as with
  | nil => exact ⟨hv, trivial⟩
  | cons b as ih =>
    obtain ⟨n, w⟩ := b
    unfold setAttr
    by_cases hc : (n == a) = true
    · rw [if_pos hc]; exact ⟨hv, h.2⟩
    · rw [if_neg hc]; exact ⟨h.1, ih h.2⟩

theorem noSliceAttrs_fold {names : List Name} {vs : List Val} {as : List (Name × Val)} (h : Val.NoSliceAttrs as)
    (hv : Val.NoSliceList vs) : Val.NoSliceAttrs ((names.zip vs).foldl (fun as nv => setAttr as nv.1 nv.2) as) := by
  induction names generalizing vs as with
  | nil => simpa using h
  | cons n names ih =>
    cases vs with
    | nil => simpa using h
    | cons v vs => exact ih (noSliceAttrs_set h hv.1) hv.2

theorem noSliceAttrs_zip {names : List Name} {vs : List Val} (hv : Val.NoSliceList vs) :
    Val.NoSliceAttrs (names.zip vs) := by
  induction names generalizing vs with
  | nil => simp [Val.NoSliceAttrs]
  | cons n names ih =>
    cases vs with
    | nil => simp [Val.NoSliceAttrs]
    | cons v vs => exact ⟨hv.1, ih hv.2⟩

mutual
theorem asKey_plain : (v : Val) → v.NoSlice → asKey v = .ok v
  | .custom tag w, h => by
    simp only [Val.NoSlice] at h
    cases w <;> simp only [asKey]
    rw [if_neg (fun (e : tag = Kind.bytearray.tag) => h.1 (by simp only [Kind.tag] at e; omega)), if_neg (fun (e : tag = (Kind.view true).tag) => h.1 (by simp only [Kind.tag] at e; omega)),
      if_neg (fun (e : tag = (Kind.view false).tag) => h.1 (by simp only [Kind.tag] at e; omega))]
  | .tup vs, h => by
    simp only [Val.NoSlice] at h
    simp only [asKey, asKeys_plain vs h]
    rfl
  | .none, _ => rfl
  | .int _, _ => rfl
  | .bool _, _ => rfl
  | .float _, _ => rfl
  | .bytes _, _ => rfl
  | .str _, _ => rfl
  | .list _, _ => rfl
  | .obj .., _ => rfl
  | .gen, _ => rfl
theorem asKeys_plain : (vs : List Val) → Val.NoSliceList vs → asKeys vs = .ok vs
  | [], _ => rfl
  | v :: vs, h => by
    simp only [asKeys, asKey_plain v h.1, asKeys_plain vs h.2]
    rfl
end

/-! ### Plain serializers stay plain -/

theorem plainList_mem {ss : List Ser} : Ser.PlainList raw net ss ↔ ∀ s ∈ ss, s.Plain raw net := by
  induction ss with
  | nil => simp [Ser.PlainList]
  | cons s ss ih => simp [Ser.PlainList, ih]

theorem plain_condPick {s o : Ser} {defs : List Val} {r : Val} (h : condPick s defs r = .ok o) (hs : s.Plain raw net)
    (hd : Val.NoSliceList defs) : o.Plain raw net := by
  unfold condPick at h
  by_cases h1 : ¬ r.hashable = true
  · rw [if_pos h1] at h; cases h
  · rw [if_neg h1] at h
    by_cases h2 : r.keyEq (.bool true) = true
    · rw [if_pos h2] at h; cases h; exact hs
    · rw [if_neg h2] at h
      by_cases h3 : r.keyEq (.bool false) = true
      · rw [if_pos h3] at h; cases h; simpa [Ser.Plain] using hd
      · rw [if_neg h3] at h; cases h

theorem plain_setPart {st : St} {i : SerId} {p : PObj} (h : st.Plain) (hp : Val.NoSliceAttrs p.attrs) {u : Unit} {st' : St}
    (he : setPart i p st = .ok u st') : st'.Plain := by
  cases he
  intro j q hq
  simp only at hq
  by_cases hj : j = i
  · subst hj
    simp [] at hq
    cases hq; exact hp
  · simp [hj] at hq
    exact h j q hq

theorem plain_prepack {s o : Ser} {p : PObj} {st st' : St} (h : s.prepack p st = .ok o st') (hs : s.Plain raw net)
    (hp : Val.NoSliceAttrs p.attrs) (hst : st.Plain) : o.Plain raw net ∧ st'.Plain := by
  cases s with
  | cond ser c defs =>
    simp only [Ser.Plain] at hs
    have h' : M.lift (do condPick ser defs (← c p)) st = .ok o st' := h
    cases hc : c p with
    | error e => rw [hc] at h'; cases h'
    | ok r =>
      rw [hc] at h'
      have h'' : M.lift (condPick ser defs r) st = .ok o st' := h'
      cases hp : condPick ser defs r with
      | error e => rw [hp] at h''; cases h''
      | ok o' =>
        rw [hp] at h''
        cases h''
        exact ⟨plain_condPick hp hs.1 hs.2, hst⟩
  | compound id ss =>
    cases h
    by_cases hn : needsPreprocess ss = true
    · rw [if_pos hn]; exact ⟨by simpa [Ser.Plain, hp] using hs, hst⟩
    · rw [if_neg hn]; exact ⟨hs, hst⟩
  | selfT id => cases h; exact ⟨by simp [Ser.Plain], hst⟩
  | array id a b c =>
    obtain ⟨u, st1, h1, h2⟩ := M.bind_ok h
    cases h2
    exact ⟨hs, plain_setPart hst hp h1⟩
  | tuple id a =>
    obtain ⟨u, st1, h1, h2⟩ := M.bind_ok h
    cases h2
    exact ⟨hs, plain_setPart hst hp h1⟩
  | lookback id a b c d =>
    obtain ⟨u, st1, h1, h2⟩ := M.bind_ok h
    cases h2
    exact ⟨hs, plain_setPart hst hp h1⟩
  | lookahead id a b c d e =>
    obtain ⟨u, st1, h1, h2⟩ := M.bind_ok h
    cases h2
    exact ⟨hs, plain_setPart hst hp h1⟩
  | _ => cases h; exact ⟨hs, hst⟩

theorem plain_preunpack {s o : Ser} {p : PObj} {st st' : St} (h : s.preunpack p st = .ok o st') (hs : s.Plain raw net)
    (hp : Val.NoSliceAttrs p.attrs) (hst : st.Plain) : o.Plain raw net ∧ st'.Plain := by
  rcases preunpack_or s p with h' | ⟨i, rfl⟩
  · rw [h'] at h; exact plain_prepack h hs hp hst
  · have h' : M.lift (do pure (Ser.structured i (← clsOfPartial p))) st = .ok o st' := h
    cases hc : clsOfPartial p with
    | error e => rw [hc] at h'; cases h'
    | ok c => rw [hc] at h'; cases h'; exact ⟨by simp [Ser.Plain], hst⟩

theorem plain_unionPick {keys : List Val} {opts : List Ser} {dflt o : Ser} {r : Val}
    (h : unionPick keys opts dflt r = .ok o) (ho : Ser.PlainList raw net opts) (hd : dflt.Plain raw net) :
    o.Plain raw net := by
  unfold unionPick at h
  by_cases h1 : ¬ r.hashable = true
  · rw [if_pos h1] at h; cases h
  · rw [if_neg h1] at h
    cases hl : lookupOpt keys opts r with
    | some s =>
      rw [hl] at h
      cases h
      unfold lookupOpt at hl
      cases hf : (keys.zip opts).find? (fun p => p.1.keyEq r) with
      | none => rw [hf] at hl; cases hl
      | some q =>
        rw [hf] at hl
        cases hl
        exact plainList_mem.1 ho _ (List.of_mem_zip (List.mem_of_find?_eq_some hf)).2
    | none =>
      rw [hl] at h
      cases dflt <;> first | (cases h; done) | (cases h; exact hd)

theorem lift_ok' {x : Except Err α} {st st' : St} {a : α} (h : M.lift x st = .ok a st') : x = .ok a ∧ st' = st := by
  cases x with
  | error e => cases h
  | ok b => cases h; exact ⟨rfl, rfl⟩

theorem plain_getPart {i : SerId} {st st' : St} {p : PObj} (h : getPart i st = .ok p st') (hst : st.Plain) :
    Val.NoSliceAttrs p.attrs ∧ st' = st := by
  unfold getPart at h
  cases hp : (st.cells i).part with
  | none => rw [hp] at h; cases h
  | some q => rw [hp] at h; cases h; exact ⟨hst i _ hp, rfl⟩

theorem plain_getSerializer {id : SerId} {keys : List Val} {opts : List Ser} {dflt o : Ser} {r : Val}
    {st st' : St} (h : getSerializer false id keys opts dflt r st = .ok o st')
    (ho : Ser.PlainList raw net opts) (hd : dflt.Plain raw net) (hst : st.Plain) : o.Plain raw net ∧ st'.Plain := by
  unfold getSerializer at h
  obtain ⟨s, st1, h1, h2⟩ := M.bind_ok h
  obtain ⟨p, st2, h3, h4⟩ := M.bind_ok h2
  obtain ⟨h5, rfl⟩ := lift_ok' h1
  obtain ⟨hp, rfl⟩ := plain_getPart h3 hst
  exact plain_preunpack h4 (plain_unionPick h5 ho hd) hp hst

/-! ### Structs -/

theorem unpackMany_plain {P : Platform} {bo : ByteOrder} {c : Code} : ∀ (k : Nat) (b : Bytes),
    Val.NoSliceList (unpackMany P bo c k b)
  | 0, _ => trivial
  | k + 1, b => ⟨by cases c <;> simp [unpackOne, Val.NoSlice], unpackMany_plain k _⟩

theorem unpackTok_plain {P : Platform} {bo : ByteOrder} {t : Tok} {b : Bytes} : Val.NoSliceList (unpackTok P bo t b) := by
  unfold unpackTok
  split
  · trivial
  · exact ⟨trivial, trivial⟩
  · split <;> exact ⟨trivial, trivial⟩
  · exact unpackMany_plain _ _

theorem unpackToks_plain {P : Platform} {bo : ByteOrder} : ∀ (ts : List Tok) (o : Nat) (b : Bytes),
    Val.NoSliceList (unpackToks P bo ts o b)
  | [], _, _ => trivial
  | _ :: ts, _, _ => noSliceList_append unpackTok_plain (unpackToks_plain ts _ _)

theorem runActions_plain : ∀ (as : List Action) (vs ws : List Val),
    (∀ a ∈ as, ∀ v w, v.NoSlice → a v = .ok w → w.NoSlice) → Val.NoSliceList vs → StructSer.runActions as vs = .ok ws →
    Val.NoSliceList ws
  | [], _, _, _, _, h => by cases h; trivial
  | _ :: _, [], _, _, _, h => by cases h; trivial
  | a :: as, v :: vs, ws, ha, hv, h => by
    simp only [StructSer.runActions] at h
    obtain ⟨w, h1, h⟩ := Except.bind_ok' h
    obtain ⟨ws', h2, h⟩ := Except.bind_ok' h
    cases h
    exact ⟨ha a (by simp) _ _ hv.1 h1, runActions_plain as vs ws' (fun a' h' => ha a' (by simp [h'])) hv.2 h2⟩

theorem applyActions_plain {s : StructSer} (hs : s.Plain) {vs ws : List Val} (hv : Val.NoSliceList vs)
    (h : s.applyActions vs = .ok ws) : Val.NoSliceList ws := by
  unfold StructSer.applyActions at h
  cases ha : s.actions with
  | none => rw [ha] at h; cases h; exact hv
  | some as => rw [ha] at h; exact runActions_plain as vs ws (hs as ha) hv h

theorem structUnpack_plain {P : Platform} {bo : ByteOrder} {ts : List Tok} {b : Bytes} {vs : List Val}
    (h : structUnpack P bo ts b = .ok vs) : Val.NoSliceList vs := by
  unfold structUnpack at h
  split at h
  · cases h; exact unpackToks_plain _ _ _
  · cases h

theorem structUnpackFrom_plain {P : Platform} {bo : ByteOrder} {ts : List Tok} {b : Bytes} {o : Nat} {vs : List Val}
    (h : structUnpackFrom P bo ts b o = .ok vs) : Val.NoSliceList vs := by
  unfold structUnpackFrom at h
  split at h
  · cases h; exact unpackToks_plain _ _ _
  · cases h

theorem structUnpackM_cells {s : StructSer} {src : Src} {st st' : St} {vs : List Val}
    (h : structUnpackM env s src st = .ok vs st') : st'.cells = st.cells := by
  cases src with
  | buf b => exact (lift_ok' h).2 ▸ rfl
  | «at» b o => exact (lift_ok' h).2 ▸ rfl
  | io =>
    obtain ⟨d, st1, h1, h⟩ := M.bind_ok h
    cases h1
    rw [(lift_ok' h).2]

theorem structUnpackM_plain {s : StructSer} (hs : s.Plain) {src : Src} {st st' : St} {vs : List Val}
    (h : structUnpackM env s src st = .ok vs st') : Val.NoSliceList vs := by
  cases src with
  | buf b =>
    obtain ⟨ws, h1, h⟩ := Except.bind_ok' (lift_ok' h).1
    exact applyActions_plain hs (structUnpack_plain h1) h
  | «at» b o =>
    obtain ⟨ws, h1, h⟩ := Except.bind_ok' (lift_ok' h).1
    exact applyActions_plain hs (structUnpackFrom_plain h1) h
  | io =>
    obtain ⟨d, st1, _, h⟩ := M.bind_ok h
    obtain ⟨ws, h1, h⟩ := Except.bind_ok' (lift_ok' h).1
    exact applyActions_plain hs (structUnpack_plain h1) h

theorem St.Plain.cells {st st' : St} (h : st.Plain) (hc : st'.cells = st.cells) : st'.Plain := by
  intro i p hp; rw [hc] at hp; exact h i p hp

theorem structUnpackOpt_cells {s : Option StructSer} {src : Src} {st st' : St} {vs : List Val}
    (h : structUnpackOpt env s src st = .ok vs st') : st'.cells = st.cells := by
  cases s with
  | none => cases h; rfl
  | some s => exact structUnpackM_cells h

theorem structUnpackOpt_plain {s : Option StructSer} (hs : ∀ t, s = some t → t.Plain) {src : Src} {st st' : St}
    {vs : List Val} (h : structUnpackOpt env s src st = .ok vs st') : Val.NoSliceList vs := by
  cases s with
  | none => cases h; trivial
  | some s => exact structUnpackM_plain (hs s rfl) h

theorem plain_of_none {s : StructSer} (h : s.actions = none) : s.Plain := by
  intro as ha; rw [h] at ha; cases ha

theorem mulImpl_plain {s : StructSer} (h : s.actions = none) {c : Int} {cs : Bool} {r : Option StructSer}
    (hr : s.mulImpl c cs = .ok r) : ∀ t, r = some t → t.Plain := by
  intro t ht
  subst ht
  unfold StructSer.mulImpl at hr
  split at hr
  · cases hr
  · split at hr
    · cases hr
    · split at hr
      · cases hr; exact plain_of_none h
      · obtain ⟨r, h1, h2⟩ := Except.bind_ok' hr
        cases h2
        unfold StructSer.remake at h1
        rw [h] at h1
        simp only [StructSer.mkPlain] at h1
        split at h1
        · cases h1; exact plain_of_none rfl
        · cases h1

theorem mul_plain {s : StructSer} (h : s.Plain) {c : Int} {r : Option StructSer} (hr : s.mul c = .ok r) :
    ∀ t, r = some t → t.Plain := by
  intro t ht
  subst ht
  unfold StructSer.mul at hr
  obtain ⟨r, h1, h2⟩ := Except.bind_ok' hr
  cases ha : s.actions with
  | none =>
    rw [ha] at h2
    have : r = some t := by cases r <;> (cases h2; try rfl)
    exact mulImpl_plain ha h1 t this
  | some acts =>
    rw [ha] at h2
    cases r with
    | none => cases h2
    | some r =>
      cases h2
      intro as has a hm
      cases has
      obtain ⟨l, hl, ha'⟩ := List.mem_flatten.1 hm
      rw [List.eq_of_mem_replicate hl] at ha'
      exact h acts ha a ha'

/-! ### Reading -/

/-- Plain values, plain partial objects. -/
def GoodN (raw net : Bool) (f : Ser → Src → M (List Val)) : Prop :=
  ∀ s src st vs st', s.Plain raw net → st.Plain → f s src st = .ok vs st' → Val.NoSliceList vs ∧ st'.Plain

/-- The consumer stores nothing but the values. -/
def UpdPlain (upd : Upd) : Prop :=
  ∀ p done vs p', Val.NoSliceAttrs p.attrs → Val.NoSliceList vs → upd p done vs = .ok p' → Val.NoSliceAttrs p'.attrs

theorem noUpd_plain : UpdPlain noUpd := by
  intro p done vs p' hp _ h; cases h; exact hp

theorem assignVals_plain (attrs : List Name) : UpdPlain (assignVals attrs) := by
  intro p done vs p' hp hv h
  unfold assignVals at h
  simp only at h
  split at h
  · cases h
  · cases h; exact noSliceAttrs_fold hp hv

theorem readSize_cells {st st' : St} {n : Nat} : ∀ s : Ser, s.readSize st = .ok n st' → st' = st
  | .unicode inner _ _, h => readSize_cells inner h
  | .tuple _ inner, h => readSize_cells inner h
  | .cond .., h => by cases h
  | .selfT _, h => by cases h
  | .null, h => by cases h; rfl
  | .struct _, h => by cases h; rfl
  | .staticArr .., h => by cases h; rfl
  | .skip _, h => by cases h; rfl
  | .dynChar .., h => by cases h; rfl
  | .consuming _, h => by cases h; rfl
  | .terminated .., h => by cases h; rfl
  | .net _, h => by cases h; rfl
  | .array .., h => by cases h; rfl
  | .dynArr .., h => by cases h; rfl
  | .lookback .., h => by cases h; rfl
  | .lookahead .., h => by cases h; rfl
  | .structured .., h => by cases h; rfl
  | .compound .., h => by cases h; rfl
  | .specialized .., h => by cases h; rfl

variable {f : Ser → Src → M (List Val)}

theorem good_loop (ih : GoodN raw net f) {src : Src} :
    ∀ (ss : List Ser) (size : Nat) (st : St) (q : List Val × Nat) (st' : St), Ser.PlainList raw net ss → st.Plain →
      unpackLoop f src size ss st = .ok q st' → Val.NoSliceList q.1 ∧ st'.Plain
  | [], _, _, _, _, _, hst, h => by cases h; exact ⟨trivial, hst⟩
  | s :: ss, size, st, q, st', hs, hst, h => by
    obtain ⟨vs, st1, h1, h⟩ := M.bind_ok h
    obtain ⟨sz, st2, h2, h⟩ := M.bind_ok h
    obtain ⟨q', st3, h3, h⟩ := M.bind_ok h
    cases h
    obtain ⟨a1, a2⟩ := ih _ _ _ _ _ hs.1 hst h1
    have := readSize_cells _ h2
    subst this
    obtain ⟨b1, b2⟩ := good_loop ih ss _ _ _ _ hs.2 a2 h3
    exact ⟨noSliceList_append a1 b1, b2⟩

theorem good_loopSpec (ih : GoodN raw net f) {upd : Upd} (hu : UpdPlain upd) {src : Src} :
    ∀ (ss : List Ser) (p : PObj) (done size : Nat) (st : St) (q : List Val × Nat) (st' : St), Ser.PlainList raw net ss →
      Val.NoSliceAttrs p.attrs → st.Plain →
      unpackLoopSpec f upd src p done size ss st = .ok q st' → Val.NoSliceList q.1 ∧ st'.Plain
  | [], _, _, _, _, _, _, _, _, hst, h => by cases h; exact ⟨trivial, hst⟩
  | s :: ss, p, done, size, st, q, st', hs, hp, hst, h => by
    obtain ⟨s', st0, h0, h⟩ := M.bind_ok h
    obtain ⟨vs, st1, h1, h⟩ := M.bind_ok h
    obtain ⟨p', st5, h5, h⟩ := M.bind_ok h
    obtain ⟨sz, st2, h2, h⟩ := M.bind_ok h
    obtain ⟨q', st3, h3, h⟩ := M.bind_ok h
    cases h
    obtain ⟨c1, c2⟩ := plain_preunpack h0 hs.1 hp hst
    obtain ⟨a1, a2⟩ := ih _ _ _ _ _ c1 c2 h1
    obtain ⟨h6, rfl⟩ := lift_ok' h5
    have := readSize_cells _ h2
    subst this
    obtain ⟨b1, b2⟩ := good_loopSpec ih hu ss _ _ _ _ _ _ hs.2 (hu _ _ _ _ hp a1 h6) a2 h3
    exact ⟨noSliceList_append a1 b1, b2⟩

theorem good_items (ih : GoodN raw net f) {item : Ser} (hi : item.Plain raw net) {src : Src} :
    ∀ (c size : Nat) (st : St) (q : List Val × Nat) (st' : St), st.Plain →
      unpackItems f item src size c st = .ok q st' → Val.NoSliceList q.1 ∧ st'.Plain
  | 0, _, _, _, _, hst, h => by cases h; exact ⟨trivial, hst⟩
  | c + 1, size, st, q, st', hst, h => by
    obtain ⟨vs, st1, h1, h⟩ := M.bind_ok h
    obtain ⟨sz, st2, h2, h⟩ := M.bind_ok h
    obtain ⟨q', st3, h3, h⟩ := M.bind_ok h
    cases h
    obtain ⟨a1, a2⟩ := ih _ _ _ _ _ hi hst h1
    have := readSize_cells _ h2
    subst this
    obtain ⟨b1, b2⟩ := good_items ih hi _ _ _ _ _ a2 h3
    exact ⟨noSliceList_append a1 b1, b2⟩

theorem plain_setSize {st st' : St} {i : SerId} {n : Nat} (h : st.Plain) {u : Unit} (he : setSize i n st = .ok u st') :
    st'.Plain := by
  cases he
  intro j q hq
  simp only at hq
  by_cases hj : j = i
  · subst hj
    simp [] at hq
    exact h _ q hq
  · simp [hj] at hq
    exact h j q hq

theorem good_union (ih : GoodN raw net f) {i : SerId} {s : Ser} (hs : s.Plain raw net) {src : Src} {st st' : St}
    {vs : List Val} (hst : st.Plain) (h : unionUnpack f i s src st = .ok vs st') : Val.NoSliceList vs ∧ st'.Plain := by
  unfold unionUnpack at h
  by_cases hl : s.isLazy = true
  · rw [if_pos hl] at h
    obtain ⟨sz, st1, h1, h2⟩ := M.bind_ok h
    obtain ⟨u, st2, h3, h4⟩ := M.bind_ok h2
    have := readSize_cells _ h1
    subst this
    exact ih _ _ _ _ _ hs (plain_setSize hst h3) h4
  · rw [if_neg hl] at h
    obtain ⟨ws, st1, h1, h⟩ := M.bind_ok h
    obtain ⟨sz, st2, h2, h⟩ := M.bind_ok h
    obtain ⟨u, st3, h3, h⟩ := M.bind_ok h
    cases h
    have := readSize_cells _ h2
    subst this
    obtain ⟨a1, a2⟩ := ih _ _ _ _ _ hs hst h1
    exact ⟨a1, plain_setSize a2 h3⟩

theorem good_create (he : env.Plain raw net) {g : Upd → Ser → Src → M (List Val)}
    (ih : ∀ upd, UpdPlain upd → GoodN raw net (g upd)) {cls : ClassId} {src : Src} {st st' : St} {q : Val × Ser}
    (hst : st.Plain) (h : createUnpackWith env g cls src st = .ok q st') : q.1.NoSlice ∧ st'.Plain := by
  unfold createUnpackWith at h
  cases hc : env.classes cls with
  | none => rw [hc] at h; cases h
  | some ci =>
    rw [hc] at h
    obtain ⟨s, st1, h1, h⟩ := M.bind_ok h
    obtain ⟨vals, st2, h2, h⟩ := M.bind_ok h
    obtain ⟨v, st3, h3, h⟩ := M.bind_ok h
    cases h
    obtain ⟨c1, c2⟩ := plain_preunpack h1 (he cls ci hc).1 trivial hst
    obtain ⟨a1, a2⟩ := ih _ (assignVals_plain _) _ _ _ _ _ c1 c2 h2
    obtain ⟨h4, rfl⟩ := lift_ok' h3
    refine ⟨?_, a2⟩
    unfold construct at h4
    split at h4
    · obtain ⟨as, h5, h6⟩ := Except.bind_ok' h4
      cases h6
      exact (he cls ci hc).2 _ _ (noSliceAttrs_zip a1) h5
    · cases h4

theorem good_net {i : SerId} {src : Src} {st st' : St} {vs : List Val} (hst : st.Plain)
    (h : netUnpack env i src st = .ok vs st') : Val.NoSliceList vs ∧ st'.Plain := by
  unfold netUnpack at h
  obtain ⟨st0, st1, h0, k0⟩ := M.bind_ok h
  cases h0
  obtain ⟨hv, st2, h2, k2⟩ := M.bind_ok k0
  obtain ⟨c, st3, h3, k3⟩ := M.bind_ok k2
  obtain ⟨_, rfl⟩ := lift_ok' h3
  have p2 := hst.cells (structUnpackM_cells h2)
  have tail : ∀ (count size : Nat) (st st' : St) (vs : List Val), st.Plain →
      (do setSize i (size + count)
          match src with
          | .buf b => pure [.bytes ((b.drop size).take count)]
          | .at b off => M.lift (structUnpackFrom env.plat .default [⟨count, .str⟩] b (off + size))
          | .io => do
            let d ← ioRead count
            pure [.bytes d] : M (List Val)) st = .ok vs st' → Val.NoSliceList vs ∧ st'.Plain := by
    intro count size st st' vs hst h
    obtain ⟨_, st1, h1, k1⟩ := M.bind_ok h
    have p1 := plain_setSize hst h1
    cases src with
    | buf b => cases k1; exact ⟨⟨trivial, trivial⟩, p1⟩
    | «at» b o =>
      obtain ⟨k2, rfl⟩ := lift_ok' k1
      exact ⟨structUnpackFrom_plain k2, p1⟩
    | io =>
      obtain ⟨d, st2, h2, k2⟩ := M.bind_ok k1
      have p2 : st2.Plain := by cases h2; exact p1.cells rfl
      cases k2
      exact ⟨⟨trivial, trivial⟩, p2⟩
  by_cases hc : 128 ≤ c
  · simp only [if_pos hc] at k3
    obtain ⟨u, st4, h4, k4⟩ := M.bind_ok k3
    have p4 : st4.Plain := by
      cases src <;> (cases h4; first | exact p2 | exact p2.cells rfl)
    obtain ⟨hv', st5, h5, k5⟩ := M.bind_ok k4
    have p5 := p4.cells (structUnpackM_cells h5)
    obtain ⟨c', st6, h6, k6⟩ := M.bind_ok k5
    obtain ⟨_, rfl⟩ := lift_ok' h6
    obtain ⟨count, st7, h7, k7⟩ := M.bind_ok k6
    obtain ⟨_, rfl⟩ := lift_ok' h7
    exact tail _ _ _ _ _ p5 k7
  · simp only [if_neg hc] at k3
    exact tail _ _ _ _ _ p2 k3

theorem good_unpack (he : env.Plain raw net) :
    ∀ (n : Nat) (upd : Upd), UpdPlain upd → GoodN raw net (Verif.unpack env n upd)
  | 0, _, _, _, _, _, _, _, _, _, h => by cases h
  | n + 1, upd, hu, s, src, st, vs, st', hs, hst, h => by
    have ih := good_unpack he n noUpd noUpd_plain
    cases s with
    | null => cases h; exact ⟨trivial, hst⟩
    | struct s => exact ⟨structUnpackM_plain hs h, hst.cells (structUnpackM_cells h)⟩
    | dynChar i s =>
      obtain ⟨hv, st1, h1, h2⟩ := M.bind_ok h
      obtain ⟨c, st2, h3, h4⟩ := M.bind_ok h2
      obtain ⟨u, st3, h5, h6⟩ := M.bind_ok h4
      obtain ⟨_, rfl⟩ := lift_ok' h3
      have p3 := plain_setSize (hst.cells (structUnpackM_cells h1)) h5
      cases src with
      | buf b => cases h6; exact ⟨⟨trivial, trivial⟩, p3⟩
      | «at» b o =>
        obtain ⟨s', st4, h7, h8⟩ := M.bind_ok h6
        obtain ⟨h9, rfl⟩ := lift_ok' h7
        exact ⟨structUnpackOpt_plain (mulImpl_plain rfl h9) h8, p3.cells (structUnpackOpt_cells h8)⟩
      | io =>
        obtain ⟨s', st4, h7, h8⟩ := M.bind_ok h6
        obtain ⟨h9, rfl⟩ := lift_ok' h7
        exact ⟨structUnpackOpt_plain (mulImpl_plain rfl h9) h8, p3.cells (structUnpackOpt_cells h8)⟩
    | consuming i =>
      cases src with
      | buf b =>
        obtain ⟨u, st1, h1, h2⟩ := M.bind_ok h
        cases h2; exact ⟨⟨trivial, trivial⟩, plain_setSize hst h1⟩
      | «at» b o =>
        obtain ⟨u, st1, h1, h2⟩ := M.bind_ok h
        cases h2; exact ⟨⟨trivial, trivial⟩, plain_setSize hst h1⟩
      | io =>
        obtain ⟨d, st0, h0, h2⟩ := M.bind_ok h
        obtain ⟨u, st1, h1, h2⟩ := M.bind_ok h2
        have p0 : st0.Plain := by cases h0; exact hst.cells rfl
        cases h2; exact ⟨⟨trivial, trivial⟩, plain_setSize p0 h1⟩
    | terminated i t =>
      cases src with
      | buf b =>
        have h' : (match findTerm t b with
          | none => M.throw .valueError
          | some k => (do setSize i (k + 1); pure [.bytes (b.take k)] : M (List Val))) st = .ok vs st' := h
        cases hk : findTerm t b with
        | none => rw [hk] at h'; cases h'
        | some k =>
          rw [hk] at h'
          obtain ⟨u, st1, h1, h2⟩ := M.bind_ok h'
          cases h2; exact ⟨⟨trivial, trivial⟩, plain_setSize hst h1⟩
      | «at» b o =>
        have h' : (match findTerm t (b.drop o) with
          | none => M.throw .valueError
          | some k => (do setSize i (o + k + 1); pure [.bytes ((b.drop o).take k)] : M (List Val))) st = .ok vs st' := h
        cases hk : findTerm t (b.drop o) with
        | none => rw [hk] at h'; cases h'
        | some k =>
          rw [hk] at h'
          obtain ⟨u, st1, h1, h2⟩ := M.bind_ok h'
          cases h2; exact ⟨⟨trivial, trivial⟩, plain_setSize hst h1⟩
      | io =>
        obtain ⟨st0, st1, h0, h1⟩ := M.bind_ok h
        cases h0
        simp only at h1
        cases hk : termReadLoop t ((st.io.data.drop st.io.pos).length + 1) (st.io.data.drop st.io.pos) [] 0 with
        | none =>
          rw [hk] at h1
          obtain ⟨u, st2, h2, h3⟩ := M.bind_ok h1
          cases h3
        | some q =>
          rw [hk] at h1
          obtain ⟨u, st2, h2, h3⟩ := M.bind_ok h1
          obtain ⟨u, st3, h4, h5⟩ := M.bind_ok h3
          have p2 : st2.Plain := by cases h2; exact hst.cells rfl
          cases h5
          exact ⟨⟨trivial, trivial⟩, plain_setSize p2 h4⟩
    | net i => exact good_net hst h
    | unicode inner enc dec =>
      obtain ⟨ws, st1, h1, h2⟩ := M.bind_ok h
      obtain ⟨_, p1⟩ := ih _ _ _ _ _ (by simpa [Ser.Plain] using hs) hst h1
      obtain ⟨h3, rfl⟩ := lift_ok' h2
      refine ⟨?_, p1⟩
      unfold unicodeDecode at h3
      obtain ⟨v, _, h4⟩ := Except.bind_ok' h3
      cases v with
      | bytes b =>
        obtain ⟨x, _, h5⟩ := Except.bind_ok' h4
        cases h5; exact ⟨trivial, trivial⟩
      | _ => cases h4
    | array i hdr item sl =>
      obtain ⟨hv, st1, h1, h⟩ := M.bind_ok h
      obtain ⟨q, st2, h2, h⟩ := M.bind_ok h
      obtain ⟨p, st3, h3, h⟩ := M.bind_ok h
      obtain ⟨item', st4, h4, h⟩ := M.bind_ok h
      obtain ⟨w, st5, h5, h⟩ := M.bind_ok h
      obtain ⟨_, st6, h6, h⟩ := M.bind_ok h
      obtain ⟨_, st7, h7, h⟩ := M.bind_ok h
      cases h
      obtain ⟨_, rfl⟩ := lift_ok' h2
      obtain ⟨hp, rfl⟩ := plain_getPart h3 (hst.cells (structUnpackOpt_cells h1))
      obtain ⟨a1, a2⟩ := plain_preunpack h4 (by simpa [Ser.Plain] using hs : item.Plain raw net) hp
        (hst.cells (structUnpackOpt_cells h1))
      obtain ⟨b1, b2⟩ := good_items ih a1 _ _ _ _ _ a2 h5
      obtain ⟨_, rfl⟩ := lift_ok' h6
      exact ⟨⟨b1, trivial⟩, plain_setSize b2 h7⟩
    | staticArr c k ser =>
      obtain ⟨ws, st1, h1, h⟩ := M.bind_ok h
      cases h
      exact ⟨⟨structUnpackOpt_plain hs h1, trivial⟩, hst.cells (structUnpackOpt_cells h1)⟩
    | dynArr i cnt item =>
      obtain ⟨hv, st1, h1, h⟩ := M.bind_ok h
      have tail : ∀ (c : Int) (st st' : St) (vs : List Val), st.Plain →
          (do let s ← M.lift (item.mul c)
              let vs ← structUnpackOpt env s (src.next cnt.size)
              setSize i (cnt.size + s.elim 0 StructSer.size)
              pure [.list vs] : M (List Val)) st = .ok vs st' → Val.NoSliceList vs ∧ st'.Plain := by
        intro c st st' vs hst h
        obtain ⟨s', st3, h3, h⟩ := M.bind_ok h
        obtain ⟨ws, st4, h4, h⟩ := M.bind_ok h
        obtain ⟨_, st5, h5, h⟩ := M.bind_ok h
        cases h
        obtain ⟨h6, rfl⟩ := lift_ok' h3
        exact ⟨⟨structUnpackOpt_plain (mul_plain hs h6) h4, trivial⟩,
          plain_setSize (hst.cells (structUnpackOpt_cells h4)) h5⟩
      have p1 := hst.cells (structUnpackM_cells h1)
      match hv, h with
      | [c], h =>
        obtain ⟨c', st2, h2, k⟩ := M.bind_ok h
        obtain ⟨_, rfl⟩ := lift_ok' h2
        exact tail _ _ _ _ p1 k
      | [], h => cases h
      | _ :: _ :: _, h => cases h
    | tuple i inner =>
      obtain ⟨p, st1, h1, k1⟩ := M.bind_ok h
      obtain ⟨inner', st2, h2, k2⟩ := M.bind_ok k1
      obtain ⟨hp, e1⟩ := plain_getPart h1 hst
      subst e1
      obtain ⟨a1, a2⟩ := plain_preunpack h2 (by simpa [Ser.Plain] using hs : inner.Plain raw net) hp hst
      by_cases hl : inner'.isLazy = true
      · simp only [if_pos hl] at k2
        cases k2; exact ⟨⟨trivial, trivial⟩, a2⟩
      · simp only [if_neg hl] at k2
        obtain ⟨ws, st3, h3, k3⟩ := M.bind_ok k2
        cases k3
        obtain ⟨b1, b2⟩ := ih _ _ _ _ _ a1 a2 h3
        exact ⟨⟨b1, trivial⟩, b2⟩
    | lookback i dec keys opts dflt =>
      simp only [Ser.Plain] at hs
      obtain ⟨p, st1, h1, k1⟩ := M.bind_ok h
      obtain ⟨r, st2, h2, k2⟩ := M.bind_ok k1
      obtain ⟨s, st3, h3, k3⟩ := M.bind_ok k2
      obtain ⟨hp, rfl⟩ := plain_getPart h1 hst
      obtain ⟨_, rfl⟩ := lift_ok' h2
      obtain ⟨a1, a2⟩ := plain_getSerializer h3 hs.2.1 hs.2.2 hst
      exact good_union ih a1 a2 k3
    | lookahead i ra dec keys opts dflt =>
      simp only [Ser.Plain] at hs
      obtain ⟨hv, st1, h1, k1⟩ := M.bind_ok h
      obtain ⟨r, st2, h2, k2⟩ := M.bind_ok k1
      obtain ⟨_, st3, h3, k4⟩ := M.bind_ok k2
      obtain ⟨s, st4, h4, k3⟩ := M.bind_ok k4
      obtain ⟨_, p1⟩ := ih _ _ _ _ _ hs.1 hst h1
      obtain ⟨_, rfl⟩ := lift_ok' h2
      have p3 : st3.Plain := by
        cases src with
        | io =>
          obtain ⟨sz, st5, h5, h6⟩ := M.bind_ok h3
          have := readSize_cells _ h5
          subst this
          cases h6
          exact p1.cells rfl
        | _ => cases h3; exact p1
      obtain ⟨a1, a2⟩ := plain_getSerializer h4 hs.2.1 hs.2.2 p3
      exact good_union ih a1 a2 k3
    | cond s c d => cases h
    | skip vals => cases h; exact ⟨by simpa [Ser.Plain] using hs, hst⟩
    | structured i cls =>
      obtain ⟨q, st1, h1, h⟩ := M.bind_ok h
      obtain ⟨sz, st2, h2, h⟩ := M.bind_ok h
      obtain ⟨_, st3, h3, h⟩ := M.bind_ok h
      cases h
      obtain ⟨a1, a2⟩ := good_create he (fun upd hu => good_unpack he n upd hu) hst h1
      have := readSize_cells _ h2
      subst this
      exact ⟨⟨a1, trivial⟩, plain_setSize a2 h3⟩
    | selfT i => cases h
    | compound i ss =>
      obtain ⟨q, st1, h1, h⟩ := M.bind_ok h
      obtain ⟨_, st2, h2, h⟩ := M.bind_ok h
      cases h
      obtain ⟨a1, a2⟩ := good_loop ih ss _ _ _ _ (by simpa [Ser.Plain] using hs) hst h1
      exact ⟨a1, plain_setSize a2 h2⟩
    | specialized i p ss =>
      simp only [Ser.Plain] at hs
      obtain ⟨q, st1, h1, h⟩ := M.bind_ok h
      obtain ⟨_, st2, h2, h⟩ := M.bind_ok h
      cases h
      obtain ⟨a1, a2⟩ := good_loopSpec ih hu ss p _ _ _ _ _ hs.2 hs.1 hst h1
      exact ⟨a1, plain_setSize a2 h2⟩

end Verif
