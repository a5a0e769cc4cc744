import Verif.Proofs.InPlaceLemmas
import Verif.Proofs.InstanceLemmas
import Verif.Props.Values
import Verif.Samples
/-
**C45**: what is left of an object when `obj.unpack*` raises.
-/
namespace Verif

open Spec Samples

/-- Not one of the short-lived serializers made by `preunpack`. -/
def Ser.lasting : Ser → Bool
  | .specialized .. => false
  | .cond s _ _ => s.lasting
  | _ => true

/-- No class has a short-lived serializer as its own. -/
def Env.lasting (env : Env) : Prop := ∀ c ci, env.classes c = some ci → ci.serializer.lasting = true

/-! ### Helper lemmas -/

/-- The values of a serializer that is not a compound, and how they are assigned. -/
theorem inPlaceVals_eager {env : Env} {src : Src} {as : List (Name × Val)} {names : List Name} {n : Nat} {s : Ser} {st : St}
    (hs : s.isCompound = false) : inPlaceVals env src as names n s st = match unpack env n noUpd s src st with
    | .err e st => (as, .err e st)
    | .ok vs st => (setPairs as names vs, (if vs.length = names.length then pure () else M.throw .valueError : M Unit) st) := by
  cases n <;> cases s <;> first | rfl | simp [Ser.isCompound] at hs

theorem unpack_upd {env : Env} {n : Nat} {upd : Upd} {s : Ser} {src : Src} (hs : ∀ id p ss, s ≠ .specialized id p ss) :
    unpack env n upd s src = unpack env n noUpd s src := by
  cases n with
  | zero => rfl
  | succ n => cases s <;> first | rfl | exact absurd rfl (hs _ _ _)

theorem withByteOrder_lasting {bo : ByteOrder} : ∀ {s s' : Ser}, s.withByteOrder bo = .ok s' → s.lasting = true → s'.lasting = true
  | .null, _, h, _ => by cases h; rfl
  | .struct _, _, h, _ => by
    simp only [Ser.withByteOrder] at h
    obtain ⟨_, _, h⟩ := Except.bind_ok' h; cases h; rfl
  | .dynChar .., _, h, _ => by
    simp only [Ser.withByteOrder] at h
    obtain ⟨_, _, h⟩ := Except.bind_ok' h; cases h; rfl
  | .consuming _, _, h, _ => by cases h; rfl
  | .terminated .., _, h, _ => by cases h; rfl
  | .net _, _, h, _ => by cases h; rfl
  | .unicode .., _, h, _ => by cases h; rfl
  | .array _ none _ _, _, h, _ => by
    simp only [Ser.withByteOrder] at h
    obtain ⟨_, _, h⟩ := Except.bind_ok' h
    obtain ⟨_, _, h⟩ := Except.bind_ok' h; cases h; rfl
  | .array _ (some _) _ _, _, h, _ => by
    simp only [Ser.withByteOrder] at h
    obtain ⟨_, _, h⟩ := Except.bind_ok' h
    obtain ⟨_, _, h⟩ := Except.bind_ok' h
    obtain ⟨_, _, h⟩ := Except.bind_ok' h; cases h; rfl
  | .staticArr .., _, h, _ => by
    simp only [Ser.withByteOrder] at h
    obtain ⟨_, _, h⟩ := Except.bind_ok' h
    unfold mkStaticArr at h
    obtain ⟨_, _, h⟩ := Except.bind_ok' h; cases h; rfl
  | .dynArr .., _, h, _ => by
    simp only [Ser.withByteOrder] at h
    obtain ⟨_, _, h⟩ := Except.bind_ok' h
    obtain ⟨_, _, h⟩ := Except.bind_ok' h; cases h; rfl
  | .tuple .., _, h, _ => by cases h; rfl
  | .lookback .., _, h, _ => by cases h; rfl
  | .lookahead .., _, h, _ => by cases h; rfl
  | .cond s _ _, _, h, hl => by
    simp only [Ser.withByteOrder] at h
    obtain ⟨s1, h1, h⟩ := Except.bind_ok' h
    split at h <;> cases h
    show Ser.lasting s1 = true
    exact withByteOrder_lasting h1 (show Ser.lasting s = true from hl)
  | .skip _, _, h, _ => by cases h; rfl
  | .structured .., _, h, _ => by cases h; rfl
  | .selfT _, _, h, _ => by cases h; rfl
  | .compound .., _, h, _ => by
    simp only [Ser.withByteOrder] at h
    obtain ⟨_, _, h⟩ := Except.bind_ok' h
    unfold mkCompound at h
    split at h <;> cases h
    rfl
  | .specialized .., _, _, hl => by cases hl

theorem objSer_lasting {env : Env} (hp : env.lasting) {cls : ClassId} {bo : Option ByteOrder} {ci : ClassInfo} {ser : Ser}
    (h : objSer env cls bo = .ok (ci, ser)) : ser.lasting = true := by
  unfold objSer at h
  cases hc : env.classes cls with
  | none => simp only [hc] at h; cases h
  | some ci' =>
    simp only [hc] at h
    cases bo with
    | none => cases h; exact hp _ _ hc
    | some b =>
      obtain ⟨s, h1, h⟩ := Except.bind_ok' h
      cases h
      exact withByteOrder_lasting h1 (hp _ _ hc)

/-- The partial object of a specialized compound is the one it was made for. -/
theorem preunpack_part {s s' : Ser} {p : PObj} {st st' : St} (hs : s.lasting = true) (h : s.preunpack p st = .ok s' st') :
    (∀ id p' ss, s' = .specialized id p' ss → p' = p) := by
  rintro id p' ss rfl
  cases s with
  | selfT i =>
    simp only [Ser.preunpack, M.lift] at h
    split at h
    · rename_i a ha
      obtain ⟨c, _, ha⟩ := Except.bind_ok' ha
      cases ha
      cases h
    · cases h
  | compound i l =>
    simp only [Ser.preunpack, Ser.prepack] at h
    split at h <;> cases h
    rfl
  | cond ser c d =>
    simp only [Ser.preunpack, Ser.prepack, M.lift] at h
    split at h
    · rename_i a ha
      cases h
      obtain ⟨r, _, ha⟩ := Except.bind_ok' ha
      rcases condPick_cases ha with rfl | h'
      · cases hs
      · cases h'
    · cases h
  | specialized i q l => cases hs
  | _ => first | (cases h; done) | (simp only [Ser.preunpack, Ser.prepack] at h; obtain ⟨_, _, _, h⟩ := M.bind_ok h; cases h)

/-- A successful run that gives as many values as there are attributes. -/
theorem inPlaceVals_ok {env : Env} {src : Src} {p : PObj} {names : List Name} {n : Nat} {s : Ser} {st st' : St} {vs : List Val}
    (hp : ∀ id p' ss, s = .specialized id p' ss → p' = p) (h : unpack env n (assignVals names) s src st = .ok vs st')
    (hl : vs.length = names.length) : inPlaceVals env src p.attrs names n s st = (setPairs p.attrs names vs, .ok () st') := by
  by_cases hs : s.isCompound = true
  · cases n with
    | zero => cases h
    | succ n =>
      cases s <;> simp only [Ser.isCompound] at hs <;> first | (cases hs; done) | skip
      · simp only [unpack] at h
        obtain ⟨⟨ws, total⟩, st1, h1, h⟩ := M.bind_ok h
        obtain ⟨_, st2, h2, h⟩ := M.bind_ok h
        cases h
        simp only [inPlaceVals]
        rw [inPlaceLoop_plain_ok _ _ _ _ _ _ _ _ h1 (show ws.length ≤ names.length from Nat.le_of_eq hl), hl, Nat.sub_self]
        congr 1
      · rename_i id q ss
        obtain rfl := hp _ _ _ rfl
        simp only [unpack] at h
        obtain ⟨⟨ws, total⟩, st1, h1, h⟩ := M.bind_ok h
        obtain ⟨_, st2, h2, h⟩ := M.bind_ok h
        cases h
        simp only [inPlaceVals]
        have g := (inPlaceLoop_spec_ok (id := id) ss q 0 0 st st1 _ _ h1).2
        simp only [List.drop_zero] at g
        rw [g, hl, Nat.sub_self]
        congr 1
  · have hs : s.isCompound = false := by simpa using hs
    rw [unpack_upd (by rintro id q ss rfl; cases hs)] at h
    rw [inPlaceVals_eager hs, h]
    simp only [if_pos hl]
    rfl

/-- A run that raises, or gives another number of values. -/
theorem inPlaceVals_err {env : Env} {src : Src} {p : PObj} {names : List Name} {n : Nat} {s : Ser} {st : St}
    (hp : ∀ id p' ss, s = .specialized id p' ss → p' = p)
    (h : ∀ vs st', unpack env n (assignVals names) s src st = .ok vs st' → vs.length ≠ names.length) :
    ∃ e st', (inPlaceVals env src p.attrs names n s st).2 = .err e st' := by
  by_cases hs : s.isCompound = true
  · cases n with
    | zero => cases s <;> exact ⟨_, _, rfl⟩
    | succ n =>
      cases s <;> simp only [Ser.isCompound] at hs <;> first | (cases hs; done) | skip
      · rename_i id ss
        simp only [inPlaceVals]
        cases h1 : unpackLoop (unpack env n noUpd) src 0 ss st with
        | err e st1 => exact inPlaceLoop_plain_err _ _ _ _ _ _ _ h1
        | ok r st1 =>
          obtain ⟨vs, total⟩ := r
          have hne := h vs _ (by simp only [unpack]; rw [M.bind_eq h1]; rfl)
          by_cases hl : names.length < vs.length
          · exact inPlaceLoop_plain_long _ _ _ _ _ _ _ _ h1 hl
          · rw [inPlaceLoop_plain_ok _ _ _ _ _ _ _ _ h1 (by omega)]
            refine ⟨.valueError, (fun st => match setSize id total st with | .ok _ s => s | .err _ s => s) st1, ?_⟩
            have hz : names.length - vs.length ≠ 0 := by omega
            simp only [endInPlace, if_neg hz]
            rfl
      · rename_i id q ss
        obtain rfl := hp _ _ _ rfl
        simp only [inPlaceVals]
        cases h1 : unpackLoopSpec (unpack env n noUpd) (assignVals names) src q 0 0 ss st with
        | err e st1 =>
          have := inPlaceLoop_spec_err (id := id) ss q 0 0 st st1 e h1
          simp only [List.drop_zero] at this
          exact ⟨_, _, this⟩
        | ok r st1 =>
          obtain ⟨vs, total⟩ := r
          have hne := h vs _ (by simp only [unpack]; rw [M.bind_eq h1]; rfl)
          obtain ⟨g1, g⟩ := inPlaceLoop_spec_ok (id := id) ss q 0 0 st st1 _ _ h1
          simp only [List.drop_zero] at g g1
          rw [g]
          refine ⟨.valueError, (fun st => match setSize id total st with | .ok _ s => s | .err _ s => s) st1, ?_⟩
          have hz : names.length - vs.length ≠ 0 := by omega
          simp only [endInPlace, if_neg hz]
          rfl
  · have hs : s.isCompound = false := by simpa using hs
    rw [unpack_upd (by rintro id q ss rfl; cases hs)] at h
    rw [inPlaceVals_eager hs]
    cases h1 : unpack env n noUpd s src st with
    | err e st1 => exact ⟨_, _, rfl⟩
    | ok vs st1 =>
      simp only [if_neg (h vs st1 h1)]
      exact ⟨_, _, rfl⟩

/-- Whatever happens, some values were assigned to the first attributes. -/
theorem inPlaceVals_prefix (env : Env) (src : Src) (as : List (Name × Val)) (names : List Name) (n : Nat) (s : Ser) (st : St) :
    ∃ vs, vs.length ≤ names.length ∧ (inPlaceVals env src as names n s st).1 = setPairs as names vs := by
  by_cases hs : s.isCompound = true
  · cases n with
    | zero => cases s <;> exact ⟨[], by simp, (setPairs_nil as names).symm⟩
    | succ n =>
      cases s <;> simp only [Ser.isCompound] at hs <;> first | (cases hs; done) | skip
      all_goals
        simp only [inPlaceVals]
        exact inPlaceLoop_prefix ..
  · rw [inPlaceVals_eager (by simpa using hs)]
    cases h1 : unpack env n noUpd s src st with
    | err e st1 => exact ⟨[], by simp, (setPairs_nil as names).symm⟩
    | ok vs st1 => exact ⟨vs.take names.length, by simp; omega, (setPairs_take as names vs).symm⟩

theorem getAttr_setPairs_other : ∀ (names : List Name) (vs : List Val) (as : List (Name × Val)) (a : Name),
    a ∉ names.take vs.length → getAttr? (setPairs as names vs) a = getAttr? as a
  | [], vs, as, a, _ => by simp [setPairs]
  | b :: names, [], as, a, _ => by simp [setPairs]
  | b :: names, v :: vs, as, a, h => by
    simp only [List.length_cons, List.take_succ_cons, List.mem_cons, not_or] at h
    have := getAttr_setPairs_other names vs (setAttr as b v) a h.2
    rw [show setPairs as (b :: names) (v :: vs) = setPairs (setAttr as b v) names vs from rfl, this,
      getAttr_setAttr_other as v h.1]

theorem getAttr_setPairs_some : ∀ (names : List Name) (vs : List Val) (as : List (Name × Val)) (a : Name),
    a ∈ names.take vs.length → ∃ v, getAttr? (setPairs as names vs) a = some v
  | [], vs, as, a, h => by simp at h
  | b :: names, [], as, a, h => by simp at h
  | b :: names, w :: vs, as, a, h => by
    rw [show setPairs as (b :: names) (w :: vs) = setPairs (setAttr as b w) names vs from rfl]
    by_cases hm : a ∈ names.take vs.length
    · exact getAttr_setPairs_some names vs _ a hm
    · rw [getAttr_setPairs_other names vs _ a hm]
      simp only [List.length_cons, List.take_succ_cons, List.mem_cons] at h
      rcases h with rfl | h
      · exact ⟨w, getAttr_setAttr_same _ _ _⟩
      · exact absurd h hm

theorem getAttr_setPairs_at : ∀ (names : List Name) (vs : List Val) (as : List (Name × Val)) (i : Nat) (a : Name) (v : Val),
    names.Nodup → names[i]? = some a → vs[i]? = some v → getAttr? (setPairs as names vs) a = some v
  | [], vs, as, i, a, v, _, h, _ => by simp at h
  | b :: names, [], as, i, a, v, _, _, h => by simp at h
  | b :: names, w :: vs, as, 0, a, v, hn, h1, h2 => by
    cases h1; cases h2
    rw [show setPairs as (b :: names) (w :: vs) = setPairs (setAttr as b w) names vs from rfl,
      getAttr_setPairs_other names vs _ b (fun hm => (List.nodup_cons.1 hn).1 (List.mem_of_mem_take hm)), getAttr_setAttr_same]
  | b :: names, w :: vs, as, i + 1, a, v, hn, h1, h2 => by
    rw [show setPairs as (b :: names) (w :: vs) = setPairs (setAttr as b w) names vs from rfl]
    exact getAttr_setPairs_at names vs _ i a v (List.nodup_cons.1 hn).2 (by simpa using h1) (by simpa using h2)

/-! ### The property theorems -/

/-- **C45** (agreement).  A call that returns is the one described by `Obj.unpack`, on which the other properties are stated:
the same object and the same state. -/
theorem C45_success (env : Env) (hp : env.lasting) (n : Nat) (v w : Val) (src : Src) (st st' : St) :
    Obj.unpack env n v src st = .ok w st' ↔ Obj.unpackInPlace env n v src st = (w, .ok () st') := by
  cases v with
  | obj cls bo attrs =>
    simp only [Obj.unpackInPlace]
    cases h1 : objSer env cls bo with
    | error e =>
      simp only [Obj.unpack, h1]
      constructor
      · intro h; cases h
      · intro h; cases h
    | ok r =>
      obtain ⟨ci, ser⟩ := r
      simp only
      cases h2 : ser.preunpack ⟨cls, false, attrs⟩ st with
      | err e st1 =>
        constructor
        · intro h
          simp only [Obj.unpack, h1] at h
          obtain ⟨_, _, g, h⟩ := M.bind_ok h
          cases g
          obtain ⟨_, _, g, h⟩ := M.bind_ok h
          rw [h2] at g; cases g
        · intro h; cases h
      | ok s st1 =>
        simp only
        have hpart := preunpack_part (objSer_lasting hp h1) h2
        constructor
        · intro h
          simp only [Obj.unpack, h1] at h
          obtain ⟨_, _, g, h⟩ := M.bind_ok h
          cases g
          obtain ⟨_, _, g, h⟩ := M.bind_ok h
          rw [h2] at g; cases g
          obtain ⟨vs, st2, g, h⟩ := M.bind_ok h
          simp only at h g
          by_cases hl : vs.length = ci.attrs.length
          · simp only [if_pos hl] at h
            cases h
            rw [inPlaceVals_ok (p := ⟨cls, false, attrs⟩) hpart g hl]
            rfl
          · simp only [if_neg hl] at h
            cases h
        · intro h
          simp only [Prod.mk.injEq] at h
          cases h3 : unpack env n (assignVals ci.attrs) s src st1 with
          | err e st2 =>
            obtain ⟨e, s3, g⟩ := inPlaceVals_err (p := ⟨cls, false, attrs⟩) (n := n) (src := src) (names := ci.attrs) (st := st1) hpart
              (by intro vs s' g; rw [h3] at g; cases g)
            rw [g] at h
            cases h.2
          | ok vs st2 =>
            by_cases hl : vs.length = ci.attrs.length
            · have g := inPlaceVals_ok (p := ⟨cls, false, attrs⟩) hpart h3 hl
              rw [g] at h
              simp only [Obj.unpack, h1]
              show M.bind (M.lift _) _ st = _
              simp only [M.bind, M.lift]
              show (ser.preunpack ⟨cls, false, attrs⟩ >>= _) st = _
              rw [M.bind_eq h2]
              show (unpack env n (assignVals ci.attrs) s src >>= _) st1 = _
              rw [M.bind_eq h3]
              simp only [if_pos hl]
              cases h.1
              cases h.2
              rfl
            · obtain ⟨e, s3, g⟩ := inPlaceVals_err (p := ⟨cls, false, attrs⟩) (n := n) (src := src) (names := ci.attrs) (st := st1) hpart
                (by intro ws s' g; rw [h3] at g; cases g; exact hl)
              rw [g] at h
              cases h.2
  | _ =>
    simp only [Obj.unpack, Obj.unpackInPlace]
    constructor <;> (intro h; cases h)

/-- **C45** (fields in order).  Whether or not the call returns, the object stays of its class and byte order, some number `k` of
its first fields were assigned, and everything else is as before: the later fields, and the attributes that are not fields. -/
theorem C45_fields (env : Env) (n : Nat) (cls : ClassId) (bo : Option ByteOrder) (ci : ClassInfo)
    (hci : env.classes cls = some ci) (attrs : List (Name × Val)) (src : Src) (st : St) :
    ∃ as k, (Obj.unpackInPlace env n (.obj cls bo attrs) src st).1 = .obj cls bo as ∧ k ≤ ci.attrs.length ∧
      (∀ a, a ∉ ci.attrs.take k → getAttr? as a = getAttr? attrs a) ∧ (∀ a ∈ ci.attrs.take k, ∃ v, getAttr? as a = some v) := by
  have none : ∃ as k, Val.obj cls bo attrs = .obj cls bo as ∧ k ≤ ci.attrs.length ∧
      (∀ a, a ∉ ci.attrs.take k → getAttr? as a = getAttr? attrs a) ∧ (∀ a ∈ ci.attrs.take k, ∃ v, getAttr? as a = some v) :=
    ⟨attrs, 0, rfl, by simp, fun _ _ => rfl, by simp⟩
  simp only [Obj.unpackInPlace]
  cases h1 : objSer env cls bo with
  | error e => exact none
  | ok r =>
    obtain ⟨ci', ser⟩ := r
    have : ci' = ci := by
      unfold objSer at h1
      simp only [hci] at h1
      cases bo with
      | none => cases h1; rfl
      | some b => obtain ⟨_, _, h1⟩ := Except.bind_ok' h1; cases h1; rfl
    subst this
    simp only
    cases h2 : ser.preunpack ⟨cls, false, attrs⟩ st with
    | err e st1 => exact none
    | ok s st1 =>
      obtain ⟨vs, hl, e⟩ := inPlaceVals_prefix env src attrs ci'.attrs n s st1
      refine ⟨_, vs.length, rfl, hl, fun a ha => ?_, fun a ha => ?_⟩
      · simp only [e]
        exact getAttr_setPairs_other _ _ _ _ ha
      · simp only [e]
        exact getAttr_setPairs_some _ _ _ _ ha

/-- Not a compound, and not a `Condition` over one: the values are a finished tuple before the first is assigned. -/
def Ser.oneUnit : Ser → Bool
  | .compound .. => false
  | .specialized .. => false
  | .cond s _ _ => s.oneUnit
  | _ => true

theorem preunpack_oneUnit {s s' : Ser} {p : PObj} {st st' : St} (hs : s.oneUnit = true) (h : s.preunpack p st = .ok s' st') :
    s'.isCompound = false := by
  cases s with
  | selfT i =>
    simp only [Ser.preunpack, M.lift] at h
    split at h
    · rename_i a ha
      obtain ⟨c, _, ha⟩ := Except.bind_ok' ha
      cases ha
      cases h
      rfl
    · cases h
  | cond ser c d =>
    simp only [Ser.preunpack, Ser.prepack, M.lift] at h
    split at h
    · rename_i a ha
      cases h
      obtain ⟨r, _, ha⟩ := Except.bind_ok' ha
      rcases condPick_cases ha with rfl | rfl
      · simp only [Ser.oneUnit] at hs
        cases s' <;> first | rfl | cases hs
      · rfl
    · cases h
  | compound i l => cases hs
  | specialized i q l => cases hs
  | _ => first | (cases h; rfl) | (simp only [Ser.preunpack, Ser.prepack] at h; obtain ⟨_, _, _, h⟩ := M.bind_ok h; cases h; rfl)

theorem withByteOrder_oneUnit {bo : ByteOrder} : ∀ {s s' : Ser}, s.withByteOrder bo = .ok s' → s.oneUnit = true → s'.oneUnit = true
  | .null, _, h, _ => by cases h; rfl
  | .struct _, _, h, _ => by
    simp only [Ser.withByteOrder] at h
    obtain ⟨_, _, h⟩ := Except.bind_ok' h; cases h; rfl
  | .dynChar .., _, h, _ => by
    simp only [Ser.withByteOrder] at h
    obtain ⟨_, _, h⟩ := Except.bind_ok' h; cases h; rfl
  | .consuming _, _, h, _ => by cases h; rfl
  | .terminated .., _, h, _ => by cases h; rfl
  | .net _, _, h, _ => by cases h; rfl
  | .unicode .., _, h, _ => by cases h; rfl
  | .array _ none _ _, _, h, _ => by
    simp only [Ser.withByteOrder] at h
    obtain ⟨_, _, h⟩ := Except.bind_ok' h
    obtain ⟨_, _, h⟩ := Except.bind_ok' h; cases h; rfl
  | .array _ (some _) _ _, _, h, _ => by
    simp only [Ser.withByteOrder] at h
    obtain ⟨_, _, h⟩ := Except.bind_ok' h
    obtain ⟨_, _, h⟩ := Except.bind_ok' h
    obtain ⟨_, _, h⟩ := Except.bind_ok' h; cases h; rfl
  | .staticArr .., _, h, _ => by
    simp only [Ser.withByteOrder] at h
    obtain ⟨_, _, h⟩ := Except.bind_ok' h
    unfold mkStaticArr at h
    obtain ⟨_, _, h⟩ := Except.bind_ok' h; cases h; rfl
  | .dynArr .., _, h, _ => by
    simp only [Ser.withByteOrder] at h
    obtain ⟨_, _, h⟩ := Except.bind_ok' h
    obtain ⟨_, _, h⟩ := Except.bind_ok' h; cases h; rfl
  | .tuple .., _, h, _ => by cases h; rfl
  | .lookback .., _, h, _ => by cases h; rfl
  | .lookahead .., _, h, _ => by cases h; rfl
  | .cond s _ _, _, h, hl => by
    simp only [Ser.withByteOrder] at h
    obtain ⟨s1, h1, h⟩ := Except.bind_ok' h
    split at h <;> cases h
    show Ser.oneUnit s1 = true
    exact withByteOrder_oneUnit h1 (show Ser.oneUnit s = true from hl)
  | .skip _, _, h, _ => by cases h; rfl
  | .structured .., _, h, _ => by cases h; rfl
  | .selfT _, _, h, _ => by cases h; rfl
  | .compound .., _, _, hl => by cases hl
  | .specialized .., _, _, hl => by cases hl

/-- **C45** (partial).  A class whose fields are all in one serializer - basic types only, or a single field - leaves the
object exactly as it was when the call raises.  Missing: classes with several serializers, for which it is false
(`C45_full_is_false`); `C45_fields` says what is left of those. -/
theorem C45_one_unit_partial (env : Env) (n : Nat) (cls : ClassId) (bo : Option ByteOrder) (ci : ClassInfo) (ser : Ser)
    (attrs : List (Name × Val)) (src : Src) (st st' : St) (e : Err) (w : Val)
    (hser : objSer env cls bo = .ok (ci, ser)) (hu : ser.oneUnit = true) (hc : Counted src.isBuf ser)
    (hn : ser.numValues = ci.attrs.length)
    (h : Obj.unpackInPlace env n (.obj cls bo attrs) src st = (w, .err e st')) : w = .obj cls bo attrs := by
  simp only [Obj.unpackInPlace, hser] at h
  cases h2 : ser.preunpack ⟨cls, false, attrs⟩ st with
  | err e st1 => simp only [h2] at h; cases h; rfl
  | ok s st1 =>
    simp only [h2] at h
    have hc' := counted_preunpack hc h2
    rw [inPlaceVals_eager (preunpack_oneUnit hu h2)] at h
    cases h3 : unpack env n noUpd s src st1 with
    | err e2 st2 => rw [h3] at h; cases h; rfl
    | ok vs st2 =>
      have hl := C11_unpack_partial env n _ _ _ _ _ _ hc'.1 h3
      rw [h3] at h
      simp only [if_pos (show vs.length = ci.attrs.length by rw [hl, hc'.2, hn])] at h
      cases h

/-! ### Concrete cases and the counterexample -/

open Samples

theorem samples_lasting : Samples.env.lasting := by
  intro c ci h
  simp only [Samples.env, Samples.classes] at h
  split at h <;> cases h <;> rfl

/-- A message read from enough data: both descriptions give it. -/
example : (Obj.unpackInPlace env 9 (msg 1 [7] []) (.buf [5, 2, 65, 66, 1, 9, 0, 3]) st0).1 = msg 5 [65, 66] [point 9 3] ∧
    result (Obj.unpackInPlace env 9 (msg 1 [7] []) (.buf [5, 2, 65, 66, 1, 9, 0, 3]) st0).2 = .ok () ∧
    result (Obj.unpack env 9 (msg 1 [7] []) (.buf [5, 2, 65, 66, 1, 9, 0, 3]) st0) = .ok (msg 5 [65, 66] [point 9 3]) :=
  ⟨rfl, rfl, rfl⟩

/-- The data ends inside the array: the tag and the name are new, the points are the old ones. -/
example : (Obj.unpackInPlace env 9 (msg 1 [7] [point 1 1]) (.buf [5, 2, 65, 66, 1, 9]) st0).1 = msg 5 [65, 66] [point 1 1] ∧
    result (Obj.unpackInPlace env 9 (msg 1 [7] [point 1 1]) (.buf [5, 2, 65, 66, 1, 9]) st0).2 = .error .structError :=
  ⟨rfl, rfl⟩

/-- The same from a file and from within a buffer; a class with a back reference. -/
example : (Obj.unpackInPlace env 9 (alt 0 (.int 3) 4) .io { st0 with io := ⟨[1, 2, 65], 0⟩ }).1 = alt 1 (.int 3) 4 ∧
    (Obj.unpackInPlace env 9 (alt 0 (.int 3) 4) (.at [255, 1, 2, 65, 66] 1) st0).1 = alt 1 (.bytes [65, 66]) 4 := ⟨rfl, rfl⟩

/-- A class of basic types only. -/
example : (Obj.unpackInPlace env 9 (point 1 2) (.buf [5, 0]) st0).1 = point 1 2 ∧
    result (Obj.unpackInPlace env 9 (point 1 2) (.buf [5, 0]) st0).2 = .error .structError ∧
    (∃ ci ser, objSer env 0 none = .ok (ci, ser) ∧ ser.oneUnit = true ∧ Counted true ser ∧ ser.numValues = ci.attrs.length) :=
  ⟨rfl, rfl, _, _, rfl, rfl, (by intro as h; cases h), rfl⟩

/-- An attribute that is no field stays. -/
example : (Obj.unpackInPlace env 9 (.obj 1 none [("tag", .int 1), ("name", .bytes []), ("points", .list []), ("note", .int 8)])
    (.buf [5]) st0).1 = .obj 1 none [("tag", .int 5), ("name", .bytes []), ("points", .list []), ("note", .int 8)] := rfl

/-- **C45** (no objects).  What is no object is left as it is. -/
theorem C45_no_object {v : Val} (hv : ∀ c b as, v ≠ .obj c b as) (env : Env) (n : Nat) (src : Src) (st : St) :
    Obj.unpackInPlace env n v src st = (v, .err .attributeError st) := by
  cases v with
  | obj c b as => exact absurd rfl (hv c b as)
  | _ => rfl

example : Obj.unpackInPlace env 3 (.int 5) (.buf [1]) st0 = (.int 5, .err .attributeError st0) := C45_no_object (fun _ _ _ h => by cases h) env 3 (.buf [1]) st0

/-- **C45** (violated).  As stated - a failed call leaves the object as it was - the property fails for a class with a string
or an array next to another field: the fields read before the error keep the values just read. -/
theorem C45_full_is_false : ∃ (env : Env) (v w : Val) (src : Src) (st st' : St) (e : Err),
    env.lasting ∧ Obj.unpackInPlace env 9 v src st = (w, .err e st') ∧ w ≠ v :=
  ⟨env, msg 1 [7] [], msg 5 [65] [], .buf [5, 2, 65], st0, after (Obj.unpackInPlace env 9 (msg 1 [7] []) (.buf [5, 2, 65]) st0).2,
    .structError, samples_lasting, rfl, by simp [msg]⟩

end Verif
