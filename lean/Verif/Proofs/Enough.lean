import Verif.Proofs.Fuel
import Verif.Proofs.RefineInto
/-
How large a recursion limit is needed: a bound from the nesting of serializers and of values.
-/
namespace Verif

theorem Except.bind_ok' {x : Except Err α} {f : α → Except Err β} {b : β} (h : (x >>= f) = .ok b) :
    ∃ a, x = .ok a ∧ f a = .ok b := by
  cases x with
  | error e => cases h
  | ok a => exact ⟨a, rfl, h⟩

mutual
/-- Nesting depth of a serializer, not counting the classes it mentions. -/
def Ser.height : Ser → Nat
  | .unicode inner _ _ => inner.height + 1
  | .array _ _ item _ => item.height + 1
  | .tuple _ inner => inner.height + 1
  | .lookback _ _ _ opts dflt => max (Ser.heightList opts) dflt.height + 1
  | .lookahead _ ra _ _ opts dflt => max ra.height (max (Ser.heightList opts) dflt.height) + 1
  | .cond s _ _ => s.height + 1
  | .compound _ ss => Ser.heightList ss + 1
  | .specialized _ _ ss => Ser.heightList ss + 1
  | _ => 1
def Ser.heightList : List Ser → Nat
  | [] => 0
  | s :: ss => max s.height (Ser.heightList ss)
end

theorem Ser.height_pos (s : Ser) : 1 ≤ s.height := by cases s <;> simp [Ser.height]

mutual
/-- How many objects are nested inside one another in a value. -/
def Val.depth : Val → Nat
  | .list vs => Val.depthList vs
  | .tup vs => Val.depthList vs
  | .obj _ _ attrs => Val.depthAttrs attrs + 1
  | .custom _ v => v.depth
  | _ => 0
def Val.depthList : List Val → Nat
  | [] => 0
  | v :: vs => max v.depth (Val.depthList vs)
def Val.depthAttrs : List (Name × Val) → Nat
  | [] => 0
  | (_, v) :: vs => max v.depth (Val.depthAttrs vs)
end

theorem Val.depth_strip : ∀ v : Val, v.strip.depth = v.depth
  | .custom _ v => by simp only [Val.strip, Val.depth]; exact Val.depth_strip v
  | .none | .int _ | .bool _ | .float _ | .bytes _ | .str _ | .list _ | .tup _ | .obj .. | .gen => by rfl

theorem depth_le_of_mem {vs : List Val} {v : Val} (h : v ∈ vs) : v.depth ≤ Val.depthList vs := by
  induction vs with
  | nil => cases h
  | cons w ws ih =>
    simp only [Val.depthList]
    rcases List.mem_cons.1 h with rfl | h
    · omega
    · have := ih h; omega

theorem depthList_le {vs : List Val} {k : Nat} (h : ∀ v ∈ vs, v.depth ≤ k) : Val.depthList vs ≤ k := by
  induction vs with
  | nil => simp [Val.depthList]
  | cons w ws ih =>
    simp only [Val.depthList]
    have := h w (by simp)
    have := ih fun v hv => h v (by simp [hv])
    omega

theorem depthList_mono {vs ws : List Val} (h : ∀ v ∈ vs, v ∈ ws) : Val.depthList vs ≤ Val.depthList ws :=
  depthList_le fun v hv => depth_le_of_mem (h v hv)

theorem pyIter_depth {v : Val} {vs : List Val} (h : pyIter v = .ok vs) : Val.depthList vs ≤ v.depth := by
  rw [← Val.depth_strip]
  unfold pyIter at h
  split at h
  case h_5 => cases h
  all_goals (cases h; rename_i e; rw [e])
  · refine depthList_le fun w hw => ?_
    obtain ⟨_, _, rfl⟩ := List.mem_map.1 hw
    simp [Val.depth]
  · refine depthList_le fun w hw => ?_
    obtain ⟨_, _, rfl⟩ := List.mem_map.1 hw
    simp [Val.depth]
  · simp [Val.depth]
  · simp [Val.depth]

theorem first_depth {v : Val} {vs : List Val} (h : first vs = .ok v) : v.depth ≤ Val.depthList vs := by
  cases vs with
  | nil => cases h
  | cons w ws => cases h; exact depth_le_of_mem (by simp)

theorem getAttr_depth {attrs : List (Name × Val)} {a : Name} {v : Val} (h : getAttr? attrs a = some v) :
    v.depth ≤ Val.depthAttrs attrs := by
  induction attrs with
  | nil => cases h
  | cons x xs ih =>
    obtain ⟨b, w⟩ := x
    simp only [Val.depthAttrs]
    simp only [getAttr?, List.find?_cons] at h ih
    split at h
    · cases h; simp only; omega
    · have := ih h; omega

theorem getAttrs_depth {attrs : List (Name × Val)} : ∀ {names : List Name} {vs : List Val},
    getAttrs attrs names = .ok vs → Val.depthList vs ≤ Val.depthAttrs attrs := by
  intro names
  induction names with
  | nil => intro vs h; cases h; simp [Val.depthList]
  | cons a as ih =>
    intro vs h
    simp only [getAttrs] at h
    cases h1 : getAttr? attrs a with
    | none => rw [h1] at h; cases h
    | some v =>
      rw [h1] at h
      cases h2 : getAttrs attrs as with
      | error e => rw [h2] at h; cases h
      | ok ws =>
        rw [h2] at h; cases h
        have := getAttr_depth h1
        have := ih h2
        simp only [Val.depthList]; omega

theorem height_mem {ss : List Ser} {s : Ser} (h : s ∈ ss) : s.height ≤ Ser.heightList ss := by
  induction ss with
  | nil => cases h
  | cons w ws ih =>
    simp only [Ser.heightList]
    rcases List.mem_cons.1 h with rfl | h
    · omega
    · have := ih h; omega

theorem condPick_height {s s' : Ser} {d : List Val} {r : Val} (h : condPick s d r = .ok s') : s'.height ≤ s.height := by
  have := s.height_pos
  unfold condPick at h
  split at h
  · cases h
  · split at h
    · cases h; omega
    · split at h
      · cases h; simpa [Ser.height] using this
      · cases h

theorem unionPick_mem {keys : List Val} {opts : List Ser} {dflt s : Ser} {r : Val}
    (h : unionPick keys opts dflt r = .ok s) : s ∈ opts ∨ s = dflt := by
  unfold unionPick at h
  split at h
  · cases h
  · split at h
    · rename_i s' e
      cases h
      unfold lookupOpt at e
      cases hf : (keys.zip opts).find? (fun p => p.1.keyEq r) with
      | none => rw [hf] at e; cases e
      | some p =>
        rw [hf] at e; cases e
        exact .inl (List.of_mem_zip (List.mem_of_find?_eq_some hf)).2
    · cases dflt <;> simp_all

theorem unionPick_height {keys : List Val} {opts : List Ser} {dflt s : Ser} {r : Val}
    (h : unionPick keys opts dflt r = .ok s) : s.height ≤ max (Ser.heightList opts) dflt.height := by
  rcases unionPick_mem h with h | rfl
  · have := height_mem h; omega
  · omega

theorem M.lift_ok {x : Except Err α} {a : α} {st st' : St} (h : M.lift x st = .ok a st') : x = .ok a ∧ st' = st := by
  cases x with
  | error e => cases h
  | ok b => cases h; exact ⟨rfl, rfl⟩

theorem prepack_height {s s' : Ser} {p : PObj} {st st' : St} (h : s.prepack p st = .ok s' st') :
    s'.height ≤ s.height := by
  cases s with
  | cond ser c defs =>
    obtain ⟨h, -⟩ := M.lift_ok h
    cases hc : c p with
    | error e => rw [hc] at h; cases h
    | ok r =>
      rw [hc] at h
      have := condPick_height (s := ser) (d := defs) (r := r) h
      simp only [Ser.height]; omega
  | selfT id => cases h; simp [Ser.height]
  | compound id ss =>
    cases h
    split <;> simp [Ser.height]
  | _ =>
    simp only [Ser.prepack] at h
    first
      | (cases h; simp [Ser.height])
      | (obtain ⟨_, _, h1, h2⟩ := M.bind_ok h; cases h2; simp [Ser.height])

theorem preunpack_height {s s' : Ser} {p : PObj} {st st' : St} (h : s.preunpack p st = .ok s' st') :
    s'.height ≤ s.height := by
  by_cases hs : ∃ id, s = .selfT id
  · obtain ⟨id, rfl⟩ := hs
    obtain ⟨h, -⟩ := M.lift_ok h
    cases hc : clsOfPartial p with
    | error e => rw [hc] at h; cases h
    | ok r => rw [hc] at h; cases h; simp [Ser.height]
  · refine prepack_height (p := p) (st := st) (st' := st') ?_
    rw [← h]
    cases s <;> first | rfl | exact absurd ⟨_, rfl⟩ hs

theorem getSerializer_height {packing : Bool} {id : SerId} {keys : List Val} {opts : List Ser} {dflt s : Ser} {r : Val}
    {st st' : St} (h : getSerializer packing id keys opts dflt r st = .ok s st') :
    s.height ≤ max (Ser.heightList opts) dflt.height := by
  obtain ⟨s1, st1, h1, h⟩ := M.bind_ok h
  obtain ⟨p, st2, h2, h⟩ := M.bind_ok h
  have h1 := unionPick_height (M.lift_ok h1).1
  cases packing with
  | true => have := prepack_height h; omega
  | false => have := preunpack_height h; omega

mutual
theorem withByteOrder_height (bo : ByteOrder) : ∀ {s s' : Ser}, s.withByteOrder bo = .ok s' → s'.height = s.height
  | .struct st, s', h => by
    simp only [Ser.withByteOrder] at h
    cases h1 : st.withByteOrder bo <;> rw [h1] at h <;> cases h
    rfl
  | .dynChar id st, s', h => by
    simp only [Ser.withByteOrder] at h
    cases h1 : st.withByteOrder bo <;> rw [h1] at h <;> cases h
    rfl
  | .array id hdr item sl, s', h => by
    simp only [Ser.withByteOrder] at h
    cases hdr with
    | none =>
      obtain ⟨hdr', _, h⟩ := Except.bind_ok' h
      obtain ⟨item', h2, h⟩ := Except.bind_ok' h
      cases h
      simp only [Ser.height, withByteOrder_height bo h2]
    | some hd =>
      obtain ⟨_, _, h⟩ := Except.bind_ok' h
      obtain ⟨hdr', _, h⟩ := Except.bind_ok' h
      obtain ⟨item', h2, h⟩ := Except.bind_ok' h
      cases h
      simp only [Ser.height, withByteOrder_height bo h2]
  | .staticArr count item ser, s', h => by
    simp only [Ser.withByteOrder] at h
    obtain ⟨item', h1, h⟩ := Except.bind_ok' h
    obtain ⟨ser', h2, h⟩ := Except.bind_ok' h
    cases h
    rfl
  | .dynArr id cnt item, s', h => by
    simp only [Ser.withByteOrder] at h
    obtain ⟨hdr', h1, h⟩ := Except.bind_ok' h
    obtain ⟨item', h2, h⟩ := Except.bind_ok' h
    cases h
    rfl
  | .cond ser c defs, s', h => by
    simp only [Ser.withByteOrder] at h
    obtain ⟨ser', h1, h⟩ := Except.bind_ok' h
    split at h <;> cases h
    simp only [Ser.height, withByteOrder_height bo h1]
  | .compound id ss, s', h => by
    simp only [Ser.withByteOrder] at h
    obtain ⟨ss', h1, h⟩ := Except.bind_ok' h
    unfold mkCompound at h
    split at h <;> cases h
    simp only [Ser.height, withByteOrderList_height bo h1]
  | .specialized id p ss, s', h => by
    simp only [Ser.withByteOrder] at h
    obtain ⟨ss', h1, h⟩ := Except.bind_ok' h
    unfold mkCompound at h
    split at h <;> cases h
    simp only [Ser.height, withByteOrderList_height bo h1]
  | .null, s', h | .consuming _, s', h | .terminated .., s', h | .net _, s', h | .unicode .., s', h
  | .tuple .., s', h | .lookback .., s', h | .lookahead .., s', h | .skip _, s', h | .structured .., s', h
  | .selfT _, s', h => by simp only [Ser.withByteOrder] at h; cases h; rfl
theorem withByteOrderList_height (bo : ByteOrder) : ∀ {ss ss' : List Ser}, Ser.withByteOrderList bo ss = .ok ss' →
    Ser.heightList ss' = Ser.heightList ss
  | [], ss', h => by simp only [Ser.withByteOrderList] at h; cases h; rfl
  | s :: ss, ss', h => by
    simp only [Ser.withByteOrderList] at h
    obtain ⟨s', h1, h⟩ := Except.bind_ok' h
    obtain ⟨ss'', h2, h⟩ := Except.bind_ok' h
    cases h
    simp only [Ser.heightList, withByteOrder_height bo h1, withByteOrderList_height bo h2]
end

/-! ### Packing -/

theorem M.bind_congr {x y : M α} {f g : α → M β} (h : x = y)
    (k : ∀ a st st', x st = .ok a st' → f a = g a) : (x >>= f) = (y >>= g) := by
  subst h
  funext st
  show M.bind x f st = M.bind x g st
  unfold M.bind
  cases hx : x st with
  | err e s => rfl
  | ok a s => simp only []; rw [k a st s hx]

theorem M.bind_then {x : M α} {f g : α → M β} (k : ∀ a st st', x st = .ok a st' → f a = g a) :
    (x >>= f) = (x >>= g) := M.bind_congr rfl k

/-- No class has a serializer nested deeper than `H`. -/
def Env.heightLe (env : Env) (H : Nat) : Prop := ∀ c ci, env.classes c = some ci → ci.serializer.height ≤ H

theorem objSer_height {env : Env} {H : Nat} (hH : env.heightLe H) {cls : ClassId} {bo : Option ByteOrder} {ci : ClassInfo}
    {ser : Ser} (h : objSer env cls bo = .ok (ci, ser)) : ser.height ≤ H := by
  unfold objSer at h
  cases hc : env.classes cls with
  | none => rw [hc] at h; cases h
  | some ci' =>
    rw [hc] at h
    have := hH cls ci' hc
    cases bo with
    | none => cases h; exact this
    | some b =>
      obtain ⟨s', h1, h⟩ := Except.bind_ok' h
      cases h
      rw [withByteOrder_height b h1]; exact this

/-- A recursion limit that is enough to pack `vs` with `s`. -/
def need (H : Nat) (s : Ser) (vs : List Val) : Nat := Val.depthList vs * (H + 1) + s.height

theorem need_le {H : Nat} {s s' : Ser} {vs vs' : List Val} {n : Nat} (h : need H s vs ≤ n + 1)
    (hs : s'.height < s.height) (hv : Val.depthList vs' ≤ Val.depthList vs) : need H s' vs' ≤ n := by
  unfold need at *
  have := Nat.mul_le_mul_right (H + 1) hv
  omega

theorem need_obj {H : Nat} {s s' : Ser} {v : Val} {vs' : List Val} {n : Nat} (h : need H s [v] ≤ n + 1)
    (hs : s'.height ≤ H) (hv : Val.depthList vs' < v.depth) : need H s' vs' ≤ n := by
  unfold need at *
  have h1 := s.height_pos
  simp only [Val.depthList] at h
  have h2 : (Val.depthList vs' + 1) * (H + 1) ≤ max v.depth 0 * (H + 1) := Nat.mul_le_mul_right _ (by omega)
  rw [Nat.add_mul] at h2
  omega

section
variable {env : Env} {H n : Nat} {β : Type}

theorem packLoop_enough {p q : Ser → List Val → M Bytes} {pre : Ser → M Ser}
    (hpre : ∀ s s' st st', pre s st = .ok s' st' → s'.height ≤ s.height) : ∀ ss vals,
    (∀ s vs, s.height ≤ Ser.heightList ss → Val.depthList vs ≤ Val.depthList vals → p s vs = q s vs) →
    packLoop p pre ss vals = packLoop q pre ss vals := by
  intro ss
  induction ss with
  | nil => intro vals _; rfl
  | cons s ss ih =>
    intro vals h
    rw [packLoop, packLoop]
    refine M.bind_then fun s' st st' e => ?_
    have he := hpre _ _ _ _ e
    refine M.bind_congr (h _ _ (by simp only [Ser.heightList]; omega) (depthList_mono fun v hv => List.mem_of_mem_take hv))
      fun b st st' _ => M.bind_then fun sz st st' _ => ?_
    refine M.bind_congr (ih _ fun s2 vs2 h1 h2 => h _ _ (by simp only [Ser.heightList]; omega)
      (Nat.le_trans h2 (depthList_mono fun v hv => List.mem_of_mem_drop hv))) fun _ _ _ _ => rfl

theorem packItems_enough {p q : Ser → List Val → M Bytes} {item : Ser} : ∀ vals,
    (∀ vs, Val.depthList vs ≤ Val.depthList vals → p item vs = q item vs) →
    packItems p item vals = packItems q item vals := by
  intro vals
  induction vals with
  | nil => intro _; rfl
  | cons v vals ih =>
    intro h
    rw [packItems, packItems]
    simp only [Val.depthList] at h
    refine M.bind_congr (h _ (by simp only [Val.depthList]; omega)) fun b st st' _ => M.bind_then fun sz st st' _ => ?_
    exact M.bind_congr (ih fun vs hvs => h _ (by omega)) fun _ _ _ _ => rfl

theorem objPack_enough (hH : env.heightLe H) {p q : Ser → List Val → M Bytes} (v : Val)
    (h : ∀ s vs, s.height ≤ H → Val.depthList vs < v.depth → p s vs = q s vs) :
    objPack env p v = objPack env q v := by
  cases v with
  | obj cls bo attrs =>
    refine M.bind_then fun cs st st' e1 => ?_
    obtain ⟨ci, ser⟩ := cs
    have h1 := objSer_height hH (M.lift_ok e1).1
    refine M.bind_then fun s st st' e2 => M.bind_then fun vals st st' e3 => ?_
    have h2 := prepack_height e2
    have h3 := getAttrs_depth (M.lift_ok e3).1
    exact M.bind_congr (h _ _ (by omega) (by simp only [Val.depth]; omega)) fun _ _ _ _ => rfl
  | _ => rfl

theorem pack_enough (hH : env.heightLe H) : ∀ n s vs, need H s vs ≤ n →
    pack env n s vs = pack env (n + 1) s vs := by
  intro n
  induction n with
  | zero => intro s vs h; have := s.height_pos; unfold need at h; omega
  | succ n ih =>
    intro s vs h
    cases s with
    | tuple id inner =>
      rcases vs with _ | ⟨v, _ | ⟨w, ws⟩⟩ <;> (rw [pack, pack] <;> try (intro _ h; cases h))
      refine M.bind_then fun p st st' _ => M.bind_then fun inner' st st' e1 => M.bind_then fun vals st st' e2 => ?_
      have h1 := prepack_height e1
      have h2 := pyIter_depth (M.lift_ok e2).1
      exact ih _ _ (need_le h (by simp only [Ser.height]; omega) (by simp only [Val.depthList]; omega))
    | structured id cls =>
      rcases vs with _ | ⟨v, _ | ⟨w, ws⟩⟩ <;> (rw [pack, pack] <;> try (intro _ h; cases h))
      exact M.bind_congr (objPack_enough hH v fun s vs hs hv => ih _ _ (need_obj h hs hv)) fun _ _ _ _ => rfl
    | unicode inner en de =>
      rw [pack, pack]
      refine M.bind_then fun b st st' _ => ih _ _ (need_le h (by simp only [Ser.height]; omega)
        (by simp [Val.depthList, Val.depth]))
    | array id hdr item sl =>
      rw [pack, pack]
      refine M.bind_then fun p st st' _ => M.bind_then fun item' st st' e1 => M.bind_then fun v st st' e2 =>
        M.bind_then fun items st st' e3 => ?_
      have h1 := prepack_height e1
      have h2 := first_depth (M.lift_ok e2).1
      have h3 := pyIter_depth (M.lift_ok e3).1
      exact M.bind_congr (packItems_enough _ fun vs hvs => ih _ _ (need_le h (by simp only [Ser.height]; omega) (by omega)))
        fun _ _ _ _ => rfl
    | lookback id decider keys opts dflt =>
      rw [pack, pack]
      refine M.bind_then fun p st st' _ => M.bind_then fun r st st' e1 => M.bind_then fun s st st' e2 => ?_
      have h1 := getSerializer_height e2
      exact M.bind_congr (ih _ _ (need_le h (by simp only [Ser.height]; omega) (by omega))) fun _ _ _ _ => rfl
    | lookahead id ra decider keys opts dflt =>
      rw [pack, pack]
      refine M.bind_then fun p st st' _ => M.bind_then fun r st st' e1 => M.bind_then fun s st st' e2 => ?_
      have h1 := getSerializer_height e2
      exact M.bind_congr (ih _ _ (need_le h (by simp only [Ser.height]; omega) (by omega))) fun _ _ _ _ => rfl
    | compound id ss =>
      rw [pack, pack]
      refine M.bind_congr (packLoop_enough (fun s s' st st' e => by cases e; omega) _ _ fun s vs h1 h2 =>
        ih _ _ (need_le h (by simp only [Ser.height]; omega) h2)) fun _ _ _ _ => rfl
    | specialized id p ss =>
      rw [pack, pack]
      refine M.bind_congr (packLoop_enough (fun s s' st st' e => prepack_height e) _ _ fun s vs h1 h2 =>
        ih _ _ (need_le h (by simp only [Ser.height]; omega) h2)) fun _ _ _ _ => rfl
    | _ => rw [pack, pack]

theorem packIntoLoop_enough {p q : Ser → Nat → List Val → M Unit} {pre : Ser → M Ser} {off : Nat}
    (hpre : ∀ s s' st st', pre s st = .ok s' st' → s'.height ≤ s.height) : ∀ ss size vals,
    (∀ s off vs, s.height ≤ Ser.heightList ss → Val.depthList vs ≤ Val.depthList vals → p s off vs = q s off vs) →
    packIntoLoop p pre off size ss vals = packIntoLoop q pre off size ss vals := by
  intro ss
  induction ss with
  | nil => intro size vals _; rfl
  | cons s ss ih =>
    intro size vals h
    rw [packIntoLoop, packIntoLoop]
    refine M.bind_then fun s' st st' e => ?_
    have he := hpre _ _ _ _ e
    refine M.bind_congr (h _ _ _ (by simp only [Ser.heightList]; omega) (depthList_mono fun v hv => List.mem_of_mem_take hv))
      fun b st st' _ => M.bind_then fun sz st st' _ => ?_
    exact ih _ _ fun s2 off2 vs2 h1 h2 => h _ _ _ (by simp only [Ser.heightList]; omega)
      (Nat.le_trans h2 (depthList_mono fun v hv => List.mem_of_mem_drop hv))

theorem packIntoItems_enough {p q : Ser → Nat → List Val → M Unit} {item : Ser} {off : Nat} : ∀ vals size,
    (∀ off vs, Val.depthList vs ≤ Val.depthList vals → p item off vs = q item off vs) →
    packIntoItems p item off size vals = packIntoItems q item off size vals := by
  intro vals
  induction vals with
  | nil => intro _ _; rfl
  | cons v vals ih =>
    intro size h
    rw [packIntoItems, packIntoItems]
    simp only [Val.depthList] at h
    refine M.bind_congr (h _ _ (by simp only [Val.depthList]; omega)) fun b st st' _ => M.bind_then fun sz st st' _ => ?_
    exact ih _ fun off vs hvs => h _ _ (by omega)

theorem objPackInto_enough (hH : env.heightLe H) {p q : Ser → Nat → List Val → M Unit} (off : Nat) (v : Val)
    (h : ∀ s off vs, s.height ≤ H → Val.depthList vs < v.depth → p s off vs = q s off vs) :
    objPackInto env p off v = objPackInto env q off v := by
  cases v with
  | obj cls bo attrs =>
    refine M.bind_then fun cs st st' e1 => ?_
    obtain ⟨ci, ser⟩ := cs
    have h1 := objSer_height hH (M.lift_ok e1).1
    refine M.bind_then fun s st st' e2 => M.bind_then fun vals st st' e3 => ?_
    have h2 := prepack_height e2
    have h3 := getAttrs_depth (M.lift_ok e3).1
    exact M.bind_congr (h _ _ _ (by omega) (by simp only [Val.depth]; omega)) fun _ _ _ _ => rfl
  | _ => rfl

theorem packInto_enough (hH : env.heightLe H) : ∀ n s off vs, need H s vs ≤ n →
    packInto env n s off vs = packInto env (n + 1) s off vs := by
  intro n
  induction n with
  | zero => intro s off vs h; have := s.height_pos; unfold need at h; omega
  | succ n ih =>
    intro s off vs h
    cases s with
    | tuple id inner =>
      rcases vs with _ | ⟨v, _ | ⟨w, ws⟩⟩ <;> (rw [packInto, packInto] <;> try (intro _ h; cases h))
      refine M.bind_then fun p st st' _ => M.bind_then fun inner' st st' e1 => M.bind_then fun vals st st' e2 => ?_
      have h1 := prepack_height e1
      have h2 := pyIter_depth (M.lift_ok e2).1
      exact ih _ _ _ (need_le h (by simp only [Ser.height]; omega) (by simp only [Val.depthList]; omega))
    | structured id cls =>
      rcases vs with _ | ⟨v, _ | ⟨w, ws⟩⟩ <;> (rw [packInto, packInto] <;> try (intro _ h; cases h))
      exact M.bind_congr (objPackInto_enough hH off v fun s off vs hs hv => ih _ _ _ (need_obj h hs hv)) fun _ _ _ _ => rfl
    | unicode inner en de =>
      rw [packInto, packInto]
      refine M.bind_then fun b st st' _ => ih _ _ _ (need_le h (by simp only [Ser.height]; omega)
        (by simp [Val.depthList, Val.depth]))
    | array id hdr item sl =>
      rw [packInto, packInto]
      refine M.bind_then fun v st st' e2 => M.bind_then fun p st st' _ => M.bind_then fun item' st st' e1 =>
        M.bind_then fun items st st' e3 => ?_
      have h1 := prepack_height e1
      have h2 := first_depth (M.lift_ok e2).1
      have h3 := pyIter_depth (M.lift_ok e3).1
      exact M.bind_congr (packIntoItems_enough _ _ fun off vs hvs => ih _ _ _
        (need_le h (by simp only [Ser.height]; omega) (by omega))) fun _ _ _ _ => rfl
    | lookback id decider keys opts dflt =>
      rw [packInto, packInto]
      refine M.bind_then fun p st st' _ => M.bind_then fun r st st' e1 => M.bind_then fun s st st' e2 => ?_
      have h1 := getSerializer_height e2
      exact M.bind_congr (ih _ _ _ (need_le h (by simp only [Ser.height]; omega) (by omega))) fun _ _ _ _ => rfl
    | lookahead id ra decider keys opts dflt =>
      rw [packInto, packInto]
      refine M.bind_then fun p st st' _ => M.bind_then fun r st st' e1 => M.bind_then fun s st st' e2 => ?_
      have h1 := getSerializer_height e2
      exact M.bind_congr (ih _ _ _ (need_le h (by simp only [Ser.height]; omega) (by omega))) fun _ _ _ _ => rfl
    | compound id ss =>
      rw [packInto, packInto]
      refine M.bind_congr (packIntoLoop_enough (fun s s' st st' e => by cases e; omega) _ _ _ fun s off vs h1 h2 =>
        ih _ _ _ (need_le h (by simp only [Ser.height]; omega) h2)) fun _ _ _ _ => rfl
    | specialized id p ss =>
      rw [packInto, packInto]
      refine M.bind_congr (packIntoLoop_enough (fun s s' st st' e => prepack_height e) _ _ _ fun s off vs h1 h2 =>
        ih _ _ _ (need_le h (by simp only [Ser.height]; omega) h2)) fun _ _ _ _ => rfl
    | _ => rw [packInto, packInto]

theorem packWriteLoop_enough {p q : Ser → List Val → M Unit} {pre : Ser → M Ser}
    (hpre : ∀ s s' st st', pre s st = .ok s' st' → s'.height ≤ s.height) : ∀ ss size vals,
    (∀ s vs, s.height ≤ Ser.heightList ss → Val.depthList vs ≤ Val.depthList vals → p s vs = q s vs) →
    packWriteLoop p pre size ss vals = packWriteLoop q pre size ss vals := by
  intro ss
  induction ss with
  | nil => intro size vals _; rfl
  | cons s ss ih =>
    intro size vals h
    rw [packWriteLoop, packWriteLoop]
    refine M.bind_then fun s' st st' e => ?_
    have he := hpre _ _ _ _ e
    refine M.bind_congr (h _ _ (by simp only [Ser.heightList]; omega) (depthList_mono fun v hv => List.mem_of_mem_take hv))
      fun b st st' _ => M.bind_then fun sz st st' _ => ?_
    exact ih _ _ fun s2 vs2 h1 h2 => h _ _ (by simp only [Ser.heightList]; omega)
      (Nat.le_trans h2 (depthList_mono fun v hv => List.mem_of_mem_drop hv))

theorem objPackWrite_enough (hH : env.heightLe H) {p q : Ser → List Val → M Unit} (v : Val)
    (h : ∀ s vs, s.height ≤ H → Val.depthList vs < v.depth → p s vs = q s vs) :
    objPackWrite env p v = objPackWrite env q v := by
  cases v with
  | obj cls bo attrs =>
    refine M.bind_then fun cs st st' e1 => ?_
    obtain ⟨ci, ser⟩ := cs
    have h1 := objSer_height hH (M.lift_ok e1).1
    refine M.bind_then fun s st st' e2 => M.bind_then fun vals st st' e3 => ?_
    have h2 := prepack_height e2
    have h3 := getAttrs_depth (M.lift_ok e3).1
    exact M.bind_congr (h _ _ (by omega) (by simp only [Val.depth]; omega)) fun _ _ _ _ => rfl
  | _ => rfl

theorem packWrite_enough (hH : env.heightLe H) : ∀ n s vs, need H s vs ≤ n →
    packWrite env n s vs = packWrite env (n + 1) s vs := by
  intro n
  induction n with
  | zero => intro s vs h; have := s.height_pos; unfold need at h; omega
  | succ n ih =>
    intro s vs h
    cases s with
    | tuple id inner =>
      rcases vs with _ | ⟨v, _ | ⟨w, ws⟩⟩ <;> (rw [packWrite, packWrite] <;> try (intro _ h; cases h))
      refine M.bind_then fun p st st' _ => M.bind_then fun inner' st st' e1 => M.bind_then fun vals st st' e2 => ?_
      have h1 := prepack_height e1
      have h2 := pyIter_depth (M.lift_ok e2).1
      exact ih _ _ (need_le h (by simp only [Ser.height]; omega) (by simp only [Val.depthList]; omega))
    | structured id cls =>
      rcases vs with _ | ⟨v, _ | ⟨w, ws⟩⟩ <;> (rw [packWrite, packWrite] <;> try (intro _ h; cases h))
      exact M.bind_congr (objPackWrite_enough hH v fun s vs hs hv => ih _ _ (need_obj h hs hv)) fun _ _ _ _ => rfl
    | unicode inner en de =>
      rw [packWrite, packWrite]
      refine M.bind_then fun b st st' _ => ih _ _ (need_le h (by simp only [Ser.height]; omega)
        (by simp [Val.depthList, Val.depth]))
    | array id hdr item sl =>
      rw [packWrite, packWrite]
      exact M.bind_congr (pack_enough hH _ _ _ h) fun _ _ _ _ => rfl
    | lookback id decider keys opts dflt =>
      rw [packWrite, packWrite]
      refine M.bind_then fun p st st' _ => M.bind_then fun r st st' e1 => M.bind_then fun s st st' e2 => ?_
      have h1 := getSerializer_height e2
      exact M.bind_congr (ih _ _ (need_le h (by simp only [Ser.height]; omega) (by omega))) fun _ _ _ _ => rfl
    | lookahead id ra decider keys opts dflt =>
      rw [packWrite, packWrite]
      refine M.bind_then fun p st st' _ => M.bind_then fun r st st' e1 => M.bind_then fun s st st' e2 => ?_
      have h1 := getSerializer_height e2
      exact M.bind_congr (ih _ _ (need_le h (by simp only [Ser.height]; omega) (by omega))) fun _ _ _ _ => rfl
    | compound id ss =>
      rw [packWrite, packWrite]
      refine M.bind_congr (packWriteLoop_enough (fun s s' st st' e => by cases e; omega) _ _ _ fun s vs h1 h2 =>
        ih _ _ (need_le h (by simp only [Ser.height]; omega) h2)) fun _ _ _ _ => rfl
    | specialized id p ss =>
      rw [packWrite, packWrite]
      refine M.bind_congr (packWriteLoop_enough (fun s s' st st' e => prepack_height e) _ _ _ fun s vs h1 h2 =>
        ih _ _ (need_le h (by simp only [Ser.height]; omega) h2)) fun _ _ _ _ => rfl
    | _ => rw [packWrite, packWrite]

end

/-! ### Unpacking -/

mutual
/-- Every class mentioned by the serializer has a rank below `r`, and `Self` is not used. -/
def Ser.mentionsBelow (rank : ClassId → Nat) (r : Nat) : Ser → Bool
  | .unicode inner _ _ => inner.mentionsBelow rank r
  | .array _ _ item _ => item.mentionsBelow rank r
  | .tuple _ inner => inner.mentionsBelow rank r
  | .lookback _ _ _ opts dflt => Ser.mentionsBelowList rank r opts && dflt.mentionsBelow rank r
  | .lookahead _ ra _ _ opts dflt => ra.mentionsBelow rank r && Ser.mentionsBelowList rank r opts && dflt.mentionsBelow rank r
  | .cond s _ _ => s.mentionsBelow rank r
  | .structured _ c => decide (rank c < r)
  | .selfT _ => false
  | .compound _ ss => Ser.mentionsBelowList rank r ss
  | .specialized _ _ ss => Ser.mentionsBelowList rank r ss
  | _ => true
def Ser.mentionsBelowList (rank : ClassId → Nat) (r : Nat) : List Ser → Bool
  | [] => true
  | s :: ss => s.mentionsBelow rank r && Ser.mentionsBelowList rank r ss
end

/-- Classes only mention classes of lower rank: no cycles, no `Self`. -/
def Env.ranked (env : Env) (rank : ClassId → Nat) : Prop :=
  ∀ c ci, env.classes c = some ci → ci.serializer.mentionsBelow rank (rank c) = true

section
variable {rank : ClassId → Nat} {r : Nat}

theorem below_mem {ss : List Ser} {s : Ser} (h : Ser.mentionsBelowList rank r ss = true) (hs : s ∈ ss) : s.mentionsBelow rank r = true := by
  induction ss with
  | nil => cases hs
  | cons w ws ih =>
    simp only [Ser.mentionsBelowList, Bool.and_eq_true] at h
    rcases List.mem_cons.1 hs with rfl | hs
    · exact h.1
    · exact ih h.2 hs

theorem preunpack_below {s s' : Ser} {p : PObj} {st st' : St} (hb : s.mentionsBelow rank r = true)
    (h : s.preunpack p st = .ok s' st') : s'.mentionsBelow rank r = true := by
  cases s with
  | cond ser c defs =>
    obtain ⟨h, -⟩ := M.lift_ok h
    cases hc : c p with
    | error e => rw [hc] at h; cases h
    | ok x =>
      rw [hc] at h
      have h : condPick ser defs x = .ok s' := h
      unfold condPick at h
      split at h
      · cases h
      · split at h
        · cases h; simpa [Ser.mentionsBelow] using hb
        · split at h
          · cases h; simp [Ser.mentionsBelow]
          · cases h
  | selfT id => simp [Ser.mentionsBelow] at hb
  | compound id ss =>
    cases h
    split <;> simpa [Ser.mentionsBelow] using hb
  | _ =>
    simp only [Ser.preunpack, Ser.prepack] at h
    first
      | (cases h; exact hb)
      | (obtain ⟨_, _, h1, h2⟩ := M.bind_ok h; cases h2; exact hb)

theorem getSerializer_below {id : SerId} {keys : List Val} {opts : List Ser} {dflt s : Ser} {x : Val}
    {st st' : St} (h : getSerializer false id keys opts dflt x st = .ok s st')
    (ho : Ser.mentionsBelowList rank r opts = true) (hd : dflt.mentionsBelow rank r = true) : s.mentionsBelow rank r = true := by
  obtain ⟨s1, st1, h1, h⟩ := M.bind_ok h
  obtain ⟨p, st2, h2, h⟩ := M.bind_ok h
  refine preunpack_below ?_ h
  rcases unionPick_mem (M.lift_ok h1).1 with h | rfl
  · exact below_mem ho h
  · exact hd
end

section
variable {env : Env} {H r : Nat} {rank : ClassId → Nat}

theorem unpackLoop_enough {p q : Ser → Src → M (List Val)} {src : Src} : ∀ ss size,
    (∀ s src, s ∈ ss → p s src = q s src) → unpackLoop p src size ss = unpackLoop q src size ss := by
  intro ss
  induction ss with
  | nil => intro size _; rfl
  | cons s ss ih =>
    intro size h
    rw [unpackLoop, unpackLoop]
    refine M.bind_congr (h _ _ (by simp)) fun vs st st' _ => M.bind_then fun sz st st' _ => ?_
    exact M.bind_congr (ih _ fun s src hs => h _ _ (by simp [hs])) fun _ _ _ _ => rfl

theorem unpackLoopSpec_enough {p q : Ser → Src → M (List Val)} {upd : Upd} {src : Src} : ∀ ss pt done size,
    (∀ s s' pt src st st', s ∈ ss → s.preunpack pt st = .ok s' st' → p s' src = q s' src) →
    unpackLoopSpec p upd src pt done size ss = unpackLoopSpec q upd src pt done size ss := by
  intro ss
  induction ss with
  | nil => intro _ _ _ _; rfl
  | cons s ss ih =>
    intro pt done size h
    rw [unpackLoopSpec, unpackLoopSpec]
    refine M.bind_then fun s' st st' e => ?_
    refine M.bind_congr (h _ _ _ _ _ _ (by simp) e) fun vs st st' _ => M.bind_then fun p' st st' _ =>
      M.bind_then fun sz st st' _ => ?_
    exact M.bind_congr (ih _ _ _ fun s s' pt src st st' hs => h s s' pt src st st' (by simp [hs])) fun _ _ _ _ => rfl

theorem unpackItems_enough {p q : Ser → Src → M (List Val)} {item : Ser} {src : Src}
    (h : ∀ src, p item src = q item src) : ∀ k size, unpackItems p item src size k = unpackItems q item src size k := by
  intro k
  induction k with
  | zero => intro size; rfl
  | succ k ih =>
    intro size
    rw [unpackItems, unpackItems]
    exact M.bind_congr (h _) fun vs st st' _ => M.bind_then fun sz st st' _ =>
      M.bind_congr (ih _) fun _ _ _ _ => rfl

theorem unionUnpack_enough {p q : Ser → Src → M (List Val)} {id : SerId} {s : Ser} {src : Src}
    (h : p s src = q s src) : unionUnpack p id s src = unionUnpack q id s src := by
  simp only [unionUnpack, h]

theorem createUnpackWith_enough {p q : Upd → Ser → Src → M (List Val)} {cls : ClassId} {src : Src}
    (h : ∀ ci s u st st', env.classes cls = some ci → ci.serializer.preunpack ⟨cls, true, []⟩ st = .ok s st' →
      p u s src = q u s src) :
    createUnpackWith env p cls src = createUnpackWith env q cls src := by
  simp only [createUnpackWith]
  cases hc : env.classes cls with
  | none => rfl
  | some ci => exact M.bind_then fun s st st' e => M.bind_congr (h _ _ _ _ _ hc e) fun _ _ _ _ => rfl

theorem unpack_enough (hH : env.heightLe H) (hR : env.ranked rank) : ∀ n r upd s src, s.mentionsBelow rank r = true →
    r * (H + 1) + s.height ≤ n → unpack env n upd s src = unpack env (n + 1) upd s src := by
  intro n
  induction n with
  | zero => intro r upd s src _ h; have := s.height_pos; omega
  | succ n ih =>
    intro r upd s src hb h
    cases s with
    | tuple id inner =>
      rw [unpack, unpack]
      refine M.bind_then fun p st st' _ => M.bind_then fun inner' st st' e1 => ?_
      have h1 := preunpack_height e1
      simp only [Ser.mentionsBelow, Ser.height] at hb h
      split
      · rfl
      · exact M.bind_congr (ih r _ _ _ (preunpack_below hb e1) (by omega)) fun _ _ _ _ => rfl
    | structured id cls =>
      rw [unpack, unpack]
      simp only [Ser.mentionsBelow, Ser.height, decide_eq_true_eq] at hb h
      refine M.bind_congr (createUnpackWith_enough fun ci s u st st' hc e => ?_) fun _ _ _ _ => rfl
      have h1 := preunpack_height e
      have h2 := hH _ _ hc
      have h3 : (rank cls + 1) * (H + 1) ≤ r * (H + 1) := Nat.mul_le_mul_right _ hb
      rw [Nat.add_mul] at h3
      exact ih (rank cls) _ _ _ (preunpack_below (hR _ _ hc) e) (by omega)
    | unicode inner en de =>
      rw [unpack, unpack]
      simp only [Ser.mentionsBelow, Ser.height] at hb h
      exact M.bind_congr (ih r _ _ _ hb (by omega)) fun _ _ _ _ => rfl
    | array id hdr item sl =>
      rw [unpack, unpack]
      simp only [Ser.mentionsBelow, Ser.height] at hb h
      refine M.bind_then fun hv st st' _ => M.bind_then fun cd st st' _ => M.bind_then fun p st st' _ =>
        M.bind_then fun item' st st' e => ?_
      have h1 := preunpack_height e
      exact M.bind_congr (unpackItems_enough (fun src => ih r _ _ _ (preunpack_below hb e) (by omega)) _ _)
        fun _ _ _ _ => rfl
    | lookback id decider keys opts dflt =>
      rw [unpack, unpack]
      simp only [Ser.mentionsBelow, Ser.height, Bool.and_eq_true] at hb h
      refine M.bind_then fun p st st' _ => M.bind_then fun x st st' e1 => M.bind_then fun s st st' e2 => ?_
      have h1 := getSerializer_height e2
      exact unionUnpack_enough (ih r _ _ _ (getSerializer_below e2 hb.1 hb.2) (by omega))
    | lookahead id ra decider keys opts dflt =>
      rw [unpack, unpack]
      simp only [Ser.mentionsBelow, Ser.height, Bool.and_eq_true] at hb h
      refine M.bind_congr (ih r _ _ _ hb.1.1 (by omega)) fun hv st st' _ => M.bind_then fun x st st' e1 =>
        M.bind_then fun _ st st' _ => M.bind_then fun s st st' e2 => ?_
      have h1 := getSerializer_height e2
      exact unionUnpack_enough (ih r _ _ _ (getSerializer_below e2 hb.1.2 hb.2) (by omega))
    | compound id ss =>
      rw [unpack, unpack]
      simp only [Ser.mentionsBelow, Ser.height] at hb h
      refine M.bind_congr (unpackLoop_enough _ _ fun s src hs => ?_) fun _ _ _ _ => rfl
      have := height_mem hs
      exact ih r _ _ _ (below_mem hb hs) (by omega)
    | specialized id p ss =>
      rw [unpack, unpack]
      simp only [Ser.mentionsBelow, Ser.height] at hb h
      refine M.bind_congr (unpackLoopSpec_enough _ _ _ _ fun s s' pt src st st' hs e => ?_) fun _ _ _ _ => rfl
      have := height_mem hs
      have := preunpack_height e
      exact ih r _ _ _ (preunpack_below (below_mem hb hs) e) (by omega)
    | _ => rw [unpack, unpack]

end

/-- From the point where one more step changes nothing, no larger limit does. -/
theorem enough_ge {f : Nat → α} {N : Nat} (h : ∀ n, N ≤ n → f n = f (n + 1)) {n : Nat} (hn : N ≤ n) : f n = f N := by
  induction hn with
  | refl => rfl
  | step hn ih => rw [← h _ hn, ih]

end Verif
