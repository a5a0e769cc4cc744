import Verif.Proofs.InstanceLemmas
import Verif.Spec.Instances
/-
Equality of values.
-/
namespace Verif

/-! ### Numbers -/

/-- The exact value of a finite double, times `2 ^ 1075`. -/
def scaled (f : UInt64) : Int :=
  let m := f.toNat % 2 ^ 52
  let e := f.toNat / 2 ^ 52 % 2 ^ 11
  let mm : Nat := if e = 0 then m else m + 2 ^ 52
  let ee : Nat := if e = 0 then 1 else e
  (if 0x8000000000000000 ≤ f.toNat then -(mm : Int) else mm) * 2 ^ ee

def finite (f : UInt64) : Bool := f.toNat / 2 ^ 52 % 2 ^ 11 != 2047

theorem int_pow_split {a b : Nat} (h : a ≤ b) : (2 : Int) ^ b = 2 ^ (b - a) * 2 ^ a := by
  rw [← Int.pow_add]; congr 1; omega

theorem int_pow_pos (k : Nat) : (0 : Int) < 2 ^ k := Int.pow_pos (by decide)

theorem floatEqInt_iff (f : UInt64) (i : Int) : floatEqInt f i = true ↔ finite f = true ∧ scaled f = i * 2 ^ 1075 := by
  unfold floatEqInt finite scaled
  simp only [decide_eq_true_eq, bne_iff_ne, ne_eq]
  generalize f.toNat / 2 ^ 52 % 2 ^ 11 = e
  generalize f.toNat % 2 ^ 52 = m
  by_cases he : e = 2047
  · subst he; constructor
    · intro h; simp at h
    · intro h; exact absurd rfl h.1
  simp only [he, if_false, not_false_eq_true, true_and]
  generalize (if e = 0 then 1 else e) = ee
  generalize hv : (if 9223372036854775808 ≤ f.toNat then -((if e = 0 then m else m + 2 ^ 52 : Nat) : Int)
    else ((if e = 0 then m else m + 2 ^ 52 : Nat) : Int)) = v
  by_cases h : 1075 ≤ ee
  · rw [if_pos h, beq_iff_eq]
    rw [int_pow_split h, ← Int.mul_assoc]
    constructor
    · rintro rfl; rfl
    · intro hh; exact Int.eq_of_mul_eq_mul_right (Int.ne_of_gt (int_pow_pos 1075)) hh
  · rw [if_neg h, beq_iff_eq]
    have h' : ee ≤ 1075 := by omega
    rw [int_pow_split h', ← Int.mul_assoc]
    constructor
    · rintro rfl; rfl
    · intro hh; exact Int.eq_of_mul_eq_mul_right (Int.ne_of_gt (int_pow_pos ee)) hh

theorem nat_pow_lt_of {a b : Nat} (h : a < b) : 2 * 2 ^ a ≤ 2 ^ b := by
  rw [Nat.mul_comm, ← Nat.pow_succ]; exact Nat.pow_le_pow_right (by decide) h

/-- A mantissa below `2 ^ 53` times a power of two determines both, when the larger power has a full mantissa. -/
theorem mant_exp_inj {a b x y : Nat} (hx : x < 2 ^ 53) (hy : y < 2 ^ 53) (hxa : 2 ≤ a → 2 ^ 52 ≤ x) (hyb : 2 ≤ b → 2 ^ 52 ≤ y)
    (ha : 1 ≤ a) (hb : 1 ≤ b) (h : x * 2 ^ a = y * 2 ^ b) : a = b ∧ x = y := by
  have key : ∀ {a b x y : Nat}, x < 2 ^ 53 → 1 ≤ a → (2 ≤ b → 2 ^ 52 ≤ y) → x * 2 ^ a = y * 2 ^ b → ¬ a < b := by
    intro a b x y hx ha hyb h hab
    have h1 := hyb (by omega)
    have h2 : 2 ^ 53 * 2 ^ a ≤ y * 2 ^ b :=
      calc 2 ^ 53 * 2 ^ a = 2 ^ 52 * (2 * 2 ^ a) := by rw [← Nat.mul_assoc]
        _ ≤ y * 2 ^ b := Nat.mul_le_mul h1 (nat_pow_lt_of hab)
    have h3 : x * 2 ^ a < 2 ^ 53 * 2 ^ a := Nat.mul_lt_mul_of_pos_right hx (Nat.pow_pos (by decide))
    omega
  have h1 := key hx ha hyb h
  have h2 := key hy hb hxa h.symm
  have hab : a = b := by omega
  subst hab
  exact ⟨rfl, Nat.eq_of_mul_eq_mul_right (Nat.pow_pos (by decide)) h⟩

/-- Parts of a double: sign, exponent, mantissa. -/
theorem bits_split (f : UInt64) : f.toNat = (if 0x8000000000000000 ≤ f.toNat then 2 ^ 63 else 0) +
    (f.toNat / 2 ^ 52 % 2 ^ 11) * 2 ^ 52 + f.toNat % 2 ^ 52 := by
  have := f.toNat_lt
  split <;> omega

theorem isZero_parts (f : UInt64) (h1 : f.toNat / 2 ^ 52 % 2 ^ 11 = 0) (h2 : f.toNat % 2 ^ 52 = 0) : f.toNat % 2 ^ 63 = 0 := by
  omega

theorem scaled_inj {f g : UInt64} (h : scaled f = scaled g) : f = g ∨ (f.toNat % 2 ^ 63 = 0 ∧ g.toNat % 2 ^ 63 = 0) := by
  unfold scaled at h
  simp only at h
  have hf := bits_split f
  have hg := bits_split g
  have zf := isZero_parts f
  have zg := isZero_parts g
  have e1 : f.toNat / 2 ^ 52 % 2 ^ 11 < 2 ^ 11 := Nat.mod_lt _ (by decide)
  have e2 : g.toNat / 2 ^ 52 % 2 ^ 11 < 2 ^ 11 := Nat.mod_lt _ (by decide)
  have m1 : f.toNat % 2 ^ 52 < 2 ^ 52 := Nat.mod_lt _ (by decide)
  have m2 : g.toNat % 2 ^ 52 < 2 ^ 52 := Nat.mod_lt _ (by decide)
  have eqOf : f.toNat = g.toNat → f = g := UInt64.toNat_inj.mp
  generalize f.toNat / 2 ^ 52 % 2 ^ 11 = ef at *
  generalize g.toNat / 2 ^ 52 % 2 ^ 11 = eg at *
  generalize f.toNat % 2 ^ 52 = mf at *
  generalize g.toNat % 2 ^ 52 = mg at *
  -- equal magnitudes
  have habs := congrArg Int.natAbs h
  rw [Int.natAbs_mul, Int.natAbs_mul, Int.natAbs_pow, Int.natAbs_pow] at habs
  have n1 : ∀ (c : Prop) [Decidable c] (x : Nat), (if c then -(x : Int) else (x : Int)).natAbs = x := by
    intro c _ x; split <;> simp
  rw [n1, n1] at habs
  have := mant_exp_inj (x := if ef = 0 then mf else mf + 2 ^ 52) (y := if eg = 0 then mg else mg + 2 ^ 52)
    (a := if ef = 0 then 1 else ef) (b := if eg = 0 then 1 else eg)
    (by split <;> omega) (by split <;> omega) (by split <;> omega) (by split <;> omega) (by split <;> omega) (by split <;> omega) habs
  obtain ⟨h1, h2⟩ := this
  have hm : ef = eg ∧ mf = mg := by
    clear h habs zf zg hf hg eqOf n1
    by_cases c1 : ef = 0 <;> by_cases c2 : eg = 0
    · rw [if_pos c1, if_pos c2] at h2; exact ⟨by omega, h2⟩
    · rw [if_pos c1, if_neg c2] at h2; omega
    · rw [if_neg c1, if_pos c2] at h2; omega
    · rw [if_neg c1, if_neg c2] at h1 h2; exact ⟨h1, by omega⟩
  obtain ⟨rfl, rfl⟩ := hm
  have hv := Int.eq_of_mul_eq_mul_right (Int.ne_of_gt (int_pow_pos _)) h
  by_cases hz : ef = 0 ∧ mf = 0
  · exact .inr ⟨zf hz.1 hz.2, zg hz.1 hz.2⟩
  · left
    apply eqOf
    have hpos : 0 < (if ef = 0 then mf else mf + 2 ^ 52) := by
      clear h habs zf zg hf hg eqOf n1 hv
      split <;> omega
    generalize (if ef = 0 then mf else mf + 2 ^ 52) = x at hv hpos
    have hs : (0x8000000000000000 ≤ f.toNat) ↔ (0x8000000000000000 ≤ g.toNat) := by
      by_cases c1 : 0x8000000000000000 ≤ f.toNat <;> by_cases c2 : 0x8000000000000000 ≤ g.toNat
      · exact ⟨fun _ => c2, fun _ => c1⟩
      · rw [if_pos c1, if_neg c2] at hv; omega
      · rw [if_neg c1, if_pos c2] at hv; omega
      · exact ⟨fun h => absurd h c1, fun h => absurd h c2⟩
    rw [hf, hg]
    simp only [hs]

def isNaN (x : UInt64) : Bool := decide (0x7FF0000000000000 < x.toNat % 2 ^ 63)

/-- Doubles compare by value; the only value outside the finite ones that equals itself is an infinity. -/
theorem floatEq_iff (f g : UInt64) : floatEq f g = true ↔
    isNaN f = false ∧ isNaN g = false ∧ (f = g ∨ (f.toNat % 2 ^ 63 = 0 ∧ g.toNat % 2 ^ 63 = 0)) := by
  unfold floatEq
  show (!isNaN f && !isNaN g && _) = true ↔ _
  simp only [Bool.and_eq_true, Bool.not_eq_true', Bool.or_eq_true, beq_iff_eq]
  simp only [and_assoc]

theorem finite_not_nan {f : UInt64} (h : finite f = true) : isNaN f = false := by
  simp only [finite, bne_iff_ne, ne_eq] at h
  simp only [isNaN, decide_eq_false_iff_not]
  omega

theorem zero_scaled {f : UInt64} (h : f.toNat % 2 ^ 63 = 0) : finite f = true ∧ scaled f = 0 := by
  have h1 : f.toNat / 2 ^ 52 % 2 ^ 11 = 0 := by omega
  have h2 : f.toNat % 2 ^ 52 = 0 := by omega
  unfold finite scaled
  simp [h1, h2]

theorem floatEq_scaled {f g : UInt64} (h : floatEq f g = true) : finite f = finite g ∧ scaled f = scaled g := by
  obtain ⟨_, _, rfl | ⟨h1, h2⟩⟩ := (floatEq_iff f g).mp h
  · exact ⟨rfl, rfl⟩
  · rw [(zero_scaled h1).1, (zero_scaled h2).1, (zero_scaled h1).2, (zero_scaled h2).2]; exact ⟨rfl, rfl⟩

theorem floatEq_of_scaled {f g : UInt64} (hf : finite f = true) (hg : finite g = true) (h : scaled f = scaled g) : floatEq f g = true :=
  (floatEq_iff f g).mpr ⟨finite_not_nan hf, finite_not_nan hg, scaled_inj h⟩

theorem floatEq_trans {f g h : UInt64} (h1 : floatEq f g = true) (h2 : floatEq g h = true) : floatEq f h = true := by
  obtain ⟨a1, a2, a3⟩ := (floatEq_iff f g).mp h1
  obtain ⟨b1, b2, b3⟩ := (floatEq_iff g h).mp h2
  refine (floatEq_iff f h).mpr ⟨a1, b2, ?_⟩
  rcases a3 with rfl | ⟨a3, a4⟩
  · exact b3
  · rcases b3 with rfl | ⟨b3, b4⟩
    · exact .inr ⟨a3, a4⟩
    · exact .inr ⟨a3, b4⟩

theorem floatEq_symm {f g : UInt64} (h : floatEq f g = true) : floatEq g f = true := by
  obtain ⟨a1, a2, a3⟩ := (floatEq_iff f g).mp h
  exact (floatEq_iff g f).mpr ⟨a2, a1, a3.imp Eq.symm And.symm⟩

/-- The number a value stands for: an integer or a double. -/
def Val.number : Val → Option (Int ⊕ UInt64)
  | .int i => some (.inl i)
  | .bool b => some (.inl (if b then 1 else 0))
  | .float f => some (.inr f)
  | _ => Option.none

def numEq : Int ⊕ UInt64 → Int ⊕ UInt64 → Bool
  | .inl i, .inl j => i == j
  | .inl i, .inr f => floatEqInt f i
  | .inr f, .inl i => floatEqInt f i
  | .inr f, .inr g => floatEq f g

theorem keyEq_number {a b : Val} {x y : Int ⊕ UInt64} (ha : a.number = some x) (hb : b.number = some y) : a.keyEq b = numEq x y := by
  cases a <;> simp only [Val.number, Option.some.injEq, reduceCtorEq] at ha <;>
    cases b <;> simp only [Val.number, Option.some.injEq, reduceCtorEq] at hb <;> subst ha <;> subst hb <;>
    simp only [Val.keyEq, numEq]
  · rename_i b i; cases b <;> simp [Bool.beq_eq_decide_eq, eq_comm]
  · rename_i a b; cases a <;> cases b <;> rfl

theorem keyEq_number_iff {a b : Val} (h : a.keyEq b = true) : a.number.isSome = b.number.isSome := by
  cases a <;> cases b <;> simp_all [Val.keyEq, Val.number]

theorem numEq_symm {x y : Int ⊕ UInt64} (h : numEq x y = true) : numEq y x = true := by
  cases x <;> cases y <;> simp only [numEq, beq_iff_eq] at *
  · exact h.symm
  · exact h
  · exact h
  · exact floatEq_symm h

theorem numEq_trans {x y z : Int ⊕ UInt64} (h1 : numEq x y = true) (h2 : numEq y z = true) : numEq x z = true := by
  cases x <;> cases y <;> cases z <;> simp only [numEq, beq_iff_eq] at *
  · exact h1.trans h2
  · subst h1; exact h2
  · rw [floatEqInt_iff] at h1 h2
    exact Int.eq_of_mul_eq_mul_right (Int.ne_of_gt (int_pow_pos 1075)) (h1.2.symm.trans h2.2)
  · obtain ⟨e1, e2⟩ := floatEq_scaled h2
    rw [floatEqInt_iff] at h1 ⊢
    exact ⟨e1 ▸ h1.1, e2 ▸ h1.2⟩
  · subst h2; exact h1
  · rw [floatEqInt_iff] at h1 h2
    exact floatEq_of_scaled h1.1 h2.1 (h1.2.trans h2.2.symm)
  · obtain ⟨e1, e2⟩ := floatEq_scaled h1
    rw [floatEqInt_iff] at h2 ⊢
    exact ⟨e1 ▸ h2.1, e2 ▸ h2.2⟩
  · exact floatEq_trans h1 h2

/-- Neither a container, an instance, nor of a user type. -/
def Val.atom : Val → Bool
  | .list _ | .tup _ | .obj .. | .custom .. => false
  | _ => true

theorem keyEq_symm {a b : Val} (h : a.keyEq b = true) (ha : a.atom = true) : b.keyEq a = true := by
  cases hn : a.number with
  | some x =>
    have hb := keyEq_number_iff h
    rw [hn] at hb
    obtain ⟨y, hy⟩ := Option.isSome_iff_exists.mp hb.symm
    rw [keyEq_number hn hy] at h
    rw [keyEq_number hy hn]
    exact numEq_symm h
  | none => cases a <;> cases b <;> simp_all [Val.keyEq, Val.number, Val.atom]

theorem keyEq_trans {a b c : Val} (h1 : a.keyEq b = true) (h2 : b.keyEq c = true) (ha : a.atom = true) : a.keyEq c = true := by
  cases hn : a.number with
  | some x =>
    have hb := keyEq_number_iff h1
    have hc := keyEq_number_iff h2
    rw [hn] at hb
    rw [← hb] at hc
    obtain ⟨y, hy⟩ := Option.isSome_iff_exists.mp hb.symm
    obtain ⟨z, hz⟩ := Option.isSome_iff_exists.mp hc.symm
    rw [keyEq_number hn hy] at h1
    rw [keyEq_number hy hz] at h2
    rw [keyEq_number hn hz]
    exact numEq_trans h1 h2
  | none =>
    cases a <;> simp only [Val.number, reduceCtorEq] at hn <;> cases b <;>
      simp only [Val.keyEq, Bool.false_eq_true, Val.atom, beq_iff_eq] at h1 ha
    · exact h2
    · subst h1; exact h2
    · subst h1; exact h2

theorem keyEq_atom {a b : Val} (h : a.keyEq b = true) (ha : a.atom = true) : b.atom = true := by
  cases a <;> cases b <;> simp_all [Val.keyEq, Val.atom]

/-! ### `==` -/

theorem eqAttrs_true {eq : Val → Val → Except Err Bool} {as bs : List (Name × Val)} : ∀ {names : List Name},
    eqAttrs eq as bs names = .ok true ↔
      ∀ a ∈ names, ∃ v w, getAttr? as a = some v ∧ getAttr? bs a = some w ∧ eq v w = .ok true
  | [] => by simp [eqAttrs]
  | a :: names => by
    rw [eqAttrs]
    cases h1 : getAttr? as a with
    | none => simp [h1]
    | some v =>
      cases h2 : getAttr? bs a with
      | none => simp [h1, h2]
      | some w =>
        simp only [bind, Except.bind, List.mem_cons, forall_eq_or_imp]
        cases h3 : eq v w with
        | error e => simp [h1, h2, h3]
        | ok b =>
          cases b
          · simp [h1, h2, h3]
          · simp [h1, h2, h3, eqAttrs_true (names := names)]

theorem eqAttrs_false {eq : Val → Val → Except Err Bool} {as bs : List (Name × Val)} : ∀ {names : List Name},
    eqAttrs eq as bs names = .ok false →
      ∃ a ∈ names, ∃ v w, getAttr? as a = some v ∧ getAttr? bs a = some w ∧ eq v w = .ok false
  | [], h => by simp [eqAttrs] at h
  | a :: names, h => by
    rw [eqAttrs] at h
    cases h1 : getAttr? as a with
    | none => simp [h1] at h
    | some v =>
      cases h2 : getAttr? bs a with
      | none => simp [h1, h2] at h
      | some w =>
        simp only [h1, h2, bind, Except.bind] at h
        cases h3 : eq v w with
        | error e => simp [h3] at h
        | ok b =>
          cases b
          · exact ⟨a, by simp, v, w, h1, h2, h3⟩
          · simp only [h3, if_true] at h
            obtain ⟨a', ha, h⟩ := eqAttrs_false h
            exact ⟨a', by simp [ha], h⟩

theorem eqItems_map {eq eq' : Val → Val → Except Err Bool} (h : ∀ v w, eq v w = .ok true → eq' w v = .ok true) :
    ∀ {xs ys : List Val}, eqItems eq xs ys = .ok true → eqItems eq' ys xs = .ok true
  | [], [], _ => rfl
  | [], _ :: _, _ => rfl
  | _ :: _, [], _ => rfl
  | x :: xs, y :: ys, hh => by
    rw [eqItems] at hh ⊢
    simp only [bind, Except.bind] at hh ⊢
    cases h3 : eq x y with
    | error e => simp [h3] at hh
    | ok b =>
      cases b
      · simp [h3] at hh
      · simp only [h3, if_true] at hh
        simp only [h _ _ h3, if_true]
        exact eqItems_map h hh

theorem eqItems_trans {e1 e2 e3 : Val → Val → Except Err Bool}
    (h : ∀ u v w, e1 u v = .ok true → e2 v w = .ok true → e3 u w = .ok true) :
    ∀ {xs ys zs : List Val}, xs.length = ys.length → ys.length = zs.length →
    eqItems e1 xs ys = .ok true → eqItems e2 ys zs = .ok true → eqItems e3 xs zs = .ok true
  | [], [], [], _, _, _, _ => rfl
  | x :: xs, y :: ys, z :: zs, l1, l2, h1, h2 => by
    rw [eqItems] at h1 h2 ⊢
    simp only [bind, Except.bind] at h1 h2 ⊢
    cases h3 : e1 x y with
    | error e => simp [h3] at h1
    | ok b =>
      cases b
      · simp [h3] at h1
      · cases h4 : e2 y z with
        | error e => simp [h4] at h2
        | ok b =>
          cases b
          · simp [h4] at h2
          · simp only [h3, h4, if_true] at h1 h2
            simp only [h _ _ _ h3 h4, if_true]
            exact eqItems_trans h (by simpa using l1) (by simpa using l2) h1 h2
  | _ :: _, [], _, l, _, _, _ => by simp at l
  | [], _ :: _, _, l, _, _, _ => by simp at l
  | _, _ :: _, [], _, l, _, _ => by simp at l
  | _, [], _ :: _, _, l, _, _ => by simp at l

theorem pyEq_atom {env : Env} {ue : Val → Val → Except Err Bool} {n : Nat} {a b : Val} (ha : a.atom = true) (hb : b.isCustom = false) :
    pyEq env ue (n + 1) a b = .ok (a.keyEq b) := by
  rw [pyEq, if_neg (by rw [hb]; cases a <;> simp_all [Val.isCustom, Val.atom])]
  all_goals (intros; simp_all [Val.atom])

theorem pyEq_obj {env : Env} {ue : Val → Val → Except Err Bool} {n : Nat} {c d : ClassId} {b1 b2 : Option ByteOrder} {as bs : List (Name × Val)} :
    pyEq env ue (n + 1) (.obj c b1 as) (.obj d b2 bs) = (if c ≠ d then .ok false
      else match env.classes c with
        | none => .error .attributeError
        | some ci => eqAttrs (pyEq env ue n) as bs ci.attrs) := by
  rw [pyEq, if_neg (by simp [Val.isCustom])]
  rfl

theorem pyEq_list {env : Env} {ue : Val → Val → Except Err Bool} {n : Nat} {xs ys : List Val} :
    pyEq env ue (n + 1) (.list xs) (.list ys) = (if xs.length ≠ ys.length then .ok false else eqItems (pyEq env ue n) xs ys) := by
  rw [pyEq, if_neg (by simp [Val.isCustom])]

theorem pyEq_tup {env : Env} {ue : Val → Val → Except Err Bool} {n : Nat} {xs ys : List Val} :
    pyEq env ue (n + 1) (.tup xs) (.tup ys) = (if xs.length ≠ ys.length then .ok false else eqItems (pyEq env ue n) xs ys) := by
  rw [pyEq, if_neg (by simp [Val.isCustom])]

theorem pyEq_custom {env : Env} {ue : Val → Val → Except Err Bool} {n : Nat} {a b : Val} (h : (a.isCustom || b.isCustom) = true) :
    pyEq env ue (n + 1) a b = ue a b := by
  unfold pyEq
  rw [if_pos h]

/-- What two equal values can be. -/
theorem pyEq_shape {env : Env} {ue : Val → Val → Except Err Bool} {n : Nat} {a b : Val} (h : pyEq env ue (n + 1) a b = .ok true) :
    (a.isCustom || b.isCustom) = true ∨ (a.atom = true ∧ b.atom = true ∧ a.keyEq b = true) ∨
    (∃ xs ys, a = .list xs ∧ b = .list ys ∧ xs.length = ys.length ∧ eqItems (pyEq env ue n) xs ys = .ok true) ∨
    (∃ xs ys, a = .tup xs ∧ b = .tup ys ∧ xs.length = ys.length ∧ eqItems (pyEq env ue n) xs ys = .ok true) ∨
    (∃ c b1 b2 as bs ci, a = .obj c b1 as ∧ b = .obj c b2 bs ∧ env.classes c = some ci ∧ eqAttrs (pyEq env ue n) as bs ci.attrs = .ok true) := by
  by_cases hc : (a.isCustom || b.isCustom) = true
  · exact .inl hc
  · right
    simp only [Bool.or_eq_true, not_or, Bool.not_eq_true] at hc
    by_cases ha : a.atom = true
    · rw [pyEq_atom ha hc.2] at h
      have hk : a.keyEq b = true := by simpa using h
      exact .inl ⟨ha, keyEq_atom hk ha, hk⟩
    · right
      cases a with
      | list xs =>
        cases b with
        | list ys =>
          rw [pyEq_list] at h
          split at h
          · simp at h
          · rename_i hl
            exact .inl ⟨xs, ys, rfl, rfl, by simpa using hl, h⟩
        | _ => unfold pyEq at h; rw [if_neg (by simpa using hc)] at h; simp [Val.keyEq] at h
      | tup xs =>
        cases b with
        | tup ys =>
          rw [pyEq_tup] at h
          split at h
          · simp at h
          · rename_i hl
            exact .inr (.inl ⟨xs, ys, rfl, rfl, by simpa using hl, h⟩)
        | _ => unfold pyEq at h; rw [if_neg (by simpa using hc)] at h; simp [Val.keyEq] at h
      | obj c b1 as =>
        cases b with
        | obj d b2 bs =>
          rw [pyEq_obj] at h
          split at h
          · simp at h
          · rename_i hd
            have hd : c = d := by simpa using hd
            subst hd
            split at h
            · simp at h
            · rename_i ci hci
              exact .inr (.inr ⟨c, b1, b2, as, bs, ci, rfl, rfl, hci, h⟩)
        | _ => unfold pyEq at h; rw [if_neg (by simpa using hc)] at h; simp [Val.keyEq] at h
      | custom t v => simp [Val.isCustom] at hc
      | _ => simp [Val.atom] at ha

theorem pyEq_symm (env : Env) {ue : Val → Val → Except Err Bool} (hu : ∀ a b, ue a b = .ok true → ue b a = .ok true) :
    ∀ (n : Nat) (a b : Val), pyEq env ue n a b = .ok true → pyEq env ue n b a = .ok true
  | 0, _, _, h => by simp [pyEq] at h
  | n + 1, a, b, h => by
    rcases pyEq_shape h with hc | ⟨ha, hb, hk⟩ | ⟨xs, ys, rfl, rfl, hl, hi⟩ | ⟨xs, ys, rfl, rfl, hl, hi⟩ | ⟨c, b1, b2, as, bs, ci, rfl, rfl, hci, hi⟩
    · rw [pyEq_custom hc] at h
      rw [pyEq_custom (by rw [Bool.or_comm]; exact hc)]
      exact hu _ _ h
    · rw [pyEq_atom hb (by cases a <;> simp_all [Val.atom, Val.isCustom]), keyEq_symm hk ha]
    · rw [pyEq_list, if_neg (by simp [hl])]
      exact eqItems_map (pyEq_symm env hu n) hi
    · rw [pyEq_tup, if_neg (by simp [hl])]
      exact eqItems_map (pyEq_symm env hu n) hi
    · rw [pyEq_obj, if_neg (by simp), hci]
      simp only
      rw [eqAttrs_true] at hi ⊢
      intro a ha
      obtain ⟨v, w, h1, h2, h3⟩ := hi a ha
      exact ⟨w, v, h2, h1, pyEq_symm env hu n _ _ h3⟩

/-- Equality of values of user types, also with other values, is transitive. -/
def UserTrans (env : Env) (ue : Val → Val → Except Err Bool) : Prop :=
  ∀ (n : Nat) (a b c : Val), (a.isCustom || b.isCustom || c.isCustom) = true →
    pyEq env ue n a b = .ok true → pyEq env ue n b c = .ok true → pyEq env ue n a c = .ok true

theorem pyEq_trans (env : Env) {ue : Val → Val → Except Err Bool} (hu : UserTrans env ue) :
    ∀ (n : Nat) (a b c : Val), pyEq env ue n a b = .ok true → pyEq env ue n b c = .ok true → pyEq env ue n a c = .ok true
  | 0, _, _, _, h, _ => by simp [pyEq] at h
  | n + 1, a, b, c, h1, h2 => by
    by_cases hcu : (a.isCustom || b.isCustom || c.isCustom) = true
    · exact hu _ a b c hcu h1 h2
    simp only [Bool.or_eq_true, not_or, Bool.not_eq_true] at hcu
    obtain ⟨⟨ca, cb⟩, cc⟩ := hcu
    rcases pyEq_shape h1 with hc | ⟨ha, hb, hk⟩ | ⟨xs, ys, rfl, rfl, hl, hi⟩ | ⟨xs, ys, rfl, rfl, hl, hi⟩ | ⟨d, b1, b2, as, bs, ci, rfl, rfl, hci, hi⟩
    · simp [ca, cb] at hc
    · rw [pyEq_atom hb cc] at h2
      rw [pyEq_atom ha cc, keyEq_trans hk (by simpa using h2) ha]
    · rcases pyEq_shape h2 with hc | ⟨ha, _⟩ | ⟨xs', ys', e, rfl, hl', hi'⟩ | ⟨_, _, e, _⟩ | ⟨_, _, _, _, _, _, e, _⟩
      · simp [cb, cc] at hc
      · simp [Val.atom] at ha
      · cases e
        rw [pyEq_list, if_neg (by simp [hl, hl'])]
        exact eqItems_trans (fun u v w => pyEq_trans env hu n u v w) hl hl' hi hi'
      · cases e
      · cases e
    · rcases pyEq_shape h2 with hc | ⟨ha, _⟩ | ⟨_, _, e, _⟩ | ⟨xs', ys', e, rfl, hl', hi'⟩ | ⟨_, _, _, _, _, _, e, _⟩
      · simp [cb, cc] at hc
      · simp [Val.atom] at ha
      · cases e
      · cases e
        rw [pyEq_tup, if_neg (by simp [hl, hl'])]
        exact eqItems_trans (fun u v w => pyEq_trans env hu n u v w) hl hl' hi hi'
      · cases e
    · rcases pyEq_shape h2 with hc | ⟨ha, _⟩ | ⟨_, _, e, _⟩ | ⟨_, _, e, _⟩ | ⟨d', b1', b2', as', bs', ci', e, rfl, hci', hi'⟩
      · simp [cb, cc] at hc
      · simp [Val.atom] at ha
      · cases e
      · cases e
      · cases e
        rw [hci] at hci'
        cases hci'
        rw [pyEq_obj, if_neg (by simp), hci]
        simp only
        rw [eqAttrs_true] at hi hi' ⊢
        intro a ha
        obtain ⟨v, w, g1, g2, g3⟩ := hi a ha
        obtain ⟨v', w', g4, g5, g6⟩ := hi' a ha
        rw [g2] at g4
        cases g4
        exact ⟨v, w', g1, g5, pyEq_trans env hu n _ _ _ g3 g6⟩

theorem saneList_mem {env : Env} : ∀ {vs : List Val}, Val.saneList env vs = true → ∀ v ∈ vs, v.sane env = true
  | [], _, v, hv => by simp at hv
  | x :: xs, h, v, hv => by
    simp only [Val.saneList, Bool.and_eq_true] at h
    rcases List.mem_cons.mp hv with rfl | hv
    · exact h.1
    · exact saneList_mem h.2 v hv

theorem saneAttrs_mem {env : Env} : ∀ {vs : List (Name × Val)}, Val.saneAttrs env vs = true → ∀ x ∈ vs, x.2.sane env = true
  | [], _, v, hv => by simp at hv
  | x :: xs, h, v, hv => by
    simp only [Val.saneAttrs, Bool.and_eq_true] at h
    rcases List.mem_cons.mp hv with rfl | hv
    · exact h.1
    · exact saneAttrs_mem h.2 v hv

theorem depthList_mem : ∀ {vs : List Val}, ∀ v ∈ vs, v.eqDepth ≤ Val.eqDepthList vs
  | [], v, hv => by simp at hv
  | x :: xs, v, hv => by
    simp only [Val.eqDepthList]
    rcases List.mem_cons.mp hv with rfl | hv
    · omega
    · have := depthList_mem v hv; omega

theorem depthAttrs_mem : ∀ {vs : List (Name × Val)}, ∀ x ∈ vs, x.2.eqDepth ≤ Val.eqDepthAttrs vs
  | [], v, hv => by simp at hv
  | x :: xs, v, hv => by
    simp only [Val.eqDepthAttrs]
    rcases List.mem_cons.mp hv with rfl | hv
    · omega
    · have := depthAttrs_mem v hv; omega

theorem getAttr_mem {as : List (Name × Val)} {a : Name} {v : Val} (h : getAttr? as a = some v) : ∃ x ∈ as, x.2 = v := by
  simp only [getAttr?, Option.map_eq_some_iff] at h
  obtain ⟨x, h1, h2⟩ := h
  exact ⟨x, List.mem_of_find?_eq_some h1, h2⟩

theorem eqItems_refl {eq : Val → Val → Except Err Bool} : ∀ {xs : List Val}, (∀ x ∈ xs, eq x x = .ok true) → eqItems eq xs xs = .ok true
  | [], _ => rfl
  | x :: xs, h => by
    rw [eqItems]
    simp only [bind, Except.bind, h x (by simp), if_true]
    exact eqItems_refl fun y hy => h y (by simp [hy])

theorem pyEq_refl (env : Env) (ue : Val → Val → Except Err Bool) : ∀ (n : Nat) (v : Val), v.sane env = true → v.eqDepth ≤ n →
    pyEq env ue n v v = .ok true
  | 0, v, _, hd => by cases v <;> simp [Val.eqDepth] at hd
  | n + 1, v, hs, hd => by
    cases v with
    | list xs =>
      simp only [Val.sane, Val.eqDepth] at hs hd
      rw [pyEq_list, if_neg (by simp)]
      exact eqItems_refl fun x hx => pyEq_refl env ue n x (saneList_mem hs x hx) (by have := depthList_mem x hx; omega)
    | tup xs =>
      simp only [Val.sane, Val.eqDepth] at hs hd
      rw [pyEq_tup, if_neg (by simp)]
      exact eqItems_refl fun x hx => pyEq_refl env ue n x (saneList_mem hs x hx) (by have := depthList_mem x hx; omega)
    | obj c bo as =>
      simp only [Val.sane, Val.eqDepth, Bool.and_eq_true] at hs hd
      rw [pyEq_obj, if_neg (by simp)]
      cases hc : env.classes c with
      | none => rw [hc] at hs; simp at hs
      | some ci =>
        rw [hc] at hs
        simp only [List.all_eq_true] at hs
        simp only
        rw [eqAttrs_true]
        intro a ha
        obtain ⟨v, hv⟩ := Option.isSome_iff_exists.mp (hs.1 a ha)
        obtain ⟨x, hx, rfl⟩ := getAttr_mem hv
        exact ⟨x.2, x.2, hv, hv, pyEq_refl env ue n _ (saneAttrs_mem hs.2 x hx) (by have := depthAttrs_mem x hx; omega)⟩
    | custom t v => simp [Val.sane] at hs
    | gen => simp [Val.sane] at hs
    | float f =>
      simp only [Val.sane] at hs
      rw [pyEq_atom rfl rfl]
      simp [Val.keyEq, hs]
    | none => rw [pyEq_atom rfl rfl]; simp [Val.keyEq]
    | int i => rw [pyEq_atom rfl rfl]; simp [Val.keyEq]
    | bool b => rw [pyEq_atom rfl rfl]; simp [Val.keyEq]
    | bytes b => rw [pyEq_atom rfl rfl]; simp [Val.keyEq]
    | str s => rw [pyEq_atom rfl rfl]; simp [Val.keyEq]

end Verif
