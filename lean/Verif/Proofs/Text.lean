import Verif.Spec.Text
import Verif.Proofs.Enough
/-
Texts can be decoded.
-/
namespace Verif

/-! ### Digits -/

theorem decDigits_digits : ∀ (f n : Nat), (decDigits f n).all isDigit = true
  | 0, _ => rfl
  | f + 1, n => by
    unfold decDigits
    split
    · simp [isDigit]; omega
    · rw [List.all_append, decDigits_digits f]
      simp [isDigit]; omega

theorem undec_decDigits : ∀ (f n : Nat), n < f → undec (decDigits f n) = n
  | 0, _, h => by omega
  | f + 1, n, h => by
    unfold decDigits
    split
    · simp [undec]
    · have ih := undec_decDigits f (n / 10) (by omega)
      unfold undec at ih ⊢
      rw [List.foldl_append, ih]
      simp; omega

theorem decDigits_ne_nil {f n : Nat} (h : 0 < f) : decDigits f n ≠ [] := by
  cases f with
  | zero => omega
  | succ f => unfold decDigits; split <;> simp

theorem decDigits_zero : ∀ (f n : Nat), n < f → (decDigits f n).head? = some 48 → decDigits f n = [48]
  | 0, _, h, _ => by omega
  | f + 1, n, h, h0 => by
    unfold decDigits at h0 ⊢
    split
    · rename_i hn
      rw [if_pos hn] at h0
      simpa using h0
    · rename_i hn
      rw [if_neg hn] at h0
      have hne := decDigits_ne_nil (f := f) (n := n / 10) (by omega)
      have h0 : (decDigits f (n / 10)).head? = some 48 := by
        cases hd : decDigits f (n / 10) with
        | nil => exact absurd hd hne
        | cons y ys => rw [hd] at h0; simpa using h0
      have := decDigits_zero f (n / 10) (by omega) h0
      have hu := undec_decDigits f (n / 10) (by omega)
      rw [this] at hu
      simp [undec] at hu
      omega

theorem undec_lt (ds : PyStr) (h : ds.all isDigit = true) : undec ds < 10 ^ ds.length := by
  have key : ∀ (ds : PyStr) (a : Nat), ds.all isDigit = true → ds.foldl (fun a d => 10 * a + (d - 48)) a < (a + 1) * 10 ^ ds.length := by
    intro ds
    induction ds with
    | nil => intro a _; simp
    | cons d ds ih =>
      intro a h
      simp only [List.all_cons, Bool.and_eq_true, isDigit, decide_eq_true_eq] at h
      simp only [List.foldl_cons, List.length_cons]
      refine Nat.lt_of_lt_of_le (ih _ h.2) ?_
      rw [Nat.pow_succ, ← Nat.mul_assoc, Nat.mul_right_comm]
      exact Nat.mul_le_mul_right _ (by omega)
  have := key ds 0 h
  rw [Nat.zero_add, Nat.one_mul] at this
  exact this

/-- Numbers of more than `m` digits. -/
theorem intStr_long {T : Text} {i : Int} {m : Nat} (h : 10 ^ m ≤ i.natAbs) (hm : T.maxDigits = some m) : intStr T i = .error .valueError := by
  have h1 := undec_lt _ (decDigits_digits (i.natAbs + 1) i.natAbs)
  rw [undec_decDigits _ _ (by omega)] at h1
  have : m < (decDigits (i.natAbs + 1) i.natAbs).length := (Nat.pow_lt_pow_iff_right (by decide : 1 < 10)).1 (Nat.lt_of_le_of_lt h h1)
  unfold intStr
  simp only [hm, Option.any, this, decide_true, if_true]

/-! ### Literals -/

theorem unhex_hexDigit {n : Nat} (h : n < 16) : unhexDigit (hexDigit n) = n := by
  unfold hexDigit unhexDigit
  split
  · rw [if_pos (by omega)]; omega
  · rw [if_neg (by omega)]; omega

theorem unhex_hexDigits : ∀ (k n : Nat), n < 16 ^ k → unhex (hexDigits k n) = n
  | 0, n, h => by simp at h; simp [hexDigits, unhex, h]
  | k + 1, n, h => by
    have ih := unhex_hexDigits k (n / 16) (by rw [Nat.div_lt_iff_lt_mul (by decide)]; rwa [Nat.pow_succ] at h)
    unfold hexDigits
    unfold unhex at ih ⊢
    rw [List.foldl_append, ih]
    simp only [List.foldl_cons, List.foldl_nil]
    rw [unhex_hexDigit (Nat.mod_lt _ (by decide))]
    omega

theorem hexDigits_length : ∀ (k n : Nat), (hexDigits k n).length = k
  | 0, _ => rfl
  | k + 1, n => by simp [hexDigits, hexDigits_length k]

theorem unescape_plain {c : Nat} {r : PyStr} (h : c ≠ 92) : unescape (c :: r) = some (c, r) := by
  unfold unescape
  split <;> simp_all

theorem unescape_escape {shown : Nat → Bool} {q c : Nat} {r : PyStr} (hq : q = 39 ∨ q = 34) (hc : c < 2 ^ 32) :
    unescape (escape shown q c ++ r) = some (c, r) := by
  unfold escape
  by_cases h1 : c = 92 ∨ c = q
  · rw [if_pos h1]
    have : c = 92 ∨ c = 39 ∨ c = 34 := by omega
    rcases this with rfl | rfl | rfl <;> rfl
  rw [if_neg h1]
  by_cases h2 : c = 9
  · rw [if_pos h2, h2]; rfl
  rw [if_neg h2]
  by_cases h3 : c = 10
  · rw [if_pos h3, h3]; rfl
  rw [if_neg h3]
  by_cases h4 : c = 13
  · rw [if_pos h4, h4]; rfl
  rw [if_neg h4]
  by_cases h5 : 32 ≤ c ∧ c < 127
  · rw [if_pos h5]; exact unescape_plain (by omega)
  rw [if_neg h5]
  by_cases h6 : 128 ≤ c ∧ shown c = true
  · rw [if_pos h6]; exact unescape_plain (by omega)
  rw [if_neg h6]
  have key : ∀ k n, n < 16 ^ k → unhex ((hexDigits k n ++ r).take k) = n ∧ (hexDigits k n ++ r).drop k = r := by
    intro k n hn
    have hl := hexDigits_length k n
    constructor
    · rw [List.take_append_of_le_length (by omega), List.take_of_length_le (by omega), unhex_hexDigits k n hn]
    · rw [List.drop_append_of_le_length (by omega), List.drop_of_length_le (by omega), List.nil_append]
  by_cases h7 : c < 0x100
  · rw [if_pos h7]
    obtain ⟨k1, k2⟩ := key 2 c (by omega)
    show some (unhex ((hexDigits 2 c ++ r).take 2), (hexDigits 2 c ++ r).drop 2) = _
    rw [k1, k2]
  rw [if_neg h7]
  by_cases h8 : c < 0x10000
  · rw [if_pos h8]
    obtain ⟨k1, k2⟩ := key 4 c (by omega)
    show some (unhex ((hexDigits 4 c ++ r).take 4), (hexDigits 4 c ++ r).drop 4) = _
    rw [k1, k2]
  rw [if_neg h8]
  obtain ⟨k1, k2⟩ := key 8 c (by omega)
  show some (unhex ((hexDigits 8 c ++ r).take 8), (hexDigits 8 c ++ r).drop 8) = _
  rw [k1, k2]

/-- An escaped character never begins like the end of the literal. -/
theorem escape_head {shown : Nat → Bool} {q c : Nat} (hq : q = 39 ∨ q = 34) : ∃ x r, escape shown q c = x :: r ∧ x ≠ q := by
  unfold escape
  repeat' split
  all_goals first
    | exact ⟨_, _, rfl, by omega⟩
    | exact ⟨92, _, by simp only [List.cons_append, List.nil_append], by omega⟩

theorem body_inj {shown : Nat → Bool} {q : Nat} (hq : q = 39 ∨ q = 34) : ∀ (s t r1 r2 : PyStr), s.all (· < 2 ^ 32) = true → t.all (· < 2 ^ 32) = true →
    s.flatMap (escape shown q) ++ q :: r1 = t.flatMap (escape shown q) ++ q :: r2 → s = t ∧ r1 = r2
  | [], [], r1, r2, _, _, h => by simpa using h
  | [], d :: t, r1, r2, _, _, h => by
    obtain ⟨x, r, e, hx⟩ := escape_head (shown := shown) (c := d) hq
    rw [List.flatMap_cons, e] at h
    simp only [List.flatMap_nil, List.nil_append, List.cons_append, List.cons.injEq] at h
    exact absurd h.1.symm hx
  | c :: s, [], r1, r2, _, _, h => by
    obtain ⟨x, r, e, hx⟩ := escape_head (shown := shown) (c := c) hq
    rw [List.flatMap_cons, e] at h
    simp only [List.flatMap_nil, List.nil_append, List.cons_append, List.cons.injEq] at h
    exact absurd h.1 hx
  | c :: s, d :: t, r1, r2, h1, h2, h => by
    simp only [List.all_cons, Bool.and_eq_true, decide_eq_true_eq] at h1 h2
    rw [List.flatMap_cons, List.flatMap_cons, List.append_assoc, List.append_assoc] at h
    have e := congrArg unescape h
    rw [unescape_escape hq h1.1, unescape_escape hq h2.1] at e
    simp only [Option.some.injEq, Prod.mk.injEq] at e
    obtain ⟨i1, i2⟩ := body_inj hq s t r1 r2 h1.2 h2.2 e.2
    exact ⟨by rw [e.1, i1], i2⟩

theorem quoteFor_cases (s : PyStr) : quoteFor s = 39 ∨ quoteFor s = 34 := by
  unfold quoteFor; split
  · exact .inr rfl
  · exact .inl rfl

theorem quoted_inj {shown : Nat → Bool} {s t r1 r2 : PyStr} (h1 : s.all (· < 2 ^ 32) = true) (h2 : t.all (· < 2 ^ 32) = true)
    (h : quoted shown s ++ r1 = quoted shown t ++ r2) : s = t ∧ r1 = r2 := by
  unfold quoted at h
  simp only [List.cons_append, List.append_assoc, List.nil_append, List.cons.injEq] at h
  obtain ⟨hq, h⟩ := h
  rw [← hq] at h
  exact body_inj (quoteFor_cases s) s t r1 r2 h1 h2 h

theorem bytesRepr_inj {a b : Bytes} {r1 r2 : PyStr} (h : bytesRepr a ++ r1 = bytesRepr b ++ r2) : a = b ∧ r1 = r2 := by
  unfold bytesRepr at h
  simp only [List.cons_append, List.cons.injEq, true_and] at h
  have hs : ∀ a : Bytes, (a.map UInt8.toNat).all (· < 2 ^ 32) = true := by
    intro a
    simp only [List.all_map, List.all_eq_true, Function.comp, decide_eq_true_eq]
    intro x _
    have := x.toNat_lt
    omega
  obtain ⟨h1, h2⟩ := quoted_inj (hs a) (hs b) h
  refine ⟨?_, h2⟩
  exact (List.map_inj_right (fun x y hxy => UInt8.toNat_inj.1 hxy)).1 h1

theorem hexDigits_ascii : ∀ (k n : Nat), (hexDigits k n).all (fun c => decide (32 ≤ c ∧ c < 127)) = true
  | 0, _ => rfl
  | k + 1, n => by
    rw [hexDigits, List.all_append, hexDigits_ascii k]
    simp only [List.all_cons, List.all_nil, Bool.and_true, Bool.true_and, decide_eq_true_eq, hexDigit]
    split <;> omega

theorem quoted_ascii (s : PyStr) (h : ∀ c ∈ s, c < 256) : (quoted (fun _ => false) s).all (fun c => decide (32 ≤ c ∧ c < 127)) = true := by
  have hq := quoteFor_cases s
  have hq' : decide (32 ≤ quoteFor s ∧ quoteFor s < 127) = true := by rcases hq with h | h <;> rw [h] <;> rfl
  have e : ∀ c, c < 256 → (escape (fun _ => false) (quoteFor s) c).all (fun c => decide (32 ≤ c ∧ c < 127)) = true := by
    intro c hc
    unfold escape
    repeat' split
    all_goals first
      | rfl
      | (simp only [List.all_append, hexDigits_ascii]; rfl)
      | (simp only [List.all_cons, List.all_nil, Bool.and_true, Bool.and_eq_true, decide_eq_true_eq]; omega)
      | simp_all
  unfold quoted
  simp only [List.cons_append, List.all_cons, List.all_append, List.all_nil, hq', Bool.true_and, Bool.and_true]
  rw [List.all_flatMap]
  rw [List.all_eq_true]
  exact fun c hc => e c (h c hc)

/-! ### Words -/

/-- What may follow a value. -/
def Delim (r : PyStr) : Prop := ∀ c ∈ r.head?, c = 44 ∨ c = 93 ∨ c = 41 ∨ c = 62

theorem word_split {p : Nat → Bool} {a b r1 r2 : PyStr} (ha : a.all p = true) (hb : b.all p = true) (h1 : ∀ c ∈ r1.head?, p c = false)
    (h2 : ∀ c ∈ r2.head?, p c = false) (h : a ++ r1 = b ++ r2) : a = b ∧ r1 = r2 := by
  have tw : ∀ (a r : PyStr), a.all p = true → (∀ c ∈ r.head?, p c = false) → (a ++ r).takeWhile p = a := by
    intro a r ha hr
    rw [List.takeWhile_append_of_pos (fun x hx => (List.all_eq_true.1 ha) x hx)]
    cases r with
    | nil => simp
    | cons x r => rw [List.takeWhile_cons_of_neg (by simp [hr x (by simp)]), List.append_nil]
  have e : a = b := by rw [← tw a r1 ha h1, ← tw b r2 hb h2, h]
  subst e
  exact ⟨rfl, List.append_cancel_left h⟩

theorem intStr_inj {T : Text} {i j : Int} {s t r1 r2 : PyStr} (h1 : intStr T i = .ok s) (h2 : intStr T j = .ok t) (d1 : Delim r1) (d2 : Delim r2)
    (h : s ++ r1 = t ++ r2) : i = j ∧ r1 = r2 := by
  have form : ∀ {i : Int} {s : PyStr}, intStr T i = .ok s → s = (if i < 0 then 45 :: decDigits (i.natAbs + 1) i.natAbs else decDigits (i.natAbs + 1) i.natAbs) := by
    intro i s h
    unfold intStr at h
    simp only at h
    split at h
    · cases h
    · cases h; rfl
  have nd : ∀ r, Delim r → ∀ c ∈ r.head?, isDigit c = false := by
    intro r hr c hc
    have := hr c hc
    simp [isDigit]; omega
  rw [form h1, form h2] at h
  have minus : ∀ (n : Nat) (r x : PyStr), decDigits (n + 1) n ++ r = 45 :: x → False := by
    intro n r x hx
    have h3 := decDigits_digits (n + 1) n
    cases hd : decDigits (n + 1) n with
    | nil => exact decDigits_ne_nil (by omega) hd
    | cons y ys =>
      rw [hd] at hx h3
      simp only [List.cons_append, List.cons.injEq] at hx
      rw [hx.1] at h3
      simp [isDigit] at h3
  have nat : ∀ (n m : Nat), decDigits (n + 1) n ++ r1 = decDigits (m + 1) m ++ r2 → n = m ∧ r1 = r2 := by
    intro n m hnm
    obtain ⟨e1, e2⟩ := word_split (decDigits_digits _ _) (decDigits_digits _ _) (nd _ d1) (nd _ d2) hnm
    refine ⟨?_, e2⟩
    rw [← undec_decDigits (n + 1) n (by omega), e1, undec_decDigits (m + 1) m (by omega)]
  by_cases hi : i < 0 <;> by_cases hj : j < 0
  · rw [if_pos hi, if_pos hj] at h
    simp only [List.cons_append, List.cons.injEq, true_and] at h
    obtain ⟨e1, e2⟩ := nat _ _ h
    exact ⟨by omega, e2⟩
  · rw [if_pos hi, if_neg hj] at h
    exact (minus _ _ _ h.symm).elim
  · rw [if_neg hi, if_pos hj] at h
    exact (minus _ _ _ h).elim
  · rw [if_neg hi, if_neg hj] at h
    obtain ⟨e1, e2⟩ := nat _ _ h
    exact ⟨by omega, e2⟩

/-! ### Values -/

/-- What the first character of a `repr` tells. -/
def headKind (c : Nat) : Nat :=
  if c = 78 then 0 else if c = 84 then 1 else if c = 70 then 2 else if c = 45 ∨ (48 ≤ c ∧ c < 58) then 3 else if c = 98 then 4
  else if c = 39 ∨ c = 34 then 5 else if c = 91 then 6 else if c = 40 then 7 else if c = 60 then 8 else 9

def Val.kind : Val → Nat
  | .none => 0
  | .bool true => 1
  | .bool false => 2
  | .int _ => 3
  | .bytes _ => 4
  | .str _ => 5
  | .list _ => 6
  | .tup _ => 7
  | .obj .. => 8
  | _ => 9

variable {T : Text} {env : Env}

theorem intStr_head {i : Int} {s : PyStr} (h : intStr T i = .ok s) : ∃ c r, s = c :: r ∧ headKind c = 3 := by
  unfold intStr at h
  simp only at h
  split at h
  · cases h
  · cases h
    split
    · exact ⟨_, _, rfl, rfl⟩
    · have h3 := decDigits_digits (i.natAbs + 1) i.natAbs
      cases hd : decDigits (i.natAbs + 1) i.natAbs with
      | nil => exact absurd hd (decDigits_ne_nil (by omega))
      | cons y ys =>
        rw [hd] at h3
        simp only [List.all_cons, Bool.and_eq_true, isDigit, decide_eq_true_eq] at h3
        refine ⟨y, ys, rfl, ?_⟩
        unfold headKind
        repeat rw [if_neg (by omega)]
        rw [if_pos (by omega)]

theorem repr_head {v : Val} {s : PyStr} (hl : v.legible env = true) (h : v.repr T env = .ok s) : ∃ c r, s = c :: r ∧ headKind c = v.kind := by
  cases v with
  | none => cases h; exact ⟨_, _, rfl, rfl⟩
  | int i => exact intStr_head h
  | bool b => cases b <;> cases h <;> exact ⟨_, _, rfl, rfl⟩
  | float => simp [Val.legible] at hl
  | bytes b => cases h; exact ⟨_, _, rfl, rfl⟩
  | str s =>
    cases h
    refine ⟨_, _, rfl, ?_⟩
    rcases quoteFor_cases s with h | h <;> rw [h] <;> rfl
  | list vs =>
    simp only [Val.repr] at h
    obtain ⟨ss, _, h⟩ := Except.bind_ok' h
    cases h; exact ⟨_, _, rfl, rfl⟩
  | tup vs =>
    simp only [Val.repr] at h
    obtain ⟨ss, _, h⟩ := Except.bind_ok' h
    cases h; exact ⟨_, _, rfl, rfl⟩
  | obj cls bo attrs =>
    simp only [Val.repr] at h
    split at h
    · cases h
    · obtain ⟨ss, _, h⟩ := Except.bind_ok' h
      cases h; exact ⟨_, _, rfl, rfl⟩
  | custom => simp [Val.legible] at hl
  | gen => simp [Val.legible] at hl

/-- The texts of the fields, when the object has exactly its fields. -/
def fieldTexts (T : Text) (env : Env) : List (Name × Val) → Except Err (List PyStr)
  | [] => .ok []
  | (a, v) :: as => do
    let s ← v.fmt T env
    let r ← fieldTexts T env as
    .ok ((text a ++ text "=" ++ s) :: r)

theorem fmtAttrs_find : ∀ (as : List (Name × Val)) (a : Name), ((Val.fmtAttrs T env as).find? (fun p => p.1 == a)).map (·.2) = (getAttr? as a).map (Val.fmt T env)
  | [], a => rfl
  | (b, v) :: as, a => by
    simp only [Val.fmtAttrs, getAttr?, List.find?_cons]
    by_cases h : b == a
    · simp [h]
    · simp only [h]
      exact fmtAttrs_find as a

theorem showFields_all (all : List (Name × Val)) : ∀ (as : List (Name × Val)), (∀ a v, (a, v) ∈ as → getAttr? all a = some v) →
    showFields (Val.fmtAttrs T env all) (as.map Prod.fst) = fieldTexts T env as
  | [], _ => rfl
  | (a, v) :: as, h => by
    simp only [List.map_cons, showFields, fieldTexts]
    rw [fmtAttrs_find, h a v (by simp)]
    simp only [Option.map]
    rw [showFields_all all as (fun b w hb => h b w (by simp [hb]))]

theorem getAttr_of_nodup : ∀ {as : List (Name × Val)}, (as.map Prod.fst).Nodup → ∀ a v, (a, v) ∈ as → getAttr? as a = some v
  | [], _, a, v, h => by simp at h
  | (b, w) :: as, hn, a, v, h => by
    simp only [List.map_cons, List.nodup_cons] at hn
    rcases List.mem_cons.1 h with h | h
    · cases h; simp [getAttr?]
    · have hne : b ≠ a := by
        rintro rfl
        exact hn.1 (List.mem_map.2 ⟨_, h, rfl⟩)
      have := getAttr_of_nodup hn.2 a v h
      simpa [getAttr?, List.find?_cons, hne] using this

theorem obj_fmt (hn : ∀ c ci, env.classes c = some ci → ci.attrs.Nodup) {cls : ClassId} {bo : Option ByteOrder} {attrs : List (Name × Val)}
    (hl : (Val.obj cls bo attrs).legible env = true) : ∃ ci, env.classes cls = some ci ∧ ci.attrs = attrs.map Prod.fst ∧ bo = Option.none ∧ Val.legibleAttrs env attrs = true ∧
      (Val.obj cls bo attrs).fmt T env = (do .ok (T.className cls ++ text "(" ++ joinComma (← fieldTexts T env attrs) ++ text ")")) ∧
      (Val.obj cls bo attrs).repr T env = (do .ok (text "<" ++ (T.className cls ++ text "(" ++ joinComma (← fieldTexts T env attrs) ++ text ")") ++ text ">")) := by
  simp only [Val.legible, Bool.and_eq_true, Option.isNone_iff_eq_none] at hl
  cases hc : env.classes cls with
  | none => rw [hc] at hl; simp at hl
  | some ci =>
    rw [hc] at hl
    simp only [beq_iff_eq] at hl
    have hnd := hn _ _ hc
    rw [hl.1.2] at hnd
    have e : showFields (Val.fmtAttrs T env attrs) ci.attrs = fieldTexts T env attrs := by
      rw [hl.1.2]; exact showFields_all attrs attrs (getAttr_of_nodup hnd)
    refine ⟨ci, rfl, hl.1.2, hl.1.1, hl.2, ?_, ?_⟩
    · simp only [Val.fmt, hc, e]
    · simp only [Val.repr, hc, e]

/-- Where a list of items ends. -/
def Ender (e : PyStr) : Prop := (∃ r, e = 93 :: r) ∨ (∃ r, e = 41 :: r) ∨ ∃ r, e = 44 :: 41 :: r

theorem Ender.delim {e : PyStr} (h : Ender e) : Delim e := by
  rcases h with ⟨r, rfl⟩ | ⟨r, rfl⟩ | ⟨r, rfl⟩ <;> simp [Delim]

theorem joinComma_cons {s : PyStr} {ss : List PyStr} (e : PyStr) :
    joinComma (s :: ss) ++ e = s ++ (match ss with | [] => e | _ => 44 :: 32 :: (joinComma ss ++ e)) := by
  cases ss with
  | nil => rfl
  | cons t ts =>
    simp only [joinComma, List.append_assoc]
    rfl

theorem ender_not_repr {v : Val} {s r e : PyStr} (hl : v.legible env = true) (h : v.repr T env = .ok s) (he : Ender e) : s ++ r ≠ e := by
  obtain ⟨c, t, rfl, hc⟩ := repr_head hl h
  intro heq
  have : c = 93 ∨ c = 41 ∨ c = 44 := by
    rcases he with ⟨x, rfl⟩ | ⟨x, rfl⟩ | ⟨x, rfl⟩ <;> simp only [List.cons_append, List.cons.injEq] at heq <;> simp [heq.1]
  have hk : headKind c = 9 := by rcases this with rfl | rfl | rfl <;> rfl
  rw [hk] at hc
  cases v <;> first | (cases hc; done) | (rename_i b; cases b <;> cases hc; done) | simp [Val.legible] at hl

/-- The text of `v`, as `repr` gives it, is not the beginning of another one's. -/
def ReprInj (T : Text) (env : Env) (v : Val) : Prop := ∀ w s t r1 r2, v.legible env = true → w.legible env = true → v.repr T env = .ok s →
  w.repr T env = .ok t → Delim r1 → Delim r2 → s ++ r1 = t ++ r2 → v = w ∧ r1 = r2

def FmtInj (T : Text) (env : Env) (v : Val) : Prop := ∀ w s t r1 r2, v.legible env = true → w.legible env = true →
  (∀ x, v ≠ .str x) → (∀ x, w ≠ .str x) → v.fmt T env = .ok s → w.fmt T env = .ok t → Delim r1 → Delim r2 → s ++ r1 = t ++ r2 → v = w ∧ r1 = r2

def ListInj (T : Text) (env : Env) (vs : List Val) : Prop := ∀ ws ss ts e1 e2, Val.legibleList env vs = true → Val.legibleList env ws = true →
  Val.reprList T env vs = .ok ss → Val.reprList T env ws = .ok ts → Ender e1 → Ender e2 → joinComma ss ++ e1 = joinComma ts ++ e2 → vs = ws ∧ e1 = e2

def AttrsInj (T : Text) (env : Env) (as : List (Name × Val)) : Prop := ∀ bs ss ts r1 r2, Val.legibleAttrs env as = true → Val.legibleAttrs env bs = true →
  as.map Prod.fst = bs.map Prod.fst → fieldTexts T env as = .ok ss → fieldTexts T env bs = .ok ts →
  joinComma ss ++ 41 :: r1 = joinComma ts ++ 41 :: r2 → as = bs ∧ r1 = r2

theorem list_cons {v : Val} {vs : List Val} (hv : ReprInj T env v) (hvs : ListInj T env vs) : ListInj T env (v :: vs) := by
  intro ws ss ts e1 e2 l1 l2 h1 h2 n1 n2 h
  simp only [Val.reprList] at h1
  obtain ⟨s, g1, h1⟩ := Except.bind_ok' h1
  obtain ⟨ss, g2, h1⟩ := Except.bind_ok' h1
  cases h1
  simp only [Val.legibleList, Bool.and_eq_true] at l1
  cases ws with
  | nil =>
    cases h2
    rw [joinComma_cons] at h
    exact absurd h (ender_not_repr l1.1 g1 n2)
  | cons w ws =>
    simp only [Val.reprList] at h2
    obtain ⟨t, g3, h2⟩ := Except.bind_ok' h2
    obtain ⟨ts, g4, h2⟩ := Except.bind_ok' h2
    cases h2
    simp only [Val.legibleList, Bool.and_eq_true] at l2
    rw [joinComma_cons, joinComma_cons] at h
    have dl : ∀ (xs : List PyStr) (e : PyStr), Ender e → Delim (match xs with | [] => e | _ => 44 :: 32 :: (joinComma xs ++ e)) := by
      intro xs e he
      cases xs with
      | nil => exact he.delim
      | cons => simp [Delim]
    obtain ⟨rfl, h⟩ := hv w s t _ _ l1.1 l2.1 g1 g3 (dl ss e1 n1) (dl ts e2 n2) h
    have ls : ∀ (vs : List Val) (xs : List PyStr), Val.reprList T env vs = .ok xs → xs = [] → vs = [] := by
      intro vs xs hx he
      cases vs with
      | nil => rfl
      | cons v vs =>
        simp only [Val.reprList] at hx
        obtain ⟨_, _, hx⟩ := Except.bind_ok' hx
        obtain ⟨_, _, hx⟩ := Except.bind_ok' hx
        cases hx; cases he
    have ne : ∀ (e x : PyStr), Ender e → e ≠ 44 :: 32 :: x := by
      rintro e x (⟨r, rfl⟩ | ⟨r, rfl⟩ | ⟨r, rfl⟩) hx <;> simp at hx
    cases ss with
    | nil =>
      cases ts with
      | nil => exact ⟨by rw [ls vs [] g2 rfl, ls ws [] g4 rfl], h⟩
      | cons => exact absurd h (ne _ _ n1)
    | cons =>
      cases ts with
      | nil => exact absurd h.symm (ne _ _ n2)
      | cons =>
        simp only [List.cons.injEq, true_and] at h
        obtain ⟨rfl, h⟩ := hvs ws _ _ e1 e2 l1.2 l2.2 g2 g4 n1 n2 h
        exact ⟨rfl, h⟩

theorem attrs_cons {a : Name} {v : Val} {as : List (Name × Val)} (hv : FmtInj T env v) (has : AttrsInj T env as) : AttrsInj T env ((a, v) :: as) := by
  intro bs ss ts r1 r2 l1 l2 hn h1 h2 h
  cases bs with
  | nil => simp at hn
  | cons bw bs =>
    obtain ⟨b, w⟩ := bw
    simp only [List.map_cons, List.cons.injEq] at hn
    obtain ⟨rfl, hn⟩ := hn
    simp only [fieldTexts] at h1 h2
    obtain ⟨s, g1, h1⟩ := Except.bind_ok' h1
    obtain ⟨ss, g2, h1⟩ := Except.bind_ok' h1
    cases h1
    obtain ⟨t, g3, h2⟩ := Except.bind_ok' h2
    obtain ⟨ts, g4, h2⟩ := Except.bind_ok' h2
    cases h2
    simp only [Val.legibleAttrs, Bool.and_eq_true] at l1 l2
    rw [joinComma_cons, joinComma_cons, List.append_assoc, List.append_assoc, List.append_assoc, List.append_assoc] at h
    have h := List.append_cancel_left (List.append_cancel_left h)
    have dl : ∀ (xs : List PyStr) (r : PyStr), Delim (match xs with | [] => 41 :: r | _ => 44 :: 32 :: (joinComma xs ++ 41 :: r)) := by
      intro xs e
      cases xs <;> simp [Delim]
    obtain ⟨rfl, h⟩ := hv w s t _ _ l1.1.1 l2.1.1 (by rintro x rfl; simp at l1) (by rintro x rfl; simp at l2) g1 g3 (dl ss r1) (dl ts r2) h
    have ls : ∀ (vs : List (Name × Val)) (xs : List PyStr), fieldTexts T env vs = .ok xs → (xs = [] ↔ vs = []) := by
      intro vs xs hx
      cases vs with
      | nil => cases hx; simp
      | cons v vs =>
        simp only [fieldTexts] at hx
        obtain ⟨_, _, hx⟩ := Except.bind_ok' hx
        obtain ⟨_, _, hx⟩ := Except.bind_ok' hx
        cases hx; simp
    have hsame : ss = [] ↔ ts = [] := by
      rw [ls as ss g2, ls bs ts g4]
      constructor
      · rintro rfl; simpa using hn.symm
      · rintro rfl; simpa using hn
    cases ss with
    | nil =>
      have := hsame.1 rfl
      subst this
      have e1 := (ls _ _ g2).1 rfl
      have e2 := (ls _ _ g4).1 rfl
      simp only [List.cons.injEq, true_and] at h
      exact ⟨by rw [e1, e2], h⟩
    | cons =>
      cases ts with
      | nil => have := hsame.2 rfl; cases this
      | cons =>
        simp only [List.cons.injEq, true_and] at h
        obtain ⟨rfl, h⟩ := has bs _ _ r1 r2 l1.2 l2.2 hn g2 g4 h
        exact ⟨rfl, h⟩

theorem obj_inj (hT : T.named) {c d : ClassId} {as bs : List (Name × Val)} {ci ci' : ClassInfo}
    (hci : env.classes c = some ci) (hci' : env.classes d = some ci') (n1 : ci.attrs = as.map Prod.fst) (n2 : ci'.attrs = bs.map Prod.fst)
    (l1 : Val.legibleAttrs env as = true) (l2 : Val.legibleAttrs env bs = true) (has : AttrsInj T env as) {ss ts : List PyStr} {r1 r2 : PyStr}
    (h1 : fieldTexts T env as = .ok ss) (h2 : fieldTexts T env bs = .ok ts)
    (h : (T.className c ++ text "(" ++ joinComma ss ++ text ")") ++ r1 = (T.className d ++ text "(" ++ joinComma ts ++ text ")") ++ r2) :
    c = d ∧ as = bs ∧ r1 = r2 := by
  simp only [List.append_assoc] at h
  have par : ∀ (x : PyStr), ∀ c ∈ (text "(" ++ x).head?, identChar c = false := by
    intro x c hc
    have : c = 40 := by simpa [text] using hc.symm
    subst this; rfl
  obtain ⟨e, hh⟩ := word_split (p := identChar) (hT.1 c).2.1 (hT.1 d).2.1 (par _) (par _) h
  have e := hT.2 _ _ e
  subst e
  rw [hci] at hci'
  cases hci'
  obtain ⟨e1, e2⟩ := has bs ss ts r1 r2 l1 l2 (n1.symm.trans n2) h1 h2 (List.append_cancel_left (as := text "(") hh)
  exact ⟨rfl, e1, e2⟩

theorem Delim.not_paren {r x : PyStr} (h : Delim r) : r ≠ 40 :: x := by
  rintro rfl
  have := h 40 (by simp)
  omega

theorem Delim.not_ident {r : PyStr} (h : Delim r) : ∀ c ∈ r.head?, identChar c = false := by
  intro c hc
  rcases h c hc with rfl | rfl | rfl | rfl <;> rfl

theorem kind_eq {v w : Val} {s t r1 r2 : PyStr} (l1 : v.legible env = true) (l2 : w.legible env = true) (h1 : v.repr T env = .ok s)
    (h2 : w.repr T env = .ok t) (h : s ++ r1 = t ++ r2) : v.kind = w.kind := by
  obtain ⟨c, x, rfl, hc⟩ := repr_head l1 h1
  obtain ⟨d, y, rfl, hd⟩ := repr_head l2 h2
  simp only [List.cons_append, List.cons.injEq] at h
  rw [← hc, ← hd, h.1]

theorem seq_inj {vs ws : List Val} (hvs : ListInj T env vs) {ss ts : List PyStr} {r1 r2 : PyStr} (l1 : Val.legibleList env vs = true)
    (l2 : Val.legibleList env ws = true) (h1 : Val.reprList T env vs = .ok ss) (h2 : Val.reprList T env ws = .ok ts)
    (h : joinComma ss ++ (text (if ss.length = 1 then ",)" else ")") ++ r1) = joinComma ts ++ (text (if ts.length = 1 then ",)" else ")") ++ r2)) :
    vs = ws ∧ r1 = r2 := by
  have en : ∀ (xs : List PyStr) (r : PyStr), Ender (text (if xs.length = 1 then ",)" else ")") ++ r) := by
    intro xs r
    split
    · exact .inr (.inr ⟨r, rfl⟩)
    · exact .inr (.inl ⟨r, rfl⟩)
  obtain ⟨rfl, e⟩ := hvs ws ss ts _ _ l1 l2 h1 h2 (en _ _) (en _ _) h
  rw [h1] at h2
  cases h2
  exact ⟨rfl, List.append_cancel_left e⟩

theorem plain_inj {v : Val} (hno : v.kind ≠ 8) (hl : ∀ vs, v = .list vs ∨ v = .tup vs → ListInj T env vs) : ReprInj T env v := by
  intro w s t r1 r2 l1 l2 h1 h2 d1 d2 h
  have hk := kind_eq l1 l2 h1 h2 h
  cases v with
  | none =>
    cases w <;> first | (cases hk; done) | (rename_i b; cases b <;> cases hk; done) | skip
    cases h1; cases h2
    exact ⟨rfl, List.append_cancel_left h⟩
  | int i =>
    cases w <;> first | (cases hk; done) | (rename_i b; cases b <;> cases hk; done) | skip
    obtain ⟨rfl, e⟩ := intStr_inj h1 h2 d1 d2 h
    exact ⟨rfl, e⟩
  | bool b =>
    cases w with
    | bool c =>
      cases b <;> cases c <;> first | (cases hk; done) | skip
      all_goals
        cases h1; cases h2
        exact ⟨rfl, List.append_cancel_left h⟩
    | _ => cases b <;> first | (cases hk; done) | (simp [Val.legible] at l2; done)
  | float => simp [Val.legible] at l1
  | bytes b =>
    cases w <;> first | (cases hk; done) | (rename_i b; cases b <;> cases hk; done) | skip
    cases h1; cases h2
    obtain ⟨rfl, e⟩ := bytesRepr_inj h
    exact ⟨rfl, e⟩
  | str x =>
    cases w <;> first | (cases hk; done) | (rename_i b; cases b <;> cases hk; done) | skip
    cases h1; cases h2
    simp only [Val.legible] at l1 l2
    obtain ⟨rfl, e⟩ := quoted_inj (by simpa using l1) (by simpa using l2) h
    exact ⟨rfl, e⟩
  | list vs =>
    cases w <;> first | (cases hk; done) | (rename_i b; cases b <;> cases hk; done) | skip
    rename_i ws
    simp only [Val.repr] at h1 h2
    obtain ⟨ss, g1, h1⟩ := Except.bind_ok' h1
    obtain ⟨ts, g2, h2⟩ := Except.bind_ok' h2
    cases h1; cases h2
    simp only [List.append_assoc] at h
    have h := List.append_cancel_left h
    simp only [Val.legible] at l1 l2
    obtain ⟨rfl, e⟩ := hl vs (.inl rfl) ws ss ts _ _ l1 l2 g1 g2 (.inl ⟨r1, rfl⟩) (.inl ⟨r2, rfl⟩) h
    exact ⟨rfl, by simpa using e⟩
  | tup vs =>
    cases w <;> first | (cases hk; done) | (rename_i b; cases b <;> cases hk; done) | skip
    rename_i ws
    simp only [Val.repr] at h1 h2
    obtain ⟨ss, g1, h1⟩ := Except.bind_ok' h1
    obtain ⟨ts, g2, h2⟩ := Except.bind_ok' h2
    cases h1; cases h2
    simp only [List.append_assoc] at h
    have h := List.append_cancel_left h
    simp only [Val.legible] at l1 l2
    obtain ⟨rfl, e⟩ := seq_inj (hl vs (.inr rfl)) l1 l2 g1 g2 h
    exact ⟨rfl, e⟩
  | obj => exact absurd rfl hno
  | custom => simp [Val.legible] at l1
  | gen => simp [Val.legible] at l1

theorem objRepr_inj (hT : T.named) (hn : ∀ c ci, env.classes c = some ci → ci.attrs.Nodup) {c : ClassId} {bo : Option ByteOrder} {as : List (Name × Val)}
    (has : AttrsInj T env as) : ReprInj T env (.obj c bo as) := by
  intro w s t r1 r2 l1 l2 h1 h2 d1 d2 h
  have hk := kind_eq l1 l2 h1 h2 h
  cases w <;> first | (cases hk; done) | (rename_i b; cases b <;> cases hk; done) | skip
  rename_i d bo' bs
  obtain ⟨ci, a1, a2, rfl, a4, -, a6⟩ := obj_fmt (T := T) hn l1
  obtain ⟨ci', b1, b2, rfl, b4, -, b6⟩ := obj_fmt (T := T) hn l2
  rw [a6] at h1
  rw [b6] at h2
  obtain ⟨ss, g1, h1⟩ := Except.bind_ok' h1
  obtain ⟨ts, g2, h2⟩ := Except.bind_ok' h2
  cases h1; cases h2
  have h : (T.className c ++ text "(" ++ joinComma ss ++ text ")") ++ (text ">" ++ r1) =
      (T.className d ++ text "(" ++ joinComma ts ++ text ")") ++ (text ">" ++ r2) := by
    simp only [List.append_assoc] at h ⊢
    exact List.append_cancel_left h
  obtain ⟨rfl, rfl, e⟩ := obj_inj hT a1 b1 a2 b2 a4 b4 has g1 g2 h
  exact ⟨rfl, List.append_cancel_left e⟩

theorem fmt_eq_repr {v : Val} (h : v.legible env = true) (hs : ∀ x, v ≠ .str x) (hk : v.kind ≠ 8) : v.fmt T env = v.repr T env := by
  cases v with
  | str x => exact absurd rfl (hs x)
  | obj => exact absurd rfl hk
  | float | custom | gen => simp [Val.legible] at h
  | _ => simp only [Val.fmt, Val.repr]

/-- The text of an object is not the text of anything else. -/
theorem obj_not_plain (hT : T.named) {c : ClassId} {x : PyStr} {w : Val} {t r2 : PyStr} (l2 : w.legible env = true) (hs : ∀ x, w ≠ .str x) (hk : w.kind ≠ 8)
    (h2 : w.repr T env = .ok t) (d2 : Delim r2) : T.className c ++ 40 :: x ≠ t ++ r2 := by
  intro h
  obtain ⟨hne, hid, hhd⟩ := hT.1 c
  have word : ∀ (y : PyStr), t = y → y.all identChar = true → False := by
    rintro y rfl hy
    obtain ⟨_, e⟩ := word_split (p := identChar) hid hy (by intro c hc; simp at hc; subst hc; rfl) d2.not_ident h
    exact d2.not_paren e.symm
  have first : ∀ (a : Nat) (y : PyStr), t = a :: y → identChar a = false ∨ (48 ≤ a ∧ a < 58) → False := by
    rintro a y rfl ha
    cases hc : T.className c with
    | nil => exact hne hc
    | cons z zs =>
      rw [hc] at h hid hhd
      simp only [List.cons_append, List.cons.injEq] at h
      simp only [List.all_cons, Bool.and_eq_true] at hid
      rcases ha with ha | ha
      · rw [h.1, ha] at hid; simp at hid
      · exact hhd z (by simp) (by rw [h.1]; exact ha)
  cases w with
  | none => cases h2; exact word _ rfl rfl
  | int i =>
    obtain ⟨a, y, rfl, ha⟩ := intStr_head h2
    refine first a y rfl ?_
    unfold headKind at ha
    by_cases hh : a = 45 ∨ (48 ≤ a ∧ a < 58)
    · rcases hh with rfl | hh
      · exact .inl rfl
      · exact .inr hh
    · simp only [if_neg hh] at ha
      repeat' split at ha
      all_goals omega
  | bool b => cases b <;> cases h2 <;> exact word _ rfl rfl
  | float => simp [Val.legible] at l2
  | bytes b =>
    cases h2
    have e : bytesRepr b ++ r2 = [98] ++ (quoted (fun _ => false) (b.map UInt8.toNat) ++ r2) := rfl
    rw [e] at h
    have q : ∀ s : PyStr, ∃ z, quoted (fun _ => false) s ++ r2 = 39 :: z ∨ quoted (fun _ => false) s ++ r2 = 34 :: z := by
      intro s
      rcases quoteFor_cases s with hq | hq <;> simp [quoted, hq]
    obtain ⟨z, hz⟩ := q (b.map UInt8.toNat)
    obtain ⟨_, e⟩ := word_split (p := identChar) hid (b := [98]) rfl (by intro c hc; simp at hc; subst hc; rfl)
      (by intro c hc; rcases hz with hz | hz <;> rw [hz] at hc <;> simp at hc <;> subst hc <;> rfl) h
    rcases hz with hz | hz <;> rw [hz] at e <;> simp at e
  | str x => exact hs x rfl
  | list vs =>
    simp only [Val.repr] at h2
    obtain ⟨ss, _, h2⟩ := Except.bind_ok' h2
    cases h2; exact first 91 _ rfl (.inl rfl)
  | tup vs =>
    simp only [Val.repr] at h2
    obtain ⟨ss, _, h2⟩ := Except.bind_ok' h2
    cases h2; exact first 40 _ rfl (.inl rfl)
  | obj => exact hk rfl
  | custom => simp [Val.legible] at l2
  | gen => simp [Val.legible] at l2

theorem kind_obj {v : Val} (h : v.kind = 8) : ∃ c bo as, v = .obj c bo as := by
  cases v with
  | obj c bo as => exact ⟨c, bo, as, rfl⟩
  | bool b => cases b <;> cases h
  | _ => cases h

theorem objFmt_inj (hT : T.named) (hn : ∀ c ci, env.classes c = some ci → ci.attrs.Nodup) {c : ClassId} {bo : Option ByteOrder} {as : List (Name × Val)}
    (has : AttrsInj T env as) : FmtInj T env (.obj c bo as) := by
  intro w s t r1 r2 l1 l2 _ hs h1 h2 d1 d2 h
  obtain ⟨ci, a1, a2, rfl, a4, a5, -⟩ := obj_fmt (T := T) hn l1
  rw [a5] at h1
  obtain ⟨ss, g1, h1⟩ := Except.bind_ok' h1
  cases h1
  by_cases hk : w.kind = 8
  · obtain ⟨d, bo', bs, rfl⟩ := kind_obj hk
    obtain ⟨ci', b1, b2, rfl, b4, b5, -⟩ := obj_fmt (T := T) hn l2
    rw [b5] at h2
    obtain ⟨ts, g2, h2⟩ := Except.bind_ok' h2
    cases h2
    obtain ⟨rfl, rfl, e⟩ := obj_inj hT a1 b1 a2 b2 a4 b4 has g1 g2 h
    exact ⟨rfl, e⟩
  · rw [fmt_eq_repr l2 hs hk] at h2
    simp only [List.append_assoc] at h
    exact absurd h (obj_not_plain hT l2 hs hk h2 d2)

theorem plainFmt_inj (hT : T.named) (hn : ∀ c ci, env.classes c = some ci → ci.attrs.Nodup) {v : Val} (hk : v.kind ≠ 8) (hv : ReprInj T env v) : FmtInj T env v := by
  intro w s t r1 r2 l1 l2 hs1 hs2 h1 h2 d1 d2 h
  rw [fmt_eq_repr l1 hs1 hk] at h1
  by_cases hk' : w.kind = 8
  · obtain ⟨d, bo', bs, rfl⟩ := kind_obj hk'
    obtain ⟨ci', b1, b2, rfl, b4, b5, -⟩ := obj_fmt (T := T) hn l2
    rw [b5] at h2
    obtain ⟨ts, g2, h2⟩ := Except.bind_ok' h2
    cases h2
    simp only [List.append_assoc] at h
    exact absurd h.symm (obj_not_plain hT l1 hs1 hk h1 d1)
  · rw [fmt_eq_repr l2 hs2 hk'] at h2
    exact hv w s t r1 r2 l1 l2 h1 h2 d1 d2 h

theorem list_nil : ListInj T env [] := by
  intro ws ss ts e1 e2 l1 l2 h1 h2 n1 n2 h
  cases h1
  cases ws with
  | nil => cases h2; exact ⟨rfl, h⟩
  | cons w ws =>
    simp only [Val.reprList] at h2
    obtain ⟨t, g3, h2⟩ := Except.bind_ok' h2
    obtain ⟨ts, g4, h2⟩ := Except.bind_ok' h2
    cases h2
    simp only [Val.legibleList, Bool.and_eq_true] at l2
    rw [joinComma_cons] at h
    exact absurd h.symm (ender_not_repr l2.1 g3 n1)

theorem attrs_nil : AttrsInj T env [] := by
  intro bs ss ts r1 r2 l1 l2 hn h1 h2 h
  cases bs with
  | nil => cases h1; cases h2; simpa using h
  | cons => simp at hn

section
variable (hT : T.named) (hn : ∀ c ci, env.classes c = some ci → ci.attrs.Nodup)
include hT hn

mutual
theorem repr_inj : ∀ v : Val, ReprInj T env v
  | .none => plain_inj (by simp [Val.kind]) (by rintro vs (h | h) <;> cases h)
  | .int i => plain_inj (by simp [Val.kind]) (by rintro vs (h | h) <;> cases h)
  | .bool b => plain_inj (by cases b <;> simp [Val.kind]) (by rintro vs (h | h) <;> cases h)
  | .float f => plain_inj (by simp [Val.kind]) (by rintro vs (h | h) <;> cases h)
  | .bytes b => plain_inj (by simp [Val.kind]) (by rintro vs (h | h) <;> cases h)
  | .str x => plain_inj (by simp [Val.kind]) (by rintro vs (h | h) <;> cases h)
  | .list vs => by
    have := reprList_inj vs
    exact plain_inj (by simp [Val.kind]) (by rintro ws (h | h) <;> cases h; exact this)
  | .tup vs => by
    have := reprList_inj vs
    exact plain_inj (by simp [Val.kind]) (by rintro ws (h | h) <;> cases h; exact this)
  | .obj c bo as => objRepr_inj hT hn (attrs_inj as)
  | .custom t v => plain_inj (by simp [Val.kind]) (by rintro vs (h | h) <;> cases h)
  | .gen => plain_inj (by simp [Val.kind]) (by rintro vs (h | h) <;> cases h)
theorem fmt_inj : ∀ v : Val, FmtInj T env v
  | .none => plainFmt_inj hT hn (by simp [Val.kind]) (plain_inj (by simp [Val.kind]) (by rintro vs (h | h) <;> cases h))
  | .int i => plainFmt_inj hT hn (by simp [Val.kind]) (plain_inj (by simp [Val.kind]) (by rintro vs (h | h) <;> cases h))
  | .bool b => plainFmt_inj hT hn (by cases b <;> simp [Val.kind]) (plain_inj (by cases b <;> simp [Val.kind]) (by rintro vs (h | h) <;> cases h))
  | .float f => plainFmt_inj hT hn (by simp [Val.kind]) (plain_inj (by simp [Val.kind]) (by rintro vs (h | h) <;> cases h))
  | .bytes b => plainFmt_inj hT hn (by simp [Val.kind]) (plain_inj (by simp [Val.kind]) (by rintro vs (h | h) <;> cases h))
  | .str x => plainFmt_inj hT hn (by simp [Val.kind]) (plain_inj (by simp [Val.kind]) (by rintro vs (h | h) <;> cases h))
  | .list vs => by
    have := reprList_inj vs
    exact plainFmt_inj hT hn (by simp [Val.kind]) (plain_inj (by simp [Val.kind]) (by rintro ws (h | h) <;> cases h; exact this))
  | .tup vs => by
    have := reprList_inj vs
    exact plainFmt_inj hT hn (by simp [Val.kind]) (plain_inj (by simp [Val.kind]) (by rintro ws (h | h) <;> cases h; exact this))
  | .obj c bo as => objFmt_inj hT hn (attrs_inj as)
  | .custom t v => plainFmt_inj hT hn (by simp [Val.kind]) (plain_inj (by simp [Val.kind]) (by rintro vs (h | h) <;> cases h))
  | .gen => plainFmt_inj hT hn (by simp [Val.kind]) (plain_inj (by simp [Val.kind]) (by rintro vs (h | h) <;> cases h))
theorem reprList_inj : ∀ vs : List Val, ListInj T env vs
  | [] => list_nil
  | v :: vs => list_cons (repr_inj v) (reprList_inj vs)
theorem attrs_inj : ∀ as : List (Name × Val), AttrsInj T env as
  | [] => attrs_nil
  | (_, v) :: as => attrs_cons (fmt_inj v) (attrs_inj as)
end
end

end Verif
