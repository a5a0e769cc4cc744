import Verif.Structs
/-
Helper lemmas about the `struct` module description: lengths, concatenation, splitting counts,
unpacking what was packed.
-/
namespace Verif

/-! ### Integers as bytes -/

theorem leBytes_length (n u : Nat) : (leBytes n u).length = n := by
  induction n generalizing u with
  | zero => rfl
  | succ n ih => simp [leBytes, ih]

theorem leNat_leBytes (n u : Nat) : leNat (leBytes n u) = u % 256 ^ n := by
  induction n generalizing u with
  | zero => simp [leBytes, leNat, Nat.mod_one]
  | succ n ih =>
    have h : (UInt8.ofNat (u % 256)).toNat = u % 256 := by
      simp [UInt8.toNat_ofNat']
    rw [leBytes, leNat, ih, h, Nat.pow_succ, Nat.mul_comm (256 ^ n) 256, Nat.mod_mul]

theorem leNat_lt (b : Bytes) : leNat b < 256 ^ b.length := by
  induction b with
  | nil => simp [leNat]
  | cons x xs ih =>
    have hx : x.toNat < 256 := x.toNat_lt
    simp only [leNat, List.length_cons, Nat.pow_succ]
    omega

theorem leBytes_leNat (b : Bytes) : leBytes b.length (leNat b) = b := by
  induction b with
  | nil => rfl
  | cons x xs ih =>
    have hx : x.toNat < 256 := x.toNat_lt
    have h1 : (x.toNat + 256 * leNat xs) % 256 = x.toNat := by omega
    have h2 : (x.toNat + 256 * leNat xs) / 256 = leNat xs := by omega
    simp [leBytes, leNat, h1, h2, ih]

theorem orderBytes_length (l : Bool) (b : Bytes) : (orderBytes l b).length = b.length := by
  cases l <;> simp [orderBytes]

theorem orderBytes_orderBytes (l : Bool) (b : Bytes) : orderBytes l (orderBytes l b) = b := by
  cases l <;> simp [orderBytes]

theorem two_pow_eight (n : Nat) : 2 ^ (8 * n) = 256 ^ n := by
  rw [Nat.pow_mul]

theorem encodeInt_length {l s : Bool} {n : Nat} {i : Int} {b : Bytes}
    (h : encodeInt l s n i = .ok b) : b.length = n := by
  unfold encodeInt at h
  split at h
  · cases h; simp [orderBytes_length, leBytes_length]
  · cases h

theorem decodeInt_encodeInt {l s : Bool} {n : Nat} {i : Int} {b : Bytes} (hn : 0 < n)
    (h : encodeInt l s n i = .ok b) : decodeInt l s n b = i := by
  unfold encodeInt at h
  split at h
  · rename_i hr
    cases h
    unfold decodeInt
    rw [orderBytes_orderBytes, leNat_leBytes]
    have e : (2 : Int) ^ (8 * n) = 2 * 2 ^ (8 * n - 1) := by
      have : 8 * n = (8 * n - 1) + 1 := by omega
      rw [this, Int.pow_succ]; simp; omega
    have en : (2 : Nat) ^ (8 * n) = 2 * 2 ^ (8 * n - 1) := by
      have : 8 * n = (8 * n - 1) + 1 := by omega
      rw [this, Nat.pow_succ]; simp; omega
    have hc : ((2 ^ (8 * n - 1) : Nat) : Int) = 2 ^ (8 * n - 1) := by simp
    have hc' : ((2 ^ (8 * n) : Nat) : Int) = 2 ^ (8 * n) := by simp
    rw [← two_pow_eight]
    generalize hk : (2 : Int) ^ (8 * n) = K at *
    generalize hk1 : (2 : Int) ^ (8 * n - 1) = K1 at *
    generalize hm : (2 : Nat) ^ (8 * n) = N at *
    generalize hm1 : (2 : Nat) ^ (8 * n - 1) = N1 at *
    have hN1 : 0 < N1 := by rw [← hm1]; exact Nat.pow_pos (by decide)
    have hmod : ((i % K).toNat : Int) = i % K := Int.toNat_of_nonneg (Int.emod_nonneg _ (by omega))
    have hlt : i % K < K := Int.emod_lt_of_pos _ (by omega)
    have : (i % K).toNat % N = (i % K).toNat := Nat.mod_eq_of_lt (by omega)
    rw [this]
    cases s with
    | false =>
      simp only [intInRange, Bool.false_eq_true, ↓reduceIte, hk, decide_eq_true_eq] at hr
      simp only [Bool.false_and, Bool.false_eq_true, ↓reduceIte]
      rw [hmod]; exact Int.emod_eq_of_lt hr.1 hr.2
    | true =>
      simp only [intInRange, ↓reduceIte, hk1, decide_eq_true_eq] at hr
      simp only [Bool.true_and, decide_eq_true_eq]
      by_cases hi : 0 ≤ i
      · have := Int.emod_eq_of_lt hi (by omega : i < K)
        split <;> omega
      · have h2 : i % K = i + K := by
          rw [← Int.add_emod_right]; exact Int.emod_eq_of_lt (by omega) (by omega)
        split <;> omega
  · cases h

/-! ### Lengths -/

theorem Code.bytes_pos (nat : Bool) (c : Code) : 0 < c.bytes nat := by
  cases c <;> simp [Code.bytes]
  rename_i w; cases w <;> cases nat <;> simp [Width.bytes]

theorem Code.align_pos (nat : Bool) (c : Code) : 0 < c.align nat := by
  unfold Code.align; split <;> simp [Code.bytes_pos]

theorem Code.bytes_mod_align (nat : Bool) (c : Code) : c.bytes nat % c.align nat = 0 := by
  unfold Code.align; split <;> simp_all [Nat.mod_one]

theorem fitTo_length (n : Nat) (b : Bytes) : (fitTo n b).length = n := by
  simp [fitTo]; omega

theorem packOne_length {P : Platform} {bo : ByteOrder} {c : Code} {v : Val} {b : Bytes}
    (h : packOne P bo c v = .ok b) : b.length = c.bytes bo.isNative := by
  cases c <;> simp only [packOne] at h <;> (repeat' split at h) <;>
    first
    | (cases h; simp [Code.bytes, orderBytes_length, leBytes_length]; done)
    | exact encodeInt_length h
    | cases h

theorem packMany_spec {P : Platform} {bo : ByteOrder} {c : Code} {k : Nat} {vs : List Val}
    {b : Bytes} {rest : List Val} (h : packMany P bo c k vs = .ok (b, rest)) :
    b.length = k * c.bytes bo.isNative ∧ rest = vs.drop k ∧ k ≤ vs.length := by
  induction k generalizing vs b rest with
  | zero => simp [packMany] at h; simp [h]
  | succ k ih =>
    cases vs with
    | nil => simp [packMany] at h
    | cons v vs =>
      simp only [packMany, bind, Except.bind] at h
      split at h
      · cases h
      · rename_i b0 hb0
        split at h
        · cases h
        · rename_i r hr
          obtain ⟨bs, rest'⟩ := r
          cases h
          obtain ⟨h1, h2, h3⟩ := ih hr
          refine ⟨?_, by simpa using h2, by simpa using h3⟩
          simp [h1, packOne_length hb0, Nat.succ_mul]; omega

theorem packTok_spec {P : Platform} {bo : ByteOrder} {t : Tok} {vs : List Val}
    {b : Bytes} {rest : List Val} (h : packTok P bo t vs = .ok (b, rest)) :
    b.length = t.bytes bo.isNative ∧ rest = vs.drop t.numVals ∧ t.numVals ≤ vs.length := by
  obtain ⟨n, c⟩ := t
  cases c <;> simp only [packTok] at h
  case pad => cases h; simp [Tok.bytes, Code.bytes, Tok.numVals]
  case str =>
    split at h
    · cases h
    · split at h
      · cases h; simp [Tok.bytes, Code.bytes, Tok.numVals, fitTo_length]
      · cases h
  case pas =>
    split at h
    · cases h
    · split at h
      · cases h; simp [Tok.bytes, Code.bytes, Tok.numVals, fitTo_length]
      · cases h
  all_goals exact packMany_spec h

theorem packToks_length {P : Platform} {bo : ByteOrder} {ts : List Tok} {o : Nat} {vs : List Val}
    {b : Bytes} (h : packToks P bo ts o vs = .ok b) : o + b.length = endOff bo.isNative ts o := by
  induction ts generalizing o vs b with
  | nil => simp [packToks] at h; simp [h, endOff]
  | cons t ts ih =>
    simp only [packToks, bind, Except.bind] at h
    split at h
    · cases h
    · rename_i r hr
      obtain ⟨b0, rest⟩ := r
      dsimp only at h
      split at h
      · cases h
      · rename_i r hr'
        cases h
        have := ih hr'
        have hl := (packTok_spec hr).1
        simp only [endOff, List.length_append, List.length_replicate]
        rw [hl] at this ⊢
        omega

theorem packToks_vals {P : Platform} {bo : ByteOrder} {ts : List Tok} {o : Nat} {vs : List Val}
    {b : Bytes} (h : packToks P bo ts o vs = .ok b) : numVals ts ≤ vs.length := by
  induction ts generalizing o vs b with
  | nil => simp [numVals]
  | cons t ts ih =>
    simp only [packToks, bind, Except.bind] at h
    split at h
    · cases h
    · rename_i r hr
      obtain ⟨b0, rest⟩ := r
      dsimp only at h
      split at h
      · cases h
      · rename_i r hr'
        have h1 := ih hr'
        obtain ⟨_, h2, h3⟩ := packTok_spec hr
        subst h2
        simp [numVals] at h1 ⊢
        omega

theorem structPack_length {P : Platform} {bo : ByteOrder} {ts : List Tok} {vs : List Val}
    {b : Bytes} (h : structPack P bo ts vs = .ok b) : b.length = sizeToks bo.isNative ts := by
  unfold structPack at h
  split at h
  · have := packToks_length h
    simpa [sizeToks] using this
  · cases h

theorem structPack_numVals {P : Platform} {bo : ByteOrder} {ts : List Tok} {vs : List Val}
    {b : Bytes} (h : structPack P bo ts vs = .ok b) : vs.length = numVals ts := by
  unfold structPack at h
  split at h
  · assumption
  · cases h

theorem unpackMany_length (P : Platform) (bo : ByteOrder) (c : Code) (k : Nat) (b : Bytes) :
    (unpackMany P bo c k b).length = k := by
  induction k generalizing b with
  | zero => rfl
  | succ k ih => simp [unpackMany, ih]

theorem unpackTok_length (P : Platform) (bo : ByteOrder) (t : Tok) (b : Bytes) :
    (unpackTok P bo t b).length = t.numVals := by
  obtain ⟨n, c⟩ := t
  cases c <;> simp [unpackTok, Tok.numVals, unpackMany_length]
  split <;> rfl

theorem unpackToks_length (P : Platform) (bo : ByteOrder) (ts : List Tok) (o : Nat) (b : Bytes) :
    (unpackToks P bo ts o b).length = numVals ts := by
  induction ts generalizing o b with
  | nil => rfl
  | cons t ts ih => simp [unpackToks, unpackTok_length, ih, numVals]

/-! ### Concatenated formats -/

theorem numVals_append (t1 t2 : List Tok) : numVals (t1 ++ t2) = numVals t1 + numVals t2 := by
  simp [numVals]

theorem endOff_append (nat : Bool) (t1 t2 : List Tok) (o : Nat) :
    endOff nat (t1 ++ t2) o = endOff nat t2 (endOff nat t1 o) := by
  induction t1 generalizing o with
  | nil => rfl
  | cons t ts ih => simp [endOff, ih]

theorem le_endOff (nat : Bool) (ts : List Tok) (o : Nat) : o ≤ endOff nat ts o := by
  induction ts generalizing o with
  | nil => simp [endOff]
  | cons t ts ih => simp only [endOff]; exact Nat.le_trans (by omega) (ih _)

/-- Packing a concatenated format packs the parts one after the other. -/
theorem packToks_append (P : Platform) (bo : ByteOrder) (t1 t2 : List Tok) (o : Nat) (vs : List Val) :
    packToks P bo (t1 ++ t2) o vs = (do
      let b1 ← packToks P bo t1 o vs
      let b2 ← packToks P bo t2 (o + b1.length) (vs.drop (numVals t1))
      .ok (b1 ++ b2)) := by
  induction t1 generalizing o vs with
  | nil =>
    simp only [List.nil_append, packToks, bind, Except.bind, numVals, List.map_nil, List.sum_nil,
      List.length_nil, Nat.add_zero, List.drop_zero]
    cases packToks P bo t2 o vs <;> rfl
  | cons t ts ih =>
    simp only [List.cons_append, packToks, bind, Except.bind]
    cases hr : packTok P bo t vs with
    | error e => rfl
    | ok r =>
      obtain ⟨b0, rest⟩ := r
      obtain ⟨h1, h2, h3⟩ := packTok_spec hr
      dsimp only
      rw [ih]
      simp only [bind, Except.bind]
      cases hq : packToks P bo ts (o + padLen (t.c.align bo.isNative) o + b0.length) rest with
      | error e => rfl
      | ok b1 =>
        dsimp only
        subst h2
        have e1 : o + (List.replicate (padLen (t.c.align bo.isNative) o) (0 : UInt8) ++ b0 ++ b1).length
            = o + padLen (t.c.align bo.isNative) o + b0.length + b1.length := by simp; omega
        have e2 : List.drop (numVals (t :: ts)) vs = List.drop (numVals ts) (List.drop t.numVals vs) := by
          simp [numVals, List.drop_drop]
        rw [e1, e2]
        cases packToks P bo t2 _ _ <;> simp

theorem unpackToks_append (P : Platform) (bo : ByteOrder) (t1 t2 : List Tok) (o : Nat) (b : Bytes) :
    unpackToks P bo (t1 ++ t2) o b = unpackToks P bo t1 o b ++
      unpackToks P bo t2 (endOff bo.isNative t1 o) (b.drop (endOff bo.isNative t1 o - o)) := by
  induction t1 generalizing o b with
  | nil => simp [unpackToks, endOff]
  | cons t ts ih =>
    simp only [List.cons_append, unpackToks, ih, endOff, List.append_assoc, List.drop_drop]
    congr 4
    have := le_endOff bo.isNative ts (o + padLen (t.c.align bo.isNative) o + t.bytes bo.isNative)
    omega

/-! ### Splitting a repeat count -/

theorem padLen_lt {a : Nat} (ha : 0 < a) (o : Nat) : (o + padLen a o) % a = 0 := by
  unfold padLen
  have h := Nat.mod_lt o ha
  by_cases h0 : o % a = 0
  · simp [h0]
  · have : (a - o % a) % a = a - o % a := Nat.mod_eq_of_lt (by omega)
    rw [this]
    have h3 : o + (a - o % a) = a * (o / a) + a := by
      have := Nat.div_add_mod o a
      omega
    rw [h3]; simp

theorem padLen_eq_zero {a o : Nat} (h : o % a = 0) : padLen a o = 0 := by
  simp [padLen, h]

theorem aligned_after {nat : Bool} (c : Code) (n o : Nat) :
    (o + padLen (c.align nat) o + n * c.bytes nat) % c.align nat = 0 := by
  have h1 := padLen_lt (c.align_pos nat) o
  have h2 : n * c.bytes nat % c.align nat = 0 := by
    rw [Nat.mul_mod, c.bytes_mod_align nat]; simp
  rw [Nat.add_mod, h1, h2]; simp

/-- Codes whose repeat count means repetition (`s` and `p` counts are lengths). -/
def Code.isString : Code → Bool
  | .str => true
  | .pas => true
  | _ => false

theorem packMany_add (P : Platform) (bo : ByteOrder) (c : Code) (a b : Nat) (vs : List Val) :
    packMany P bo c (a + b) vs = (do
      let (x, vs') ← packMany P bo c a vs
      let (y, vs'') ← packMany P bo c b vs'
      .ok (x ++ y, vs'')) := by
  induction a generalizing vs with
  | zero =>
    simp only [Nat.zero_add, packMany, bind, Except.bind]
    cases packMany P bo c b vs with
    | error e => rfl
    | ok r => rfl
  | succ a ih =>
    rw [show a + 1 + b = (a + b) + 1 by omega]
    cases vs with
    | nil => rfl
    | cons v vs =>
      simp only [packMany, bind, Except.bind]
      cases packOne P bo c v with
      | error e => rfl
      | ok x =>
        dsimp only
        rw [ih]
        simp only [bind, Except.bind]
        cases packMany P bo c a vs with
        | error e => rfl
        | ok r =>
          dsimp only
          cases packMany P bo c b r.2 with
          | error e => rfl
          | ok r => simp

/-- `(a+b)c` packs like `ac` followed by `bc`. -/
theorem packToks_split (P : Platform) (bo : ByteOrder) (c : Code) (hc : c.isString = false)
    (a b : Nat) (ts : List Tok) (o : Nat) (vs : List Val) :
    packToks P bo (⟨a + b, c⟩ :: ts) o vs = packToks P bo (⟨a, c⟩ :: ⟨b, c⟩ :: ts) o vs := by
  have hsplit : packTok P bo ⟨a + b, c⟩ vs = (do
      let (x, vs') ← packTok P bo ⟨a, c⟩ vs
      let (y, vs'') ← packTok P bo ⟨b, c⟩ vs'
      .ok (x ++ y, vs'')) := by
    cases c <;> simp [Code.isString] at hc <;> simp only [packTok] <;> try exact packMany_add ..
    simp only [bind, Except.bind, List.replicate_append_replicate]
  rw [packToks, packToks, hsplit]
  simp only [bind, Except.bind, packToks]
  cases hx : packTok P bo ⟨a, c⟩ vs with
  | error e => rfl
  | ok r =>
    obtain ⟨x, vs'⟩ := r
    dsimp only
    have hxl := (packTok_spec hx).1
    have hz : padLen (c.align bo.isNative) (o + padLen (c.align bo.isNative) o + x.length) = 0 := by
      apply padLen_eq_zero
      rw [hxl]; exact aligned_after c a o
    rw [hz]
    cases hy : packTok P bo ⟨b, c⟩ vs' with
    | error e => rfl
    | ok r =>
      obtain ⟨y, vs''⟩ := r
      dsimp only
      simp only [List.length_append, Nat.add_zero, List.replicate_zero, List.nil_append]
      rw [show o + padLen (c.align bo.isNative) o + (x.length + y.length)
        = o + padLen (c.align bo.isNative) o + x.length + y.length by omega]
      cases packToks P bo ts _ vs'' with
      | error e => rfl
      | ok r => simp

theorem unpackMany_add (P : Platform) (bo : ByteOrder) (c : Code) (a b : Nat) (d : Bytes) :
    unpackMany P bo c (a + b) d
      = unpackMany P bo c a d ++ unpackMany P bo c b (d.drop (a * c.bytes bo.isNative)) := by
  induction a generalizing d with
  | zero => simp [unpackMany]
  | succ a ih =>
    rw [show a + 1 + b = (a + b) + 1 by omega]
    simp [unpackMany, ih, Nat.succ_mul]
    congr 2; omega

theorem unpackMany_take (P : Platform) (bo : ByteOrder) (c : Code) (a m : Nat) (d : Bytes)
    (h : a * c.bytes bo.isNative ≤ m) :
    unpackMany P bo c a (d.take m) = unpackMany P bo c a d := by
  induction a generalizing d m with
  | zero => rfl
  | succ a ih =>
    simp only [unpackMany, Nat.succ_mul] at h ⊢
    rw [List.take_take, Nat.min_eq_left (by omega), List.drop_take, ih _ _ (by omega)]

theorem unpackToks_split (P : Platform) (bo : ByteOrder) (c : Code) (hc : c.isString = false)
    (a b : Nat) (ts : List Tok) (o : Nat) (d : Bytes) :
    unpackToks P bo (⟨a + b, c⟩ :: ts) o d = unpackToks P bo (⟨a, c⟩ :: ⟨b, c⟩ :: ts) o d := by
  simp only [unpackToks, Tok.bytes]
  have hz : padLen (c.align bo.isNative) (o + padLen (c.align bo.isNative) o + a * c.bytes bo.isNative)
      = 0 := padLen_eq_zero (aligned_after c a o)
  rw [hz]
  generalize padLen (c.align bo.isNative) o = q
  simp only [Nat.zero_add, Nat.add_zero, List.drop_drop]
  rw [show q + a * c.bytes bo.isNative + b * c.bytes bo.isNative = q + (a + b) * c.bytes bo.isNative by
      rw [Nat.add_mul]; omega,
    show o + q + a * c.bytes bo.isNative + b * c.bytes bo.isNative
      = o + q + (a + b) * c.bytes bo.isNative by rw [Nat.add_mul]; omega, ← List.append_assoc]
  congr 1
  cases c <;> simp [Code.isString] at hc <;> simp only [unpackTok]
  case pad => rfl
  all_goals
    rw [unpackMany_add, unpackMany_take _ _ _ _ _ _ (by simp [Nat.add_mul]), unpackMany_take _ _ _ a _ _ (by simp),
      List.drop_take, unpackMany_take _ _ _ b _ _ (by simp [Nat.add_mul]), unpackMany_take _ _ _ b _ _ (by simp)]
    simp [List.drop_drop]

theorem endOff_split (nat : Bool) (c : Code) (a b : Nat) (ts : List Tok) (o : Nat) :
    endOff nat (⟨a + b, c⟩ :: ts) o = endOff nat (⟨a, c⟩ :: ⟨b, c⟩ :: ts) o := by
  simp only [endOff, Tok.bytes]
  rw [padLen_eq_zero (aligned_after c a o)]
  congr 1
  rw [Nat.add_mul]; omega

theorem numVals_split (c : Code) (hc : c.isString = false) (a b : Nat) (ts : List Tok) :
    numVals (⟨a + b, c⟩ :: ts) = numVals (⟨a, c⟩ :: ⟨b, c⟩ :: ts) := by
  cases c <;> simp [Code.isString] at hc <;> simp [numVals, Tok.numVals] <;> omega

/-! ### Unpacking what was packed -/

/-- `v` is a value that one element of code `c` can hold exactly (what unpacking can return). -/
def Rep (P : Platform) (bo : ByteOrder) (c : Code) (v : Val) : Prop :=
  match c with
  | .pad => False
  | .chr => ∃ b, v = .bytes [b]
  | .int signed w => ∃ i, v = .int i ∧ intInRange signed (w.bytes bo.isNative) i = true
  | .bool => ∃ b, v = .bool b
  | .half => ∃ f u, v = .float f ∧ P.packF16 f = some u ∧ P.unpackF16 u = f
  | .single => ∃ f u, v = .float f ∧ P.packF32 bo.isNative f = some u ∧ P.unpackF32 u = f
  | .double => ∃ f, v = .float f
  | .ptr => ∃ i : Int, v = .int i ∧ 0 ≤ i ∧ i < 2 ^ 64
  | .str => False
  | .pas => False

/-- `vs` are exactly the values item `t` can hold. -/
def RepTok (P : Platform) (bo : ByteOrder) (t : Tok) (vs : List Val) : Prop :=
  match t.c with
  | .pad => vs = []
  | .str => ∃ b, vs = [.bytes b] ∧ b.length = t.n
  | .pas => ∃ b, vs = [.bytes b] ∧ b.length + 1 ≤ t.n ∧ b.length ≤ 255
  | c => vs.length = t.n ∧ ∀ v ∈ vs, Rep P bo c v

def RepToks (P : Platform) (bo : ByteOrder) : List Tok → List Val → Prop
  | [], vs => vs = []
  | t :: ts, vs => RepTok P bo t (vs.take t.numVals) ∧ RepToks P bo ts (vs.drop t.numVals)

theorem width_pos (nat : Bool) (w : Width) : 0 < w.bytes nat := by
  cases w <;> cases nat <;> simp [Width.bytes]

theorem unpackOne_packOne {P : Platform} {bo : ByteOrder} {c : Code} {v : Val} {b : Bytes}
    (hr : Rep P bo c v) (h : packOne P bo c v = .ok b) : unpackOne P bo c b = v := by
  cases c <;> simp only [Rep] at hr
  case chr =>
    obtain ⟨x, rfl⟩ := hr
    simp [packOne, Val.asBytes, Val.strip] at h
    subst h; rfl
  case int s w =>
    obtain ⟨i, rfl, hi⟩ := hr
    simp only [packOne, Val.asIndex, Val.strip] at h
    simp only [unpackOne]
    rw [decodeInt_encodeInt (width_pos _ _) h]
  case bool =>
    obtain ⟨x, rfl⟩ := hr
    simp only [packOne, Val.truthy, Except.ok.injEq] at h
    subst h
    cases x <;> simp [unpackOne]
  case half =>
    obtain ⟨f, u, rfl, h1, h2⟩ := hr
    simp only [packOne, Val.asFloat, Val.strip, h1, Except.ok.injEq] at h
    subst h
    simp only [unpackOne, orderBytes_orderBytes, leNat_leBytes]
    have : u.toNat % 256 ^ 2 = u.toNat := Nat.mod_eq_of_lt u.toNat_lt
    rw [this, UInt16.ofNat_toNat, h2]
  case single =>
    obtain ⟨f, u, rfl, h1, h2⟩ := hr
    simp only [packOne, Val.asFloat, Val.strip, h1, Except.ok.injEq] at h
    subst h
    simp only [unpackOne, orderBytes_orderBytes, leNat_leBytes]
    have : u.toNat % 256 ^ 4 = u.toNat := Nat.mod_eq_of_lt u.toNat_lt
    rw [this, UInt32.ofNat_toNat, h2]
  case double =>
    obtain ⟨f, rfl⟩ := hr
    simp only [packOne, Val.asFloat, Val.strip, Except.ok.injEq] at h
    subst h
    simp only [unpackOne, orderBytes_orderBytes, leNat_leBytes]
    have : f.toNat % 256 ^ 8 = f.toNat := Nat.mod_eq_of_lt f.toNat_lt
    rw [this, UInt64.ofNat_toNat]
  case ptr =>
    obtain ⟨i, rfl, h1, h2⟩ := hr
    simp only [packOne, Val.asIndex, Val.strip] at h
    rw [if_pos (by omega)] at h
    simp only [Except.ok.injEq] at h
    subst h
    simp only [unpackOne, orderBytes_orderBytes, leNat_leBytes]
    have e : i % 2 ^ 64 = i := Int.emod_eq_of_lt h1 h2
    rw [e]
    have : i.toNat % 256 ^ 8 = i.toNat := Nat.mod_eq_of_lt (by omega)
    rw [this, Int.toNat_of_nonneg h1]

theorem unpackMany_packMany {P : Platform} {bo : ByteOrder} {c : Code} {k : Nat} {vs : List Val}
    {b : Bytes} {rest : List Val} (r : Bytes)
    (hr : ∀ v ∈ vs.take k, Rep P bo c v) (h : packMany P bo c k vs = .ok (b, rest)) :
    unpackMany P bo c k (b ++ r) = vs.take k := by
  induction k generalizing vs b rest with
  | zero => simp [unpackMany]
  | succ k ih =>
    cases vs with
    | nil => simp [packMany] at h
    | cons v vs =>
      simp only [packMany, bind, Except.bind] at h
      split at h
      · cases h
      · rename_i b0 hb0
        split at h
        · cases h
        · rename_i r' hr'
          obtain ⟨bs, rest'⟩ := r'
          cases h
          have hl := packOne_length hb0
          simp only [unpackMany, List.take_succ_cons, List.append_assoc]
          rw [← hl]
          simp only [List.take_left', List.drop_left']
          rw [unpackOne_packOne (hr v (by simp)) hb0, ih (fun w hw => hr w (by simp [hw])) hr']

theorem fitTo_eq (b : Bytes) : fitTo b.length b = b := by
  simp [fitTo]

theorem unpackTok_packTok {P : Platform} {bo : ByteOrder} {t : Tok} {vs : List Val}
    {b : Bytes} {rest : List Val} (hr : RepTok P bo t (vs.take t.numVals))
    (h : packTok P bo t vs = .ok (b, rest)) :
    unpackTok P bo t b = vs.take t.numVals := by
  have hspec := packTok_spec h
  obtain ⟨n, c⟩ := t
  cases c <;> simp only [packTok] at h <;> simp only [RepTok, Tok.numVals] at hr ⊢
  case pad => simp [unpackTok]
  case str =>
    obtain ⟨x, hx, hl⟩ := hr
    split at h
    · cases h
    · simp only [List.take_succ_cons, List.take_zero, List.cons.injEq, and_true] at hx
      subst hx
      simp only [Val.asBytes, Val.strip, Except.ok.injEq, Prod.mk.injEq] at h
      obtain ⟨h1, h2⟩ := h
      subst h1
      rw [← hl, fitTo_eq]; simp [unpackTok]
  case pas =>
    obtain ⟨x, hx, hl, hl'⟩ := hr
    split at h
    · cases h
    · simp only [List.take_succ_cons, List.take_zero, List.cons.injEq, and_true] at hx
      subst hx
      simp only [Val.asBytes, Val.strip, Except.ok.injEq, Prod.mk.injEq] at h
      obtain ⟨h1, h2⟩ := h
      subst h1
      obtain ⟨m, rfl⟩ : ∃ m, n = m + 1 := ⟨n - 1, by omega⟩
      have e1 : min (min x.length m) 255 = x.length := by omega
      simp only [Nat.add_sub_cancel, e1, fitTo, List.take_succ_cons, List.cons_append, unpackTok,
        List.take_zero]
      have e2 : (UInt8.ofNat x.length).toNat = x.length := by
        simp [UInt8.toNat_ofNat']; omega
      rw [e2, List.take_take, Nat.min_self, List.take_of_length_le (by omega : x.length ≤ m)]
      simp
  all_goals
    have := unpackMany_packMany [] hr.2 h
    simpa [unpackTok] using this

theorem unpackToks_packToks {P : Platform} {bo : ByteOrder} {ts : List Tok} {o : Nat} {vs : List Val}
    {b : Bytes} (r : Bytes) (hr : RepToks P bo ts vs) (h : packToks P bo ts o vs = .ok b) :
    unpackToks P bo ts o (b ++ r) = vs := by
  induction ts generalizing o vs b with
  | nil => simp [RepToks] at hr; simp [unpackToks, hr]
  | cons t ts ih =>
    simp only [packToks, bind, Except.bind] at h
    split at h
    · cases h
    · rename_i r1 hr1
      obtain ⟨b0, rest⟩ := r1
      dsimp only at h
      split at h
      · cases h
      · rename_i b1 hb1
        cases h
        obtain ⟨h1, h2, h3⟩ := packTok_spec hr1
        subst h2
        obtain ⟨hra, hrb⟩ := hr
        simp only [unpackToks]
        generalize padLen (t.c.align bo.isNative) o = q at *
        have hd : List.drop q (List.replicate q (0 : UInt8) ++ b0 ++ b1 ++ r) = b0 ++ (b1 ++ r) := by
          rw [List.append_assoc, List.append_assoc]
          exact List.drop_left' (by simp)
        rw [← List.drop_drop, hd, ← h1, List.take_left' rfl, List.drop_left' rfl,
          ih hrb hb1, unpackTok_packTok hra hr1, List.take_append_drop]

end Verif
