import Verif.Proofs.AddLemmas
import Verif.Spec.Struct
/-
Helper lemmas: integer encodings as digits; offset independence of unaligned formats.
-/
namespace Verif
open Spec

theorem leBytes_eq_digits (w : Nat) (u : Nat) :
    leBytes w u = (List.range w).map fun k => UInt8.ofNat (u / 256 ^ k % 256) := by
  induction w generalizing u with
  | zero => rfl
  | succ w ih =>
    rw [leBytes, ih, List.range_succ_eq_map]
    simp only [List.map_cons, Nat.pow_zero, Nat.div_one, List.map_map]
    congr 1
    apply List.map_congr_left
    intro k _
    simp only [Function.comp]
    rw [Nat.div_div_eq_div_mul, Nat.pow_succ, Nat.mul_comm 256]

theorem digit_emod (i : Int) (w k : Nat) (hk : k < w) :
    (i % 256 ^ w) / 256 ^ k % 256 = i / 256 ^ k % 256 := by
  obtain ⟨d, rfl⟩ : ∃ d, w = k + 1 + d := ⟨w - (k + 1), by omega⟩
  have h0 : (256 : Int) ^ k ≠ 0 := Int.pow_ne_zero (by decide)
  have hp : (256 : Int) ^ (k + 1 + d) = 256 * 256 ^ d * 256 ^ k := by
    rw [Int.pow_add, Int.pow_succ]; ac_rfl
  have e : i % 256 ^ (k + 1 + d) = i + (-(256 * 256 ^ d * (i / 256 ^ (k + 1 + d)))) * 256 ^ k := by
    rw [Int.emod_def, hp]
    generalize i / (256 * 256 ^ d * 256 ^ k) = q
    rw [Int.neg_mul, ← Int.sub_eq_add_neg]
    congr 1
    ac_rfl
  rw [e, Int.add_mul_ediv_right _ _ h0, Int.mul_assoc, ← Int.mul_neg]
  exact Int.add_mul_emod_self_left ..

theorem leBytes_emod (w : Nat) (i : Int) : leBytes w (i % (2 ^ (8 * w) : Int)).toNat = digitsLE w i := by
  rw [leBytes_eq_digits, digitsLE]
  apply List.map_congr_left
  intro k hk
  have hk : k < w := by simpa using hk
  congr 1
  have hp : (2 : Int) ^ (8 * w) = 256 ^ w := by
    rw [Int.pow_mul]; rfl
  rw [hp]
  have hpos : (0 : Int) < 256 ^ w := Int.pow_pos (by decide)
  have hnn := Int.emod_nonneg i (Int.ne_of_gt hpos)
  have key : (((i % 256 ^ w).toNat / 256 ^ k % 256 : Nat) : Int) = i / 256 ^ k % 256 := by
    rw [Int.natCast_emod, Int.natCast_ediv, Int.toNat_of_nonneg hnn]
    have : ((256 ^ k : Nat) : Int) = 256 ^ k := by simp
    rw [this]
    exact digit_emod i w k hk
  rw [← key, Int.toNat_natCast]

theorem encodeInt_eq (l s : Bool) (w : Nat) (i : Int) :
    encodeInt l s w i = if intInRange s w i then
      .ok (if l then digitsLE w i else (digitsLE w i).reverse) else .error .structError := by
  unfold encodeInt
  rw [leBytes_emod]
  cases l <;> rfl

theorem intInRange_iff (s : Bool) (w : Nat) (i : Int) : intInRange s w i = true ↔ InRange s w i := by
  cases s <;> simp [intInRange, InRange]

theorem padLen_one (o : Nat) : padLen 1 o = 0 := by simp [padLen, Nat.mod_one]

theorem align_std (c : Code) : c.align false = 1 := rfl

/-- Without alignment the offset does not matter. -/
theorem packToks_offset {P : Platform} {bo : ByteOrder} (h : bo.isNative = false) (ts : List Tok)
    (o o' : Nat) (vs : List Val) : packToks P bo ts o vs = packToks P bo ts o' vs := by
  induction ts generalizing o o' vs with
  | nil => rfl
  | cons t ts ih =>
    simp only [packToks, h, align_std, padLen_one, bind, Except.bind]
    cases packTok P bo t vs with
    | error e => rfl
    | ok r =>
      dsimp only
      rw [ih (o + 0 + r.1.length) (o' + 0 + r.1.length)]

theorem unpackToks_offset {P : Platform} {bo : ByteOrder} (h : bo.isNative = false) (ts : List Tok)
    (o o' : Nat) (b : Bytes) : unpackToks P bo ts o b = unpackToks P bo ts o' b := by
  induction ts generalizing o o' b with
  | nil => rfl
  | cons t ts ih =>
    simp only [unpackToks, h, align_std, padLen_one]
    rw [ih (o + 0 + t.bytes false) (o' + 0 + t.bytes false)]

theorem endOff_std (ts : List Tok) (o : Nat) : endOff false ts o = o + sizeToks false ts := by
  induction ts generalizing o with
  | nil => rfl
  | cons t ts ih =>
    simp only [sizeToks, endOff, align_std, padLen_one]
    rw [ih, ih (0 + 0 + _)]
    omega

/-- Only the values an item list uses matter, when there are enough. -/
theorem packMany_take (P : Platform) (bo : ByteOrder) (c : Code) (k : Nat) (vs ws : List Val)
    (h : k ≤ vs.length) :
    packMany P bo c k (vs ++ ws) = (packMany P bo c k vs).map fun r => (r.1, r.2 ++ ws) := by
  induction k generalizing vs with
  | zero => rfl
  | succ k ih =>
    cases vs with
    | nil => simp at h
    | cons v vs =>
      simp only [List.cons_append, packMany, bind, Except.bind]
      cases packOne P bo c v with
      | error e => rfl
      | ok b =>
        dsimp only
        rw [ih vs (by simpa using h)]
        cases packMany P bo c k vs with
        | error e => rfl
        | ok r => rfl

theorem packTok_take (P : Platform) (bo : ByteOrder) (t : Tok) (vs ws : List Val)
    (h : t.numVals ≤ vs.length) :
    packTok P bo t (vs ++ ws) = (packTok P bo t vs).map fun r => (r.1, r.2 ++ ws) := by
  obtain ⟨n, c⟩ := t
  cases c <;> simp only [packTok, Tok.numVals] at h ⊢ <;> try exact packMany_take P bo _ n vs ws h
  case pad => rfl
  all_goals
    cases vs with
    | nil => simp at h
    | cons v vs =>
      simp only [List.cons_append]
      cases v.asBytes <;> rfl

theorem packToks_take (P : Platform) (bo : ByteOrder) (ts : List Tok) (o : Nat) (vs ws : List Val)
    (h : numVals ts ≤ vs.length) : packToks P bo ts o (vs ++ ws) = packToks P bo ts o vs := by
  induction ts generalizing o vs with
  | nil => rfl
  | cons t ts ih =>
    have hn : numVals (t :: ts) = t.numVals + numVals ts := by simp [numVals]
    simp only [packToks]
    rw [packTok_take P bo t vs ws (by omega)]
    cases hr : packTok P bo t vs with
    | error e => rfl
    | ok r =>
      obtain ⟨b, rest⟩ := r
      have := packTok_spec hr
      simp only [Except.map, bind, Except.bind]
      rw [ih _ rest (by rw [this.2.1, List.length_drop]; omega)]

theorem intSer_facts {ch : Char} {s : Bool} {w : Nat} (h : (ch, s, w) ∈ intTypes) (bo : ByteOrder) :
    ∃ wd, (intSer bo ch).toks = [⟨1, .int s wd⟩] ∧ wd.bytes bo.isNative = w ∧
      (intSer bo ch).byteOrder = bo ∧ StructSer.formatOk (intSer bo ch).format = true ∧
      0 < w ∧ (intSer bo ch).size = w := by
  simp only [intTypes, List.mem_cons, Prod.mk.injEq, List.not_mem_nil, or_false] at h
  rcases h with ⟨rfl, rfl, rfl⟩ | ⟨rfl, rfl, rfl⟩ | ⟨rfl, rfl, rfl⟩ | ⟨rfl, rfl, rfl⟩ | ⟨rfl, rfl, rfl⟩ |
    ⟨rfl, rfl, rfl⟩ | ⟨rfl, rfl, rfl⟩ | ⟨rfl, rfl, rfl⟩
  · exact ⟨.one, by cases bo <;> decide⟩
  · exact ⟨.one, by cases bo <;> decide⟩
  · exact ⟨.two, by cases bo <;> decide⟩
  · exact ⟨.two, by cases bo <;> decide⟩
  · exact ⟨.four, by cases bo <;> decide⟩
  · exact ⟨.four, by cases bo <;> decide⟩
  · exact ⟨.eight, by cases bo <;> decide⟩
  · exact ⟨.eight, by cases bo <;> decide⟩

theorem intSer_pack {ch : Char} {s : Bool} {w : Nat} (h : (ch, s, w) ∈ intTypes) (bo : ByteOrder)
    (P : Platform) (i : Int) :
    (intSer bo ch).pack P [.int i] = encodeInt (bo.little P) s w i := by
  obtain ⟨wd, h1, rfl, h3, _⟩ := intSer_facts h bo
  have ha : 0 < (Code.int s wd).align bo.isNative := Code.align_pos _ _
  have hpad : padLen ((Code.int s wd).align bo.isNative) 0 = 0 := padLen_eq_zero (Nat.zero_mod _)
  simp only [StructSer.pack, structPack, h1, h3, numVals, List.map_cons, Tok.numVals, List.map_nil,
    List.sum_cons, List.sum_nil, List.length_cons, List.length_nil, packToks, packTok,
    packMany, packOne, Val.asIndex, Val.strip, bind, Except.bind]
  cases encodeInt (bo.little P) s (wd.bytes bo.isNative) i with
  | error e => rfl
  | ok b => simp [hpad]

theorem intSer_unpack {ch : Char} {s : Bool} {w : Nat} (h : (ch, s, w) ∈ intTypes) (bo : ByteOrder)
    (P : Platform) (b r : Bytes) (hb : b.length = w) :
    (intSer bo ch).unpack P (b ++ r) = .ok [.int (decodeInt (bo.little P) s w b)] := by
  obtain ⟨wd, h1, rfl, h3, _, _, h4⟩ := intSer_facts h bo
  have hpad : padLen ((Code.int s wd).align bo.isNative) 0 = 0 := padLen_eq_zero (Nat.zero_mod _)
  have hsz : sizeToks bo.isNative [⟨1, .int s wd⟩] = wd.bytes bo.isNative := by
    have := h4; rw [StructSer.size, h1, h3] at this; exact this
  simp only [StructSer.unpack, h4, structUnpack, h1, h3, hsz]
  rw [List.take_left' hb]
  simp only [hb, ↓reduceIte, unpackToks, hpad, List.drop_zero, Tok.bytes, Code.bytes, Nat.one_mul,
    unpackTok, unpackMany, unpackOne, bind, Except.bind, StructSer.applyActions]
  have : (List.take (wd.bytes bo.isNative) b) = b := List.take_of_length_le (by omega)
  rw [this]; simp [intSer, this]

end Verif
