import Verif.Spec.Exact
import Verif.Proofs.RoundTrip
import Verif.Proofs.StringPack
/-
Packing what was unpacked from a format gives the bytes back.
-/
namespace Verif
open Sem

variable {env : Env} {P : Platform} {bo : ByteOrder}

theorem encode_decodeInt {l s : Bool} {n : Nat} {b : Bytes} (hn : 0 < n) (hb : b.length = n) :
    encodeInt l s n (decodeInt l s n b) = .ok b := by
  have hu : leNat (orderBytes l b) < 256 ^ n := by
    have := leNat_lt (orderBytes l b)
    rwa [orderBytes_length, hb] at this
  have hback : orderBytes l (leBytes n (leNat (orderBytes l b))) = b := by
    have := leBytes_leNat (orderBytes l b)
    rw [orderBytes_length, hb] at this
    rw [this, orderBytes_orderBytes]
  have hpow : (2 : Int) ^ (8 * n) = ((256 ^ n : Nat) : Int) := by
    rw [← two_pow_eight]; simp
  have hhalf : (2 : Int) ^ (8 * n) = 2 * 2 ^ (8 * n - 1) := by
    rw [← Int.pow_succ', show 8 * n - 1 + 1 = 8 * n by omega]
  have hhalfN : (2 : Nat) ^ (8 * n) = 2 * 2 ^ (8 * n - 1) := by
    rw [← Nat.pow_succ', Nat.succ_eq_add_one, show 8 * n - 1 + 1 = 8 * n by omega]
  have hcast : ((2 ^ (8 * n - 1) : Nat) : Int) = 2 ^ (8 * n - 1) := by simp
  generalize hU : leNat (orderBytes l b) = u at *
  generalize hH : (2 : Int) ^ (8 * n - 1) = H at *
  generalize hHN : (2 : Nat) ^ (8 * n - 1) = HN at *
  generalize hF : (2 : Int) ^ (8 * n) = F at *
  generalize hFN : (256 : Nat) ^ n = FN at *
  have hFF : (2 : Nat) ^ (8 * n) = FN := by rw [two_pow_eight, hFN]
  rw [hFF] at hhalfN
  unfold decodeInt
  simp only [hU, hHN]
  cases s with
  | false =>
    simp only [Bool.false_and, Bool.false_eq_true, if_false]
    unfold encodeInt
    rw [if_pos (by simp only [intInRange, Bool.false_eq_true, if_false, decide_eq_true_eq, hF]; omega), hF]
    rw [Int.emod_eq_of_lt (by omega) (by omega), Int.toNat_natCast, hback]
  | true =>
    simp only [Bool.true_and]
    split
    · rename_i hc
      have hc : HN ≤ u := by simpa using hc
      unfold encodeInt
      rw [if_pos (by simp only [intInRange, if_true, decide_eq_true_eq, hH]; omega), hF]
      have : ((u : Int) - F) % F = u := by
        rw [Int.sub_emod_right, Int.emod_eq_of_lt (by omega) (by omega)]
      rw [this, Int.toNat_natCast, hback]
    · rename_i hc
      have hc : ¬ HN ≤ u := by simpa using hc
      unfold encodeInt
      rw [if_pos (by simp only [intInRange, if_true, decide_eq_true_eq, hH]; omega), hF]
      rw [Int.emod_eq_of_lt (by omega) (by omega), Int.toNat_natCast, hback]

theorem packOne_unpackOne {c : Code} (hc : c.exact = true) (hs : c.isString = false) {b : Bytes}
    (hb : b.length = c.bytes bo.isNative) : packOne P bo c (unpackOne P bo c b) = .ok b := by
  have h8 : b.length = 8 → leNat (orderBytes (bo.little P) b) < 2 ^ 64 ∧
      orderBytes (bo.little P) (leBytes 8 (leNat (orderBytes (bo.little P) b))) = b := by
    intro h
    constructor
    · have := leNat_lt (orderBytes (bo.little P) b)
      rw [orderBytes_length, h] at this
      exact this
    · have := leBytes_leNat (orderBytes (bo.little P) b)
      rw [orderBytes_length, h] at this
      rw [this, orderBytes_orderBytes]
  cases c with
  | pad => cases hc
  | pas => cases hc
  | bool => cases hc
  | half => cases hc
  | single => cases hc
  | str => cases hs
  | chr =>
    simp only [Code.bytes] at hb
    match b, hb with
    | [x], _ => rfl
  | int s w =>
    simp only [packOne, unpackOne, Val.asIndex, Val.strip]
    exact encode_decodeInt (width_pos _ _) hb
  | double =>
    simp only [Code.bytes] at hb
    obtain ⟨h1, h2⟩ := h8 hb
    simp only [packOne, unpackOne, Val.asFloat, Val.strip]
    rw [UInt64.toNat_ofNat', Nat.mod_eq_of_lt h1, h2]
  | ptr =>
    simp only [Code.bytes] at hb
    obtain ⟨h1, h2⟩ := h8 hb
    simp only [packOne, unpackOne, Val.asIndex, Val.strip]
    rw [if_pos (by omega), Int.emod_eq_of_lt (by omega) (by omega), Int.toNat_natCast, h2]

theorem packMany_unpackMany {c : Code} (hc : c.exact = true) (hs : c.isString = false) (rest : List Val) : ∀ (k : Nat) (b : Bytes),
    b.length = k * c.bytes bo.isNative → packMany P bo c k (unpackMany P bo c k b ++ rest) = .ok (b, rest)
  | 0, b, hb => by
    have : b = [] := List.eq_nil_of_length_eq_zero (by simpa using hb)
    subst this; rfl
  | k + 1, b, hb => by
    rw [Nat.succ_mul] at hb
    have h1 := packOne_unpackOne (P := P) (bo := bo) hc hs (b := b.take (c.bytes bo.isNative)) (by rw [List.length_take]; omega)
    have h2 := packMany_unpackMany hc hs rest k (b.drop (c.bytes bo.isNative)) (by rw [List.length_drop]; omega)
    simp only [unpackMany, List.cons_append, packMany, h1, h2, bind, Except.bind, List.take_append_drop]

theorem packTok_unpackTok {t : Tok} (hc : t.c.exact = true) (rest : List Val) {b : Bytes} (hb : b.length = t.bytes bo.isNative) :
    packTok P bo t (unpackTok P bo t b ++ rest) = .ok (b, rest) := by
  obtain ⟨n, c⟩ := t
  cases c with
  | str =>
    have hb : b.length = n := by simpa [Tok.bytes, Code.bytes] using hb
    simp only [unpackTok, packTok, List.singleton_append, Val.asBytes, Val.strip]
    rw [← hb, fitTo_eq]
  | pad => cases hc
  | pas => cases hc
  | bool => cases hc
  | half => cases hc
  | single => cases hc
  | chr => exact packMany_unpackMany (by rfl) (by rfl) rest n b hb
  | int s w => exact packMany_unpackMany (by rfl) (by rfl) rest n b hb
  | double => exact packMany_unpackMany (by rfl) (by rfl) rest n b hb
  | ptr => exact packMany_unpackMany (by rfl) (by rfl) rest n b hb

theorem packToks_unpackToks : ∀ (ts : List Tok) (o : Nat) (b : Bytes) (rest : List Val), exactToks bo.isNative ts o = true →
    o + b.length = endOff bo.isNative ts o → packToks P bo ts o (unpackToks P bo ts o b ++ rest) = .ok b
  | [], o, b, rest, _, hb => by
    have : b = [] := List.eq_nil_of_length_eq_zero (by simp only [endOff] at hb; omega)
    subst this; rfl
  | t :: ts, o, b, rest, he, hb => by
    simp only [exactToks, Bool.and_eq_true, beq_iff_eq] at he
    obtain ⟨⟨h1, h2⟩, h3⟩ := he
    simp only [endOff, h1, Nat.add_zero] at hb
    have hle := le_endOff bo.isNative ts (o + t.bytes bo.isNative)
    simp only [unpackToks, packToks, h1, List.drop_zero, Nat.add_zero, Nat.zero_add, List.append_assoc]
    have hlt : (b.take (t.bytes bo.isNative)).length = t.bytes bo.isNative := by rw [List.length_take]; omega
    rw [packTok_unpackTok h2 _ hlt]
    simp only [bind, Except.bind]
    rw [hlt, packToks_unpackToks ts _ (b.drop (t.bytes bo.isNative)) rest h3 (by rw [List.length_drop]; omega)]
    simp

theorem unpackToks_take_length {s : StructSer} {b : Bytes} :
    (unpackToks P s.byteOrder s.toks 0 (b.take s.size)).length = s.numValues := by
  rw [unpackToks_length]; rfl

theorem struct_exact {s : StructSer} (he : s.exact = true) {b : Bytes} (hl : s.size ≤ b.length) :
    s.pack P (unpackToks P s.byteOrder s.toks 0 (b.take s.size)) = .ok (b.take s.size) := by
  simp only [StructSer.exact, Bool.and_eq_true] at he
  unfold StructSer.pack structPack
  rw [if_pos (unpackToks_length ..)]
  have := packToks_unpackToks (P := P) (bo := s.byteOrder) s.toks 0 (b.take s.size) [] he.2
    (by rw [List.length_take, Nat.zero_add, Nat.min_eq_left hl]; rfl)
  rwa [List.append_nil] at this

/-- What a struct read, packed again. -/
theorem structDec_exact {s : StructSer} (he : s.exact = true) {src : PSrc} {b : Bytes} (hv : Views src b) {r : List Val × Nat}
    (h : structDec env s src = .ok r) :
    s.size ≤ b.length ∧ r.2 = src.ahead s.size ∧ r.1 = unpackToks env.plat s.byteOrder s.toks 0 (b.take s.size) ∧
      r.1.length = s.numValues ∧ s.pack env.plat r.1 = .ok (b.take s.size) := by
  rw [structDec_same hv] at h
  cases hb : structDec env s (.buf b) with
  | error e => rw [hb] at h; cases h
  | ok x =>
    rw [hb] at h
    cases h
    obtain ⟨h1, _, h3⟩ := structDec_buf hb
    have ha : s.actions = none := by
      simp only [StructSer.exact, Bool.and_eq_true, Option.isNone_iff_eq_none] at he
      exact he.1
    simp only [StructSer.applyActions, ha, Except.ok.injEq] at h3
    refine ⟨h1, rfl, h3.symm, ?_, ?_⟩
    · show x.1.length = _
      rw [← h3]; exact unpackToks_take_length
    · show s.pack env.plat x.1 = _
      rw [← h3]; exact struct_exact he h1

end Verif
