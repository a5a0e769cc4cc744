import Verif.Proofs.IntLemmas
import Verif.Proofs.ActionLemmas
import Verif.Proofs.ByteOrderLemmas
import Verif.Spec.Scalars
/-
Lemmas about formats with one item, for the theorems on the basic types and on strings of fixed length.
-/
namespace Verif
open Spec

theorem Val.truthy_false_iff : ∀ v : Val, v.truthy = false ↔ Falsy v
  | .none => ⟨fun _ => .none, fun _ => rfl⟩
  | .int i => by
    refine ⟨fun h => ?_, fun h => by cases h; rfl⟩
    have : i = 0 := by simpa [Val.truthy] using h
    subst this; exact .zero
  | .bool b => by
    refine ⟨fun h => ?_, fun h => by cases h; rfl⟩
    have : b = false := h
    subst this; exact .false
  | .float f => by
    refine ⟨fun h => ?_, fun h => by cases h <;> rfl⟩
    simp only [Val.truthy, Bool.and_eq_false_iff, bne_eq_false_iff_eq] at h
    rcases h with rfl | rfl
    · exact .posZero
    · exact .negZero
  | .bytes b => by
    refine ⟨fun h => ?_, fun h => by cases h; rfl⟩
    cases b with
    | nil => exact .bytes
    | cons => cases h
  | .str b => by
    refine ⟨fun h => ?_, fun h => by cases h; rfl⟩
    cases b with
    | nil => exact .str
    | cons => cases h
  | .list b => by
    refine ⟨fun h => ?_, fun h => by cases h; rfl⟩
    cases b with
    | nil => exact .list
    | cons => cases h
  | .tup b => by
    refine ⟨fun h => ?_, fun h => by cases h; rfl⟩
    cases b with
    | nil => exact .tup
    | cons => cases h
  | .obj .. => ⟨fun h => by simp [Val.truthy] at h, fun h => by cases h⟩
  | .custom n v => by
    have ih := Val.truthy_false_iff v
    refine ⟨fun h => .custom (ih.1 (by simpa [Val.truthy] using h)), fun h => ?_⟩
    cases h with
    | custom h => simpa [Val.truthy] using ih.2 h
  | .gen => ⟨fun h => by simp [Val.truthy] at h, fun h => by cases h⟩

theorem Val.asIndex_iff : ∀ (v : Val) (i : Int), v.asIndex = some i ↔ Whole v i
  | .int j, i => by
    refine ⟨fun h => ?_, fun h => by cases h; rfl⟩
    have : j = i := by simpa [Val.asIndex, Val.strip] using h
    subst this; exact .int _
  | .bool b, i => by
    refine ⟨fun h => ?_, fun h => by cases h <;> rfl⟩
    cases b with
    | true =>
      have : (1 : Int) = i := by simpa [Val.asIndex, Val.strip] using h
      subst this; exact .true
    | false =>
      have : (0 : Int) = i := by simpa [Val.asIndex, Val.strip] using h
      subst this; exact .false
  | .custom n v, i => by
    have ih := Val.asIndex_iff v i
    have e : (Val.custom n v).asIndex = v.asIndex := by simp [Val.asIndex, Val.strip]
    rw [e, ih]
    exact ⟨.custom, fun h => by cases h; assumption⟩
  | .none, i | .float _, i | .bytes _, i | .str _, i | .list _, i | .tup _, i | .obj .., i | .gen, i =>
    ⟨fun h => by simp [Val.asIndex, Val.strip] at h, fun h => by cases h⟩

theorem Val.asFloat_iff (P : Platform) : ∀ (v : Val) (f : UInt64), v.asFloat P = some f ↔ Real P v f
  | .int j, f => by
    refine ⟨fun h => .whole (.int j) (by simpa [Val.asFloat, Val.strip] using h), fun h => ?_⟩
    cases h with
    | whole h e => cases h; simpa [Val.asFloat, Val.strip] using e
  | .bool b, f => by
    refine ⟨fun h => ?_, fun h => ?_⟩
    · cases b with
      | true => exact .whole .true (by simpa [Val.asFloat, Val.strip] using h)
      | false => exact .whole .false (by simpa [Val.asFloat, Val.strip] using h)
    · cases h with
      | whole h e => cases h <;> simpa [Val.asFloat, Val.strip] using e
  | .float g, f => by
    refine ⟨fun h => ?_, fun h => ?_⟩
    · have : g = f := by simpa [Val.asFloat, Val.strip] using h
      subst this; exact .float _
    · cases h with
      | float => rfl
      | whole h e => cases h
  | .custom n v, f => by
    have ih := Val.asFloat_iff P v f
    have e : (Val.custom n v).asFloat P = v.asFloat P := by simp [Val.asFloat, Val.strip]
    rw [e, ih]
    refine ⟨.custom, fun h => ?_⟩
    cases h with
    | custom h => exact h
    | whole h e => cases h with | custom h => exact .whole h e
  | .none, i | .bytes _, i | .str _, i | .list _, i | .tup _, i | .obj .., i | .gen, i =>
    ⟨fun h => by simp [Val.asFloat, Val.strip] at h, fun h => by cases h with | whole h _ => cases h⟩

theorem Val.asBytes_iff : ∀ (v : Val) (b : Bytes), v.asBytes = some b ↔ ByteString v b
  | .bytes c, b => by
    refine ⟨fun h => ?_, fun h => by cases h; rfl⟩
    have : c = b := by simpa [Val.asBytes, Val.strip] using h
    subst this; exact .bytes _
  | .custom n v, b => by
    have ih := Val.asBytes_iff v b
    have e : (Val.custom n v).asBytes = v.asBytes := by simp [Val.asBytes, Val.strip]
    rw [e, ih]
    exact ⟨.custom, fun h => by cases h; assumption⟩
  | .none, i | .int _, i | .bool _, i | .float _, i | .str _, i | .list _, i | .tup _, i | .obj .., i | .gen, i =>
    ⟨fun h => by simp [Val.asBytes, Val.strip] at h, fun h => by cases h⟩

theorem Val.asIndex_none {v : Val} (h : ∀ i, ¬ Whole v i) : v.asIndex = Option.none := by
  cases e : v.asIndex with
  | none => rfl
  | some i => exact absurd ((Val.asIndex_iff v i).1 e) (h i)

theorem Val.asFloat_none {P : Platform} {v : Val} (h : ∀ f, ¬ Real P v f) : v.asFloat P = Option.none := by
  cases e : v.asFloat P with
  | none => rfl
  | some f => exact absurd ((Val.asFloat_iff P v f).1 e) (h f)

theorem Val.asBytes_none {v : Val} (h : ∀ b, ¬ ByteString v b) : v.asBytes = Option.none := by
  cases e : v.asBytes with
  | none => rfl
  | some b => exact absurd ((Val.asBytes_iff v b).1 e) (h b)

/-- Codes that are packed value by value. -/
def Code.isSingle : Code → Bool
  | .pad | .str | .pas => false
  | _ => true

theorem single_pack {s : StructSer} {c : Code} (ht : s.toks = [⟨1, c⟩]) (hc : c.isSingle = true) (P : Platform) (v : Val) :
    s.pack P [v] = packOne P s.byteOrder c v := by
  have hpad : padLen (c.align s.byteOrder.isNative) 0 = 0 := padLen_eq_zero (Nat.zero_mod _)
  have hn : numVals [⟨1, c⟩] = 1 := by cases c <;> first | rfl | cases hc
  have hpt : packTok P s.byteOrder ⟨1, c⟩ [v] = packMany P s.byteOrder c 1 [v] := by
    cases c <;> first | rfl | cases hc
  simp only [StructSer.pack, structPack, ht, hn, List.length_cons, List.length_nil, packToks, hpt, packMany,
    bind, Except.bind]
  cases packOne P s.byteOrder c v with
  | error e => rfl
  | ok b => simp [hpad]

theorem single_size {s : StructSer} {c : Code} (ht : s.toks = [⟨1, c⟩]) : s.size = c.bytes s.byteOrder.isNative := by
  have hpad : padLen (c.align s.byteOrder.isNative) 0 = 0 := padLen_eq_zero (Nat.zero_mod _)
  simp [StructSer.size, ht, sizeToks, endOff, hpad, Tok.bytes]

theorem single_unpack {s : StructSer} {c : Code} (ht : s.toks = [⟨1, c⟩]) (hc : c.isSingle = true) (ha : s.actions = none)
    (P : Platform) (b r : Bytes) (hb : b.length = c.bytes s.byteOrder.isNative) :
    s.unpack P (b ++ r) = .ok [unpackOne P s.byteOrder c b] := by
  have hpad : padLen (c.align s.byteOrder.isNative) 0 = 0 := padLen_eq_zero (Nat.zero_mod _)
  have h4 := single_size ht
  have hsz : sizeToks s.byteOrder.isNative [⟨1, c⟩] = c.bytes s.byteOrder.isNative := by
    rw [StructSer.size, ht] at h4; exact h4
  have hut : ∀ d, unpackTok P s.byteOrder ⟨1, c⟩ d = unpackMany P s.byteOrder c 1 d := by
    intro d; cases c <;> first | rfl | cases hc
  simp only [StructSer.unpack, h4, structUnpack, ht, hsz]
  rw [List.take_left' hb]
  have : (List.take (c.bytes s.byteOrder.isNative) b) = b := List.take_of_length_le (by omega)
  simp [hb, unpackToks, hpad, Tok.bytes, hut, unpackMany, this, bind, Except.bind, StructSer.applyActions, ha]

/-- The same for one string. -/
theorem str_pack {s : StructSer} {n : Nat} (ht : s.toks = [⟨n, .str⟩]) (P : Platform) (v : Val) :
    s.pack P [v] = match v.asBytes with | some b => .ok (fitTo n b) | none => .error .structError := by
  simp only [StructSer.pack, structPack, ht, numVals, List.map_cons, Tok.numVals, List.map_nil,
    List.sum_cons, List.sum_nil, List.length_cons, List.length_nil, packToks, packTok, bind, Except.bind]
  have hpad : padLen (Code.str.align s.byteOrder.isNative) 0 = 0 := padLen_eq_zero (Nat.zero_mod _)
  cases v.asBytes with
  | none => rfl
  | some b => simp [hpad]

theorem strs_size {s : StructSer} {n : Nat} {c : Code} (ht : s.toks = [⟨n, c⟩]) (hc : c = .str ∨ c = .pas) : s.size = n := by
  have hpad : padLen (c.align s.byteOrder.isNative) 0 = 0 := padLen_eq_zero (Nat.zero_mod _)
  rcases hc with rfl | rfl <;> simp [StructSer.size, ht, sizeToks, endOff, hpad, Tok.bytes, Code.bytes]

theorem strs_unpack {s : StructSer} {n : Nat} {c : Code} (ht : s.toks = [⟨n, c⟩]) (hc : c = .str ∨ c = .pas)
    (ha : s.actions = none) (P : Platform) (d r : Bytes) (hd : d.length = n) :
    s.unpack P (d ++ r) = .ok (unpackTok P s.byteOrder ⟨n, c⟩ d) := by
  have hpad : padLen (c.align s.byteOrder.isNative) 0 = 0 := padLen_eq_zero (Nat.zero_mod _)
  have h4 := strs_size ht hc
  have hsz : sizeToks s.byteOrder.isNative [⟨n, c⟩] = n := by
    rw [StructSer.size, ht] at h4; exact h4
  have hby : Tok.bytes s.byteOrder.isNative ⟨n, c⟩ = n := by
    rcases hc with rfl | rfl <;> simp [Tok.bytes, Code.bytes]
  simp only [StructSer.unpack, h4, structUnpack, ht, hsz]
  rw [List.take_left' hd]
  have : List.take n d = d := List.take_of_length_le (by omega)
  simp [hd, unpackToks, hpad, hby, this, bind, Except.bind, StructSer.applyActions, ha]

theorem pas_pack {s : StructSer} {n : Nat} (ht : s.toks = [⟨n, .pas⟩]) (P : Platform) (v : Val) :
    s.pack P [v] = match v.asBytes with
      | some b => .ok (fitTo n (UInt8.ofNat (min (min b.length (n - 1)) 255) :: b.take (n - 1)))
      | none => .error .structError := by
  simp only [StructSer.pack, structPack, ht, numVals, List.map_cons, Tok.numVals, List.map_nil,
    List.sum_cons, List.sum_nil, List.length_cons, List.length_nil, packToks, packTok, bind, Except.bind]
  have hpad : padLen (Code.pas.align s.byteOrder.isNative) 0 = 0 := padLen_eq_zero (Nat.zero_mod _)
  cases v.asBytes with
  | none => rfl
  | some b => simp [hpad]

theorem fitTo_fitted (n : Nat) (b : Bytes) : Fitted n b (fitTo n b) := by
  refine ⟨fitTo_length n b, fun i hi => ?_⟩
  unfold fitTo
  by_cases h : i < b.length
  · rw [List.getElem?_append_left (by simp; omega), List.getElem?_take_of_lt hi]
    simp [h]
  · rw [List.getElem?_append_right (by simp; omega), List.getElem?_replicate]
    rw [if_pos (by simp; omega), List.getElem?_eq_none (by omega)]; rfl

theorem fitted_unique {n : Nat} {b d e : Bytes} (h : Fitted n b d) (h' : Fitted n b e) : d = e := by
  apply List.ext_getElem?
  intro i
  by_cases hi : i < n
  · rw [h.2 i hi, h'.2 i hi]
  · rw [List.getElem?_eq_none (by have := h.1; omega), List.getElem?_eq_none (by have := h'.1; omega)]

/-- Giving a format of one item another byte order keeps the item. -/
theorem toks_wbo {s r : StructSer} {bo : ByteOrder} (hs : StructSer.formatOk s.format = true)
    (hn : parse false s.baseFormat = some s.toks) (h : s.withByteOrder bo = .ok r) :
    r.byteOrder = bo ∧ r.toks = s.toks ∧ r.actions = s.actions := by
  obtain ⟨h1, _, h3, h4, h5⟩ := structWbo hs h
  refine ⟨h1, ?_, h5⟩
  have hp := StructSer.parse_base h3
  rw [h4] at hp
  cases hb : r.byteOrder.isNative with
  | false => rw [hb, hn] at hp; exact (Option.some.inj hp).symm
  | true => rw [hb, show parse true s.baseFormat = some s.toks from parseAux_mode hn] at hp; exact (Option.some.inj hp).symm

theorem orderBytes_little (P : Platform) (bo : ByteOrder) (w : Nat) (n : Nat) :
    orderBytes (bo.little P) (leBytes w n) = intBytes P bo w n := by
  rw [leBytes_eq_digits]
  cases bo <;> simp only [ByteOrder.little, intBytes, orderBytes] <;> rfl

theorem intBytes_len (P : Platform) (bo : ByteOrder) (w n : Nat) : (intBytes P bo w n).length = w := by
  rw [← orderBytes_little, orderBytes_length, leBytes_length]

/-- Every string of `w` bytes is the encoding of the number it decodes to, which is in range. -/
theorem encodeInt_decodeInt (l s : Bool) (b : Bytes) (hw : 0 < b.length) :
    intInRange s b.length (decodeInt l s b.length b) = true ∧
    encodeInt l s b.length (decodeInt l s b.length b) = .ok b := by
  have hlt := leNat_lt (orderBytes l b)
  rw [orderBytes_length] at hlt
  have hb := leBytes_leNat (orderBytes l b)
  rw [orderBytes_length] at hb
  have hp : (256 : Nat) ^ b.length = 2 ^ (8 * b.length) := by rw [show (256 : Nat) = 2 ^ 8 from rfl, ← Nat.pow_mul]
  rw [hp] at hlt
  have h2 : (2 : Nat) ^ (8 * b.length) = 2 * 2 ^ (8 * b.length - 1) := by
    rw [← Nat.pow_succ', show (8 * b.length - 1).succ = 8 * b.length by omega]
  have h2i : (2 : Int) ^ (8 * b.length) = ((2 ^ (8 * b.length) : Nat) : Int) := by simp
  have h2j : (2 : Int) ^ (8 * b.length - 1) = ((2 ^ (8 * b.length - 1) : Nat) : Int) := by simp
  generalize hu : leNat (orderBytes l b) = u at *
  have hd : decodeInt l s b.length b = if s && decide (2 ^ (8 * b.length - 1) ≤ u) then (u : Int) - 2 ^ (8 * b.length) else u := by
    unfold decodeInt; rw [hu]
  have hr : intInRange s b.length (decodeInt l s b.length b) = true := by
    rw [hd, intInRange_iff]
    unfold InRange
    rw [h2i, h2j]
    cases s with
    | false => simp; omega
    | true =>
      simp only [Bool.true_and, decide_eq_true_eq, ↓reduceIte]
      split <;> omega
  refine ⟨hr, ?_⟩
  unfold encodeInt
  rw [if_pos hr]
  have hm : (decodeInt l s b.length b % (2 ^ (8 * b.length) : Int)).toNat = u := by
    rw [hd, h2i]
    split
    · rw [Int.sub_emod_right, Int.emod_eq_of_lt (by omega) (by omega)]; simp
    · rw [Int.emod_eq_of_lt (by omega) (by omega)]; simp
  rw [hm, hb, orderBytes_orderBytes]

theorem scalar_facts (bo : ByteOrder) {ch : Char} {c : Code}
    (h : (ch, c) ∈ [('?', Code.bool), ('e', .half), ('f', .single), ('d', .double), ('c', .chr)]) :
    (scalarSer bo ch).toks = [⟨1, c⟩] ∧ (scalarSer bo ch).byteOrder = bo ∧ c.isSingle = true := by
  simp only [List.mem_cons, Prod.mk.injEq, List.not_mem_nil, or_false] at h
  rcases h with ⟨rfl, rfl⟩ | ⟨rfl, rfl⟩ | ⟨rfl, rfl⟩ | ⟨rfl, rfl⟩ | ⟨rfl, rfl⟩ <;> cases bo <;> decide

theorem scalar_pack (bo : ByteOrder) {ch : Char} {c : Code}
    (h : (ch, c) ∈ [('?', Code.bool), ('e', .half), ('f', .single), ('d', .double), ('c', .chr)]) (P : Platform) (v : Val) :
    (scalarSer bo ch).pack P [v] = packOne P bo c v := by
  obtain ⟨h1, h2, h3⟩ := scalar_facts bo h
  rw [single_pack h1 h3, h2]

theorem scalar_unpack (bo : ByteOrder) {ch : Char} {c : Code}
    (h : (ch, c) ∈ [('?', Code.bool), ('e', .half), ('f', .single), ('d', .double), ('c', .chr)]) (P : Platform) (b r : Bytes)
    (hb : b.length = c.bytes bo.isNative) :
    (scalarSer bo ch).unpack P (b ++ r) = .ok [unpackOne P bo c b] := by
  obtain ⟨h1, h2, h3⟩ := scalar_facts bo h
  rw [single_unpack h1 h3 rfl P b r (by rw [h2]; exact hb), h2]

/-- The digits in a byte order are read back. -/
theorem leNat_intBytes (P : Platform) (bo : ByteOrder) (w n : Nat) (hn : n < 256 ^ w) :
    leNat (orderBytes (bo.little P) (intBytes P bo w n)) = n := by
  rw [← orderBytes_little, orderBytes_orderBytes, leNat_leBytes, Nat.mod_eq_of_lt hn]

/-- Every byte string consists of the digits of a number. -/
theorem intBytes_surj (P : Platform) (bo : ByteOrder) (d : Bytes) :
    ∃ n : Nat, n < 256 ^ d.length ∧ d = intBytes P bo d.length n := by
  refine ⟨leNat (orderBytes (bo.little P) d), ?_, ?_⟩
  · have := leNat_lt (orderBytes (bo.little P) d)
    rwa [orderBytes_length] at this
  · rw [← orderBytes_little]
    have := leBytes_leNat (orderBytes (bo.little P) d)
    rw [orderBytes_length] at this
    rw [this, orderBytes_orderBytes]

/-- The error for numbers too large for a float format. -/
theorem tooLarge_eq (v : Val) : ((∃ i, Whole v i) → tooLarge v = .structError) ∧ ((∀ i, ¬ Whole v i) → tooLarge v = .overflowError) := by
  refine ⟨fun ⟨i, h⟩ => ?_, fun h => ?_⟩
  · simp [tooLarge, (Val.asIndex_iff v i).2 h]
  · simp [tooLarge, Val.asIndex_none h]

/-- `c @ n` for a format of one character. -/
theorem matmul_char {ch : Char} {c : Code} (hc : Code.ofChar ch = some c) (hno : c.nativeOnly = false)
    (hbo : (⟨[ch], none⟩ : StructSer).byteOrder = .default) (hbf : (⟨[ch], none⟩ : StructSer).baseFormat = [ch])
    (n : Nat) (hn : 0 < n) :
    ∃ s, StructSer.matmul ⟨[ch], none⟩ n = .ok (some s) ∧ s.toks = [⟨n, c⟩] ∧ s.actions = none ∧
      StructSer.formatOk s.format = true ∧ parse false s.baseFormat = some s.toks := by
  obtain ⟨m, rfl⟩ : ∃ m, n = m + 1 := ⟨n - 1, by omega⟩
  obtain ⟨f, hff, _, hfp⟩ := fold_repeat_single (nat := false) (cs := true) (ds := []) (by simp) hc (by simp [hno]) (.inl rfl) m
  have hfp : parse false f = some [⟨m + 1, c⟩] := by rw [hfp]; simp [countVal]
  have hft : parse true f = some [⟨m + 1, c⟩] := parseAux_mode hfp
  have hd : parse ByteOrder.default.isNative f = some [⟨m + 1, c⟩] := hft
  obtain ⟨o1, o2, o3, o4⟩ := StructSer.of_parse (a := none) hd
  by_cases hm : m = 0
  · subst hm
    have hf : f = [ch] := by simpa using hff.symm
    subst hf
    refine ⟨⟨[ch], none⟩, by simp [StructSer.matmul, StructSer.mulImpl], o4, rfl, o1, ?_⟩
    rw [hbf, hfp]; exact congrArg some o4.symm
  · have hpos : ¬ ((m + 1 : Nat) : Int) = 0 ∧ ¬ ((m + 1 : Nat) : Int) < 0 ∧ ¬ ((m + 1 : Nat) : Int) = 1 := by
      omega
    have hto : ((m + 1 : Nat) : Int).toNat - 1 = m := by omega
    refine ⟨⟨ByteOrder.default.value ++ f, none⟩, ?_, o4, rfl, o1, ?_⟩
    · have hff' : (List.replicate m [ch]).foldl (foldOverlaps true) [ch] = f := by simpa using hff
      simp only [StructSer.matmul, StructSer.mulImpl, hpos, ↓reduceIte, hto, StructSer.remake, hbo,
        hbf, hff', StructSer.mkPlain_ok hd, bind, Except.bind]
    · rw [o3, hfp]; exact congrArg some o4.symm

end Verif
