import Verif.Spec.Strings
import Verif.Proofs.StringPack
import Verif.Samples
/-
C14 (length-prefixed strings), C15 (terminated strings), C16 (.NET strings), C17 (text).

`Shows src st d` says that `unpack`, `unpack_from` or `unpack_read` starts in front of the bytes `d`;
`Moved src k st st'` that it left everything alone but moved a stream it read from by `k` bytes.
-/
namespace Verif
open Spec Samples Sem

theorem Spec.Shows.views {src : Src} {st : St} {d : Bytes} (h : Shows src st d) : Views (src.sem st) d := by
  cases src <;> exact h

theorem moved_of_adv {src : Src} {k : Nat} {st st' : St} (h : Adv src ((src.sem st).ahead k) st st') : Moved src k st st' := by
  cases src with
  | buf b => exact ⟨h.buf, h.data, by rw [h.other (by simp)]; rfl⟩
  | «at» b off => exact ⟨h.buf, h.data, by rw [h.other (by simp)]; rfl⟩
  | io => exact ⟨h.buf, h.data, by rw [h.ioPos rfl]; rfl⟩

theorem intBytes_pack {ch : Char} {s : Bool} {w : Nat} (h : (ch, s, w) ∈ intTypes) (P : Platform) (bo : ByteOrder)
    (i : Int) (hi : InRange s w i) : (intSer bo ch).pack P [.int i] = .ok (intBytes P bo w i) := by
  cases bo with
  | le => exact C13_little_endian h P i hi
  | be => exact C13_big_endian h P i hi .be (.inl rfl)
  | network => exact C13_big_endian h P i hi .network (.inr rfl)
  | default => exact C13_native_order h P i hi .default (.inl rfl)
  | native => exact C13_native_order h P i hi .native (.inr (.inl rfl))
  | nativeStd => exact C13_native_order h P i hi .nativeStd (.inr (.inr rfl))

@[simp] theorem intBytes_length (P : Platform) (bo : ByteOrder) (w : Nat) (i : Int) : (intBytes P bo w i).length = w := by
  have h : (digitsLE w i).length = w := by simp [digitsLE]
  unfold intBytes
  split <;> try split
  all_goals simp [h]

theorem intSer_isCount {ch : Char} {w : Nat} (h : (ch, false, w) ∈ intTypes) (bo : ByteOrder) : (intSer bo ch).isCount = true := by
  obtain ⟨wd, h1, _⟩ := intSer_facts h bo
  simp only [StructSer.isCount, h1]
  rfl

theorem inRange_count {w k : Nat} : InRange false w (k : Int) ↔ k < 256 ^ w := by
  have : (2 : Int) ^ (8 * w) = ((256 ^ w : Nat) : Int) := by
    rw [show (256 : Nat) = 2 ^ 8 from rfl, ← Nat.pow_mul]; simp
  simp only [InRange, Bool.false_eq_true, ↓reduceIte, this]
  omega

/-! ### C14 -/

/-- **C14** (packing, partial).  A non-empty byte string that is short enough is packed as its length followed by
its bytes.  Missing, and false: the empty string (`C14_empty_is_false`) and any byte order but the default
(`C14_byte_order_is_false`). -/
theorem C14_pack_partial {ch : Char} {w : Nat} (h : (ch, false, w) ∈ intTypes) (env : Env) (n : Nat) (id : SerId)
    (b : Bytes) (hb : b ≠ []) (hl : b.length < 256 ^ w) (st : St) :
    result (pack env (n + 1) (.dynChar id (intSer .default ch)) [.bytes b] st)
      = .ok (intBytes env.plat .default w b.length ++ b) := by
  have he := dynChar_enc (env := env) (n := n) (id := id) (intSer_isCount h .default) (v := .bytes b)
    (by obtain ⟨_, _, _, h3, _⟩ := intSer_facts h .default; exact h3) (b := b) rfl hb
  rw [intBytes_pack h _ _ _ (inRange_count.2 hl)] at he
  obtain ⟨st', h1, _⟩ := pack_of_enc he st
  rw [h1]; rfl

/-- **C14** (too long).  A longer byte string raises `struct.error`; nothing is cut off. -/
theorem C14_too_long {ch : Char} {w : Nat} (h : (ch, false, w) ∈ intTypes) (env : Env) (n : Nat) (id : SerId)
    (b : Bytes) (hl : 256 ^ w ≤ b.length) (st : St) :
    result (pack env (n + 1) (.dynChar id (intSer .default ch)) [.bytes b] st) = .error .structError := by
  have hb : b ≠ [] := by
    rintro rfl
    have := Nat.pow_pos (n := w) (show 0 < 256 by decide)
    simp at hl
  have he := dynChar_enc (env := env) (n := n) (id := id) (intSer_isCount h .default) (v := .bytes b)
    (by obtain ⟨_, _, _, h3, _⟩ := intSer_facts h .default; exact h3) (b := b) rfl hb
  rw [C13_out_of_range h _ _ (fun hi => by have := inRange_count.1 hi; omega)] at he
  obtain ⟨st', h1⟩ := pack_of_enc_err he st
  rw [h1]; rfl

/-- **C14** (unpacking).  In every byte order and through every method the string is read back, whatever follows,
exactly its bytes are used, and `size` is their number.  (For `unpack_from` and `unpack_read` the string must not be
empty: `C14_empty_unpack_is_false`.) -/
theorem C14_unpack_partial {ch : Char} {w : Nat} (h : (ch, false, w) ∈ intTypes) (env : Env) (n : Nat) (upd : Upd) (id : SerId)
    (bo : ByteOrder) (b rest : Bytes) (hl : b.length < 256 ^ w) (src : Src) (st : St)
    (hs : Shows src st (intBytes env.plat bo w b.length ++ b ++ rest)) (hb : b = [] → ∃ x, src = .buf x) :
    ∃ st', unpack env (n + 1) upd (.dynChar id (intSer bo ch)) src st = .ok [.bytes b] st' ∧
      Moved src (w + b.length) st st' ∧
      (Ser.dynChar id (intSer bo ch)).readSize st' = .ok (w + b.length) st' := by
  have hd := dynChar_dec (env := env) (n := n) (upd := upd) (id := id) (intSer_isCount h bo)
    (intBytes_pack h env.plat bo b.length (inRange_count.2 hl)) hs.views (fun hsrc h0 => by
      obtain ⟨x, rfl⟩ := hb h0
      simp [Src.sem, PSrc.isBuf] at hsrc)
  obtain ⟨st', h1, h2, h3⟩ := unpack_of_dec hd
  have e : (intBytes env.plat bo w ↑b.length ++ b).length = w + b.length := by simp
  simp only [e] at h2 h3
  exact ⟨st', h1, moved_of_adv h2, h3 rfl⟩

/-- `b'abc'` as `char[uint16]`. -/
example : ('H', false, 2) ∈ intTypes ∧
    result (pack Samples.env 1 (.dynChar [7] (intSer .default 'H')) [.bytes [97, 98, 99]] st0) = .ok [3, 0, 97, 98, 99] ∧
    Shows .io ⟨fun _ => {}, [], ⟨[9, 0, 3, 97, 98, 99, 1], 1⟩⟩ (intBytes plat .be 2 3 ++ [97, 98, 99] ++ [1]) := by
  refine ⟨by decide, by rfl, by rfl⟩

/-- **C14 is false in full** (empty string).  `b''` cannot be packed with any length prefix. -/
theorem C14_empty_is_false {ch : Char} {w : Nat} (h : (ch, false, w) ∈ intTypes) (env : Env) (n : Nat) (id : SerId)
    (bo : ByteOrder) (st : St) :
    result (pack env (n + 1) (.dynChar id (intSer bo ch)) [.bytes []] st) = .error .structError := by
  obtain ⟨wd, h1, _⟩ := intSer_facts h bo
  have : enc env (n + 1) (.dynChar id (intSer bo ch)) none [.bytes []] = .err .structError := by
    have hm : singleChar.matmul ((0 : Nat) : Int) = .ok none := by rfl
    simp only [enc, dynCharPrep, first, pyLen, Val.strip, bind, Except.bind, List.length_nil, hm, StructSer.addN,
      StructSer.pack, structPack, h1]
    rfl
  obtain ⟨st', h2⟩ := pack_of_enc_err this st
  rw [h2]; rfl

/-- **C14 is false in full** (empty string, reading).  `unpack_from` and `unpack_read` return no value for it. -/
theorem C14_empty_unpack_is_false :
    result (unpack Samples.env 1 noUpd (.dynChar [7] (intSer .default 'B')) (.at [0] 0) st0) = .ok [] ∧
    result (unpack Samples.env 1 noUpd (.dynChar [7] (intSer .default 'B')) .io ⟨fun _ => {}, [], ⟨[0], 0⟩⟩) = .ok [] ∧
    result (unpack Samples.env 1 noUpd (.dynChar [7] (intSer .default 'B')) (.buf [0]) st0) = .ok [.bytes []] :=
  ⟨by rfl, by rfl, by rfl⟩

/-- **C14 is false in full** (byte order).  Nothing can be packed when the length prefix has a byte order: every
non-empty string raises `ValueError`. -/
theorem C14_byte_order_is_false {ch : Char} {w : Nat} (h : (ch, false, w) ∈ intTypes) (env : Env) (n : Nat) (id : SerId)
    (bo : ByteOrder) (hbo : bo ≠ .default) (b : Bytes) (hb : b ≠ []) (st : St) :
    result (pack env (n + 1) (.dynChar id (intSer bo ch)) [.bytes b] st) = .error .valueError := by
  obtain ⟨_, _, _, h3, _⟩ := intSer_facts h bo
  obtain ⟨s, m1, m2, _, m4⟩ := singleChar_matmul b.length (List.length_pos_iff.2 hb)
  have hadd : (intSer bo ch).add s = .error .valueError :=
    C09_add_byte_order_conflict _ _ rfl m4 (by rw [h3, m2]; exact hbo)
  have : enc env (n + 1) (.dynChar id (intSer bo ch)) none [.bytes b] = .err .valueError := by
    simp only [enc, dynCharPrep, first, pyLen, Val.strip, bind, Except.bind, m1, StructSer.addN, hadd]
    rfl
  obtain ⟨st', h2⟩ := pack_of_enc_err this st
  rw [h2]; rfl

/-! ### C15 -/

/-- **C15** (packing, partial).  The bytes and a terminator behind them.  The code adds the terminator always, also
when it is there already: see `C15_full_is_false`. -/
theorem C15_pack_partial (env : Env) (n : Nat) (id : SerId) (t : Byte) (b : Bytes) (st : St) :
    result (pack env (n + 1) (.terminated id t) [.bytes b] st) = .ok (b ++ [t]) := by
  obtain ⟨st', h1, _⟩ := pack_of_enc (term_enc (env := env) (n := n) (id := id) (term := t) (v := .bytes b) rfl) st
  rw [h1]; rfl

/-- **C15 is false in full.**  A string that ends with its terminator gets another one. -/
theorem C15_full_is_false : result (pack Samples.env 1 (.terminated [7] 0) [.bytes [97, 0]] st0) = .ok [97, 0, 0] := by rfl

/-- **C15** (unpacking).  The bytes in front of the first terminator are returned, through every method, for strings
of any length (so over any number of 256-byte chunks of a stream), and a stream is left just behind the terminator. -/
theorem C15_unpack (env : Env) (n : Nat) (upd : Upd) (id : SerId) (t : Byte) (b rest : Bytes) (ht : t ∉ b) (src : Src) (st : St)
    (hs : Shows src st (b ++ t :: rest)) :
    ∃ st', unpack env (n + 1) upd (.terminated id t) src st = .ok [.bytes b] st' ∧ Moved src (b.length + 1) st st' ∧
      ((∀ x off, src = .at x off → off = 0) → (Ser.terminated id t).readSize st' = .ok (b.length + 1) st') := by
  have hf := findTerm_notMem (t := t) (b := b) (r := rest) ht
  have hd : dec env (n + 1) upd (.terminated id t) none (src.sem st) = .ok
      ⟨[.bytes b], (match src with | .at _ off => off + b.length + 1 | _ => b.length + 1), (src.sem st).ahead (b.length + 1), []⟩ := by
    cases src with
    | buf x => cases hs; simp [dec, Src.sem, terminatedDec, hf, Out.ofE, PSrc.ahead]
    | «at» x off =>
      obtain ⟨_, h2⟩ := hs
      simp [dec, Src.sem, terminatedDec, h2, hf, Out.ofE, PSrc.ahead]
    | io =>
      have hs : st.io.data.drop st.io.pos = _ := hs
      simp only [dec, Src.sem, terminatedDec, hs]
      rw [termReadLoop_eq t _ _ _ _ (Nat.lt_succ_self _), hf]
      simp [Out.ofE, PSrc.ahead]
  obtain ⟨st', h1, h2, h3⟩ := unpack_of_dec hd
  refine ⟨st', h1, moved_of_adv h2, fun ho => ?_⟩
  rw [h3 rfl]
  cases src with
  | buf x => rfl
  | io => rfl
  | «at» x off =>
    have := ho x off rfl
    subst this
    simp

/-- **C15** (no terminator).  Data without a terminator raises `ValueError`, through every method. -/
theorem C15_unterminated (env : Env) (n : Nat) (upd : Upd) (id : SerId) (t : Byte) (d : Bytes) (ht : t ∉ d) (src : Src) (st : St)
    (hs : Shows src st d) : result (unpack env (n + 1) upd (.terminated id t) src st) = .error .valueError := by
  have hf : findTerm t d = none := by
    clear hs
    induction d with
    | nil => rfl
    | cons x d ih =>
      simp only [List.mem_cons, not_or] at ht
      simp [findTerm, ih ht.2, Ne.symm ht.1]
  have hd : dec env (n + 1) upd (.terminated id t) none (src.sem st) = .err .valueError := by
    cases src with
    | buf x => cases hs; simp [dec, Src.sem, terminatedDec, hf, Out.ofE]
    | «at» x off =>
      obtain ⟨_, h2⟩ := hs
      simp [dec, Src.sem, terminatedDec, h2, hf, Out.ofE]
    | io =>
      have hs : st.io.data.drop st.io.pos = _ := hs
      simp only [dec, Src.sem, terminatedDec, hs]
      rw [termReadLoop_eq t _ _ _ _ (Nat.lt_succ_self _), hf]
      rfl
  obtain ⟨st', h1⟩ := unpack_of_dec_err hd
  rw [h1]; rfl

/-- `b'ab'` terminated by NUL, at offset 1. -/
example : (0 : Byte) ∉ ([97, 98] : Bytes) ∧ Shows (.at [5, 97, 98, 0, 7] 1) st0 ([97, 98] ++ 0 :: [7]) := by
  refine ⟨by decide, by decide, by rfl⟩

/-- **C15 is false in full** (size).  After `unpack_from` at an offset the size is too large by that offset (the field
behind the string is then read from the wrong place, `C03_full_is_false`). -/
theorem C15_size_is_false :
    let r := unpack Samples.env 1 noUpd (.terminated [7] 0) (.at [5, 97, 98, 0, 7] 1) st0
    result r = .ok [.bytes [97, 98]] ∧ result ((Ser.terminated [7] 0).readSize (after r)) = .ok 4 := ⟨by rfl, by rfl⟩

/-! ### C16 -/

/-- The length marker of a .NET string: one byte below 128; otherwise two, the lower seven bits with the flag 0x80 and
the upper bits in the byte behind (`strings.py:254-283`). -/
def netHeader (P : Platform) (k : Nat) : Bytes :=
  if k < 128 then [UInt8.ofNat k] else intBytes P .default 2 (128 + k % 128 + 256 * (k / 128) : Nat)

theorem netHeader_pack (P : Platform) (k : Nat) (hk : k ≤ 0x7FFF) :
    (if k < 128 then shortLen.pack P [.int k] else longLen.pack P [.int (netMark k)]) = .ok (netHeader P k) := by
  unfold netHeader
  by_cases h : k < 128
  · rw [if_pos h, if_pos h, shortLen_eq, intBytes_pack (ch := 'B') (s := false) (w := 1) (by decide) P .default _
      (inRange_count.2 (by omega))]
    have hd : digitsLE 1 (k : Int) = [UInt8.ofNat k] := by
      have e : ((k : Int) % 256).toNat = k := by omega
      simp [digitsLE, List.range_succ, e]
    simp only [intBytes, hd, List.reverse_singleton, ite_self]
  · rw [if_neg h, if_neg h, longLen_eq, intBytes_pack (ch := 'H') (s := false) (w := 2) (by decide) P .default _
      (inRange_count.2 (by have := netMark_lt k hk; omega)), netMark_eq]
    rw [Nat.mod_eq_of_lt (show k / 128 < 512 by omega)]

/-- **C16** (packing, partial).  Every string of 1 to 0x7FFF bytes is packed as its marker and its bytes.  Missing, and
false: the empty string (`C16_empty_is_false`). -/
theorem C16_pack_partial (env : Env) (n : Nat) (id : SerId) (b : Bytes) (hb : b ≠ []) (hl : b.length ≤ 0x7FFF) (st : St) :
    result (pack env (n + 1) (.net id) [.bytes b] st) = .ok (netHeader env.plat b.length ++ b) := by
  have he := net_enc (env := env) (n := n) (id := id) (v := .bytes b) (b := b) rfl hb hl
  rw [netHeader_pack _ _ hl] at he
  obtain ⟨st', h1, _⟩ := pack_of_enc he st
  rw [h1]; rfl

/-- **C16** (too long).  More than 0x7FFF bytes raise `ValueError`. -/
theorem C16_too_long (env : Env) (n : Nat) (id : SerId) (b : Bytes) (hl : 0x7FFF < b.length) (st : St) :
    result (pack env (n + 1) (.net id) [.bytes b] st) = .error .valueError := by
  obtain ⟨st', h1⟩ := pack_of_enc_err (net_enc_long (env := env) (n := n) (id := id) (v := .bytes b) (b := b) rfl hl) st
  rw [h1]; rfl

/-- **C16** (unpacking, partial).  Marker and bytes are read back, through every method; exactly they are used.
Missing, and false: long strings on a big-endian host (`C16_big_endian_is_false`). -/
theorem C16_unpack_partial (env : Env) (n : Nat) (upd : Upd) (id : SerId) (b rest : Bytes) (hl : b.length ≤ 0x7FFF)
    (he : b.length < 128 ∨ env.plat.le = true) (src : Src) (st : St)
    (hs : Shows src st (netHeader env.plat b.length ++ b ++ rest)) :
    ∃ st', unpack env (n + 1) upd (.net id) src st = .ok [.bytes b] st' ∧
      Moved src ((if b.length < 128 then 1 else 2) + b.length) st st' ∧
      (Ser.net id).readSize st' = .ok ((if b.length < 128 then 1 else 2) + b.length) st' := by
  have hh := netHeader_pack env.plat b.length hl
  have hlen : (netHeader env.plat b.length ++ b).length = (if b.length < 128 then 1 else 2) + b.length := by
    unfold netHeader; split <;> simp <;> omega
  have hbuf : netDec env (.buf (netHeader env.plat b.length ++ b))
      = .ok ⟨[.bytes b], (netHeader env.plat b.length ++ b).length, 0, []⟩ := by
    by_cases h : b.length < 128
    · rw [if_pos h] at hh
      exact netDec_short h hh rfl
    · rw [if_neg h] at hh
      exact netDec_long (he.resolve_left h) hl hh rfl
  have hd : dec env (n + 1) upd (.net id) none (src.sem st) = .ok
      ⟨[.bytes b], (netHeader env.plat b.length ++ b).length, (src.sem st).ahead (netHeader env.plat b.length ++ b).length, []⟩ := by
    simp only [dec]
    rw [net_ext hbuf hs.views (Nat.le_refl _)]
    rfl
  obtain ⟨st', h1, h2, h3⟩ := unpack_of_dec hd
  simp only [hlen] at h2 h3
  exact ⟨st', h1, moved_of_adv h2, h3 rfl⟩

example : netHeader plat 300 = [0xAC, 2] ∧ netHeader plat 5 = [5] ∧
    Shows (.buf [2, 97, 98, 9]) st0 (netHeader plat 2 ++ [97, 98] ++ [9]) := ⟨by rfl, by rfl, by rfl⟩

/-- **C16 is false in full** (empty string). -/
theorem C16_empty_is_false (env : Env) (n : Nat) (id : SerId) (st : St) :
    result (pack env (n + 1) (.net id) [.bytes []] st) = .error .structError := by
  have : enc env (n + 1) (.net id) none [.bytes []] = .err .structError := by rfl
  obtain ⟨st', h2⟩ := pack_of_enc_err this st
  rw [h2]; rfl

/-- **C16 is false in full** (big-endian hosts).  There the marker of a long string has its flag in the second byte:
what was packed is read back with another length. -/
theorem C16_big_endian_is_false (env : Env) (hbe : env.plat.le = false) (n : Nat) (id : SerId) (b : Bytes)
    (h1 : 128 ≤ b.length) (h2 : b.length < 16384) (st st' : St) :
    ∃ d b', result (pack env (n + 1) (.net id) [.bytes b] st) = .ok d ∧
      result (unpack env (n + 1) noUpd (.net id) (.buf d) st') = .ok [.bytes b'] ∧ b'.length = b.length / 128 ∧ b' ≠ b := by
  refine ⟨_, ((netHeader env.plat b.length ++ b).drop 1).take (b.length / 128), C16_pack_partial env n id b (by rintro rfl; simp at h1) (by omega) st, ?_, ?_, ?_⟩
  · have hdig : digitsLE 2 ((128 + b.length % 128 + 256 * (b.length / 128) : Nat) : Int)
        = [UInt8.ofNat (128 + b.length % 128), UInt8.ofNat (b.length / 128)] := by
      simp only [digitsLE, List.range_succ, List.range_zero, List.nil_append, List.map_cons, List.map_nil,
        List.cons_append, Int.pow_zero, Int.ediv_one, Int.pow_one]
      congr 2
      · omega
      · congr 2
        omega
    have hh : netHeader env.plat b.length = [UInt8.ofNat (b.length / 128), UInt8.ofNat (128 + b.length % 128)] := by
      unfold netHeader
      rw [if_neg (by omega)]
      simp only [intBytes, hbe, hdig]
      rfl
    have hd : dec env (n + 1) noUpd (.net id) none (Src.sem (.buf (netHeader env.plat b.length ++ b)) st') = .ok
        ⟨[.bytes (((netHeader env.plat b.length ++ b).drop 1).take (b.length / 128))], 1 + b.length / 128, 0, []⟩ := by
      have ht : (UInt8.ofNat (b.length / 128)).toNat = b.length / 128 := by
        simp [UInt8.toNat_ofNat']; omega
      have hs1 : shortLen.size = 1 := by decide
      rw [hh]
      simp only [dec, Src.sem, netDec, List.cons_append, shortLen_first, bind, Except.bind, first, needInt, Val.asIndex, Val.strip, ht]
      rw [if_neg (by omega)]
      simp [Out.ofE, hs1]
      omega
    obtain ⟨s2, e1, _⟩ := unpack_of_dec hd
    rw [e1]; rfl
  · have : (netHeader env.plat b.length).length = 2 := by unfold netHeader; rw [if_neg (by omega)]; simp
    simp [this]; omega
  · intro h
    have := congrArg List.length h
    have h3 : (netHeader env.plat b.length).length = 2 := by unfold netHeader; rw [if_neg (by omega)]; simp
    simp [h3] at this
    omega

/-! ### C17 -/

/-- **C17** (packing).  A text is packed exactly as its encoding is by the byte string type inside; the same for
`pack_into` and `pack_write`. -/
theorem C17_pack (env : Env) (n : Nat) (inner : Ser) (en : Val → Except Err Bytes) (de : Bytes → Except Err PyStr)
    (v : Val) (b : Bytes) (h : en v = .ok b) :
    pack env (n + 1) (.unicode inner en de) [v] = pack env n inner [.bytes b] ∧
    packWrite env (n + 1) (.unicode inner en de) [v] = packWrite env n inner [.bytes b] ∧
    ∀ off, packInto env (n + 1) (.unicode inner en de) off [v] = packInto env n inner off [.bytes b] := by
  refine ⟨?_, ?_, fun off => ?_⟩ <;> funext st <;>
    simp [pack, packWrite, packInto, first, h, bind, Except.bind, M.bind, M.lift]

/-- **C17** (packing).  A text that cannot be encoded raises what the encoder raises; nothing is packed. -/
theorem C17_pack_fails (env : Env) (n : Nat) (inner : Ser) (en : Val → Except Err Bytes) (de : Bytes → Except Err PyStr)
    (v : Val) (e : Err) (h : en v = .error e) (st : St) :
    pack env (n + 1) (.unicode inner en de) [v] st = .err e st := by
  simp [pack, first, h, bind, Except.bind, M.bind, M.lift]

/-- **C17** (unpacking, partial).  Wherever the byte string type inside gives bytes that decode to `t`, the text is `t`
without the NULs at its end; so it is `t` itself when it does not end in a NUL.  Missing, and false: texts that end in
NUL (`C17_full_is_false`). -/
theorem C17_unpack_partial (env : Env) (n : Nat) (upd : Upd) (inner : Ser) (en : Val → Except Err Bytes) (de : Bytes → Except Err PyStr)
    (src : Src) (st st' : St) (b : Bytes) (hi : unpack env n noUpd inner src st = .ok [.bytes b] st') (t zeros : PyStr)
    (ht : t.getLast? ≠ some 0) (hz : ∀ c ∈ zeros, c = 0) (hd : de b = .ok (t ++ zeros)) :
    unpack env (n + 1) upd (.unicode inner en de) src st = .ok [.str t] st' := by
  have hr : rstripNul (t ++ zeros) = t := by
    unfold rstripNul
    rw [List.reverse_append, List.dropWhile_append_of_pos (by
      intro c hc
      simp [hz c (List.mem_reverse.1 hc)])]
    cases h : t.reverse with
    | nil => simp [List.reverse_eq_nil_iff.1 h]
    | cons c cs =>
      have hl : t.getLast? = some c := by rw [List.getLast?_eq_head?_reverse, h]; rfl
      have hc : (c == 0) = false := by
        cases hcc : (c == 0) with
        | false => rfl
        | true => rw [hl, eq_of_beq hcc] at ht; exact absurd rfl ht
      rw [List.dropWhile_cons, hc]
      simp only [Bool.false_eq_true, ↓reduceIte]
      rw [← h, List.reverse_reverse]
  simp [unpack, hi, bind, M.bind, M.lift, unicodeDecode, first, Except.bind, hd, hr]

/-- **C17 is false in full.**  No text ending in NUL ever comes back. -/
theorem C17_full_is_false (env : Env) (n : Nat) (upd : Upd) (inner : Ser) (en : Val → Except Err Bytes) (de : Bytes → Except Err PyStr)
    (src : Src) (st st' : St) (vs : List Val) (h : unpack env (n + 1) upd (.unicode inner en de) src st = .ok vs st') (t : PyStr) :
    vs ≠ [.str (t ++ [0])] := by
  rintro rfl
  simp only [unpack] at h
  obtain ⟨ws, s1, _, h⟩ := M.bind_ok h
  cases hu : unicodeDecode de ws with
  | error e => rw [hu] at h; cases h
  | ok r =>
    rw [hu] at h
    cases h
    unfold unicodeDecode at hu
    obtain ⟨v, _, hu⟩ := Except.bind_ok' hu
    split at hu
    · obtain ⟨x, _, hu⟩ := Except.bind_ok' hu
      have : rstripNul x = t ++ [0] := by simpa using hu
      have hrev := congrArg List.reverse this
      simp only [rstripNul, List.reverse_reverse, List.reverse_append, List.reverse_singleton, List.singleton_append] at hrev
      have := List.head?_dropWhile_not (fun c : Nat => c == 0) x.reverse
      rw [hrev] at this
      simp at this
    · cases hu

/-- The text `'hi'` in a `unicode[4]`: four bytes, the last two of them zero. -/
example (env : Env) : unpack env 2 noUpd (.unicode (.struct ⟨"4s".toList, none⟩) (fun _ => .ok [104, 105]) (fun b => .ok (b.map UInt8.toNat)))
    (.buf [104, 105, 0, 0]) st0 = .ok [.str [104, 105]] st0 :=
  C17_unpack_partial env 1 noUpd _ _ _ _ st0 st0 [104, 105, 0, 0] (by rfl) [104, 105] [0, 0] (by decide) (by decide) (by rfl)

end Verif
