import Verif.Spec.RoundTrip
import Verif.Proofs.ReadExt2
import Verif.Props.StructFormats
import Verif.Props.NetStrings
import Verif.Proofs.IntLemmas
import Verif.Proofs.ActionLemmas
/-
Reading back basic types, strings and arrays of basic types.
-/
namespace Verif
open Sem Spec

variable {env : Env}

/-! ### Structs -/

theorem unpackOne_stored {P : Platform} {bo : ByteOrder} {c : Code} {v : Val} {b : Bytes}
    (h : packOne P bo c v = .ok b) : unpackOne P bo c b = storedOne P c bo.isNative v := by
  cases c <;> simp only [packOne] at h <;> simp only [unpackOne, storedOne]
  case chr =>
    split at h
    · rename_i x hx; cases h; simp [hx]
    · cases h
  case int s w =>
    split at h
    · rename_i i hi
      rw [decodeInt_encodeInt (width_pos _ _) h, hi]; rfl
    · cases h
  case bool =>
    cases h
    cases v.truthy <;> simp
  case half =>
    split at h
    · rename_i f hf
      split at h
      · rename_i u hu
        cases h
        rw [orderBytes_orderBytes, leNat_leBytes,
          show u.toNat % 256 ^ 2 = u.toNat from Nat.mod_eq_of_lt u.toNat_lt, UInt16.ofNat_toNat, hf]
        simp [hu]
      · cases h
    · cases h
  case single =>
    split at h
    · rename_i f hf
      split at h
      · rename_i u hu
        cases h
        rw [orderBytes_orderBytes, leNat_leBytes,
          show u.toNat % 256 ^ 4 = u.toNat from Nat.mod_eq_of_lt u.toNat_lt, UInt32.ofNat_toNat, hf]
        simp [hu]
      · cases h
    · cases h
  case double =>
    split at h
    · rename_i f hf
      cases h
      rw [orderBytes_orderBytes, leNat_leBytes,
          show f.toNat % 256 ^ 8 = f.toNat from Nat.mod_eq_of_lt f.toNat_lt, UInt64.ofNat_toNat, hf]
      rfl
    · cases h
  case ptr =>
    split at h
    · rename_i i hi
      split at h
      · cases h
        rw [orderBytes_orderBytes, leNat_leBytes, hi]
        have h0 : 0 ≤ i % 2 ^ 64 := Int.emod_nonneg _ (by decide)
        have h1 : i % 2 ^ 64 < 2 ^ 64 := Int.emod_lt_of_pos _ (by decide)
        have h2 : (i % 2 ^ 64).toNat % 256 ^ 8 = (i % 2 ^ 64).toNat := Nat.mod_eq_of_lt (by omega)
        rw [h2, Int.toNat_of_nonneg h0]; rfl
      · cases h
    · cases h
  all_goals first | rfl | cases h

theorem unpackMany_stored {P : Platform} {bo : ByteOrder} {c : Code} {k : Nat} {vs : List Val}
    {b : Bytes} {rest : List Val} (r : Bytes) (h : packMany P bo c k vs = .ok (b, rest)) :
    unpackMany P bo c k (b ++ r) = (vs.take k).map (storedOne P c bo.isNative) := by
  induction k generalizing vs b rest with
  | zero => simp [unpackMany]
  | succ k ih =>
    cases vs with
    | nil => simp [packMany] at h
    | cons v vs =>
      obtain ⟨b0, hb0, h⟩ := Except.bind_ok' h
      obtain ⟨⟨bs, rest'⟩, hr', h⟩ := Except.bind_ok' h
      cases h
      have hl := packOne_length hb0
      simp only [unpackMany, List.take_succ_cons, List.append_assoc, List.map_cons]
      rw [← hl]
      simp only [List.take_left', List.drop_left']
      rw [unpackOne_stored hb0, ih hr']

theorem unpackTok_stored {P : Platform} {bo : ByteOrder} {t : Tok} {vs : List Val}
    {b : Bytes} {rest : List Val} (h : packTok P bo t vs = .ok (b, rest)) :
    unpackTok P bo t b = storedTok P bo.isNative t (vs.take t.numVals) := by
  obtain ⟨n, c⟩ := t
  cases c <;> simp only [packTok] at h <;> simp only [storedTok, Tok.numVals]
  case pad => simp [unpackTok]
  case str =>
    split at h
    · cases h
    · split at h
      · rename_i x hx
        cases h
        simp [unpackTok, hx]
      · cases h
  case pas =>
    split at h
    · cases h
    · split at h
      · rename_i x hx
        cases h
        simp only [List.take_succ_cons, List.take_zero, List.map_cons, List.map_nil, hx, Option.getD_some]
        cases n with
        | zero => simp [fitTo, unpackTok]
        | succ m =>
          simp only [Nat.add_sub_cancel, fitTo, List.take_succ_cons, List.cons_append, unpackTok]
          have e2 : (UInt8.ofNat (min (min x.length m) 255)).toNat = min (min x.length m) 255 := by
            simp [UInt8.toNat_ofNat']; omega
          rw [e2, List.take_take, Nat.min_self]
          congr 2
          rw [List.take_append_of_le_length (by simp; omega), List.take_take]
          rw [show min (min (min x.length m) 255) m = min x.length (min m 255) by omega]
          rw [← List.take_take, List.take_of_length_le (by simp; omega)]
      · cases h
  all_goals
    have := unpackMany_stored [] h
    simpa [unpackTok] using this

theorem unpackToks_stored {P : Platform} {bo : ByteOrder} {ts : List Tok} {o : Nat} {vs : List Val}
    {b : Bytes} (r : Bytes) (h : packToks P bo ts o vs = .ok b) :
    unpackToks P bo ts o (b ++ r) = storedToks P bo.isNative ts vs := by
  induction ts generalizing o vs b with
  | nil => simp [unpackToks, storedToks]
  | cons t ts ih =>
    obtain ⟨⟨b0, rest⟩, hr1, h⟩ := Except.bind_ok' h
    obtain ⟨b1, hb1, h⟩ := Except.bind_ok' h
    cases h
    obtain ⟨h1, h2, h3⟩ := packTok_spec hr1
    subst h2
    simp only [unpackToks, storedToks]
    generalize padLen (t.c.align bo.isNative) o = q at *
    have hd : List.drop q (List.replicate q (0 : UInt8) ++ b0 ++ b1 ++ r) = b0 ++ (b1 ++ r) := by
      rw [List.append_assoc, List.append_assoc]
      exact List.drop_left' (by simp)
    rw [← List.drop_drop, hd, ← h1, List.take_left' rfl, List.drop_left' rfl, ih hb1, unpackTok_stored hr1]

theorem structDec_kept {s : StructSer} {vs : List Val} {b rest : Bytes} {src : PSrc} (h : s.pack env.plat vs = .ok b)
    (hv : Views src (b ++ rest)) : b.length = s.size ∧
      structDec env s src = (s.kept env.plat vs).map (fun ws => (ws, src.ahead b.length)) := by
  have hl := structSer_pack_length h
  refine ⟨hl, ?_⟩
  rw [structDec_views hv (by simp; omega), List.take_left' hl, hl, StructSer.kept]
  have h' := h
  unfold StructSer.pack structPack at h'
  split at h'
  · have := unpackToks_stored [] h'
    rw [List.append_nil] at this
    rw [this]
  · cases h'

theorem structDecOpt_kept {s : Option StructSer} {vs ws : List Val} {b rest : Bytes} {src : PSrc}
    (h : packOpt env.plat s vs = .ok b) (hk : keptOpt env.plat s vs = .ok ws)
    (hv : Views src (b ++ rest)) : b.length = s.elim 0 StructSer.size ∧
      structDecOpt env s src = .ok (ws, src.ahead b.length) := by
  cases s with
  | none => cases h; cases hk; exact ⟨rfl, by simp [structDecOpt, ahead_zero]⟩
  | some s =>
    obtain ⟨h1, h2⟩ := structDec_kept h hv
    refine ⟨h1, ?_⟩
    simp only [structDecOpt, h2]
    rw [show s.kept env.plat vs = .ok ws from hk]; rfl

/-! ### Sums and multiples of formats -/

theorem formatOk_of_toks {s : StructSer} (h : s.toks ≠ []) : StructSer.formatOk s.format = true := by
  unfold StructSer.toks at h
  cases hp : parse s.byteOrder.isNative s.baseFormat with
  | none => rw [hp] at h; exact absurd rfl h
  | some t =>
    have : (parse s.byteOrder.isNative s.baseFormat).isSome = true := by rw [hp]; rfl
    exact this

theorem mkActions_bo {f : List Char} {t : List Tok} {bo : ByteOrder} {as : List Action} {s : StructSer}
    (hp : parse bo.isNative f = some t) (h : StructSer.mkActions f bo as = .ok s) : s.byteOrder = bo ∧ s.toks = t := by
  unfold StructSer.mkActions at h
  simp only at h
  split at h
  · split at h
    · cases h
      exact ⟨(StructSer.of_parse hp).2.1, (StructSer.of_parse hp).2.2.2⟩
    · cases h
      exact ⟨(StructSer.of_parse hp).2.1, (StructSer.of_parse hp).2.2.2⟩
  · cases h

/-- The layout of a sum, with or without actions. -/
theorem add_toks {a b c : StructSer} (ha : a.toks ≠ []) (hb : b.toks ≠ []) (hbo : a.byteOrder = b.byteOrder)
    (hs : Seam b.baseFormat a.toks b.toks) (h : a.add b = .ok c) :
    c.byteOrder = a.byteOrder ∧ ToksAgree c.toks (a.toks ++ b.toks) := by
  have h1 := StructSer.parse_base (formatOk_of_toks ha)
  have h2 := StructSer.parse_base (formatOk_of_toks hb)
  rw [← hbo] at h2
  obtain ⟨t, ht, hag⟩ := foldOverlaps_agree h1 h2 hs
  unfold StructSer.add at h
  simp only at h
  split at h
  · rw [if_pos hbo, StructSer.mkPlain_ok ht] at h
    cases h
    obtain ⟨_, e1, _, e2⟩ := StructSer.of_parse (a := none) ht
    exact ⟨e1, by rw [e2]; exact hag⟩
  all_goals
    obtain ⟨e1, e2⟩ := mkActions_bo ht h
    exact ⟨e1, by rw [e2]; exact hag⟩

theorem add_bo {a b c : StructSer} (ha : a.actions = none) (hb : b.actions = none) (h : a.add b = .ok c) :
    a.byteOrder = b.byteOrder := by
  unfold StructSer.add at h
  simp only [ha, hb] at h
  split at h
  · assumption
  · cases h

/-! ### Strings -/

theorem strip_of_asBytes {v : Val} {b : Bytes} (h : v.asBytes = some b) : v.strip = .bytes b := by
  unfold Val.asBytes at h
  split at h
  · rename_i x hx; cases h; exact hx
  · cases h

theorem pyLen_bytes {v : Val} {b : Bytes} (h : v.asBytes = some b) : pyLen v = .ok b.length := by
  simp [pyLen, strip_of_asBytes h]

theorem isCount_toks {st : StructSer} (h : st.isCount = true) : st.actions = none ∧ ∃ w, st.toks = [⟨1, .int false w⟩] := by
  simp only [StructSer.isCount, Bool.and_eq_true, Option.isNone_iff_eq_none] at h
  obtain ⟨h1, h2⟩ := h
  split at h2
  · rename_i w ht; exact ⟨h1, w, ht⟩
  · cases h2

theorem isCount_kept {st : StructSer} (h : st.isCount = true) {P : Platform} (i : Int) : st.kept P [.int i] = .ok [.int i] := by
  obtain ⟨h1, w, h2⟩ := isCount_toks h
  simp [StructSer.kept, StructSer.applyActions, h1, h2, storedToks, storedTok, Tok.numVals, storedOne, Val.asIndex, Val.strip]

theorem str_align (nat : Bool) (o : Nat) : padLen (Code.str.align nat) o = 0 := by
  cases nat <;> simp [Code.align, Code.bytes, padLen, Nat.mod_one]

/-- A count followed by the bytes, packed as one struct. -/
theorem count_chars {P : Platform} {st s : StructSer} (hc : st.isCount = true) {v : Val} {b e : Bytes} {c : Int}
    {ch : Option StructSer} (hb : v.asBytes = some b) (h0 : singleChar.matmul b.length = .ok ch) (h1 : st.addN ch = .ok s)
    (h : s.pack P [.int c, v] = .ok e) :
    b ≠ [] ∧ st.byteOrder = .default ∧ ∃ x, st.pack P [.int c] = .ok x ∧ e = x ++ b := by
  obtain ⟨k1, w, k2⟩ := isCount_toks hc
  have hn : numVals st.toks = 1 := by simp [k2, numVals, Tok.numVals]
  by_cases hb0 : b = []
  · subst hb0
    cases h0
    cases h1
    unfold StructSer.pack structPack at h
    rw [hn, if_neg (by simp)] at h
    cases h
  · have hpos : 0 < b.length := List.length_pos_iff.2 hb0
    obtain ⟨cs, m1, m2, m3, m4⟩ := singleChar_matmul b.length hpos
    rw [m1] at h0
    cases h0
    simp only [StructSer.addN] at h1
    have hbo := add_bo k1 m4 h1
    obtain ⟨e1, e2⟩ := add_toks (by simp [k2]) (by simp [m3]) hbo (.inr (.inl (by simp [k2, m3, lastCode, firstCode]))) h1
    refine ⟨hb0, by rw [hbo, m2], ?_⟩
    unfold StructSer.pack structPack at h
    split at h
    · rw [e2.pack, packToks_append] at h
      obtain ⟨x, h2, h⟩ := Except.bind_ok' h
      obtain ⟨y, h3, h⟩ := Except.bind_ok' h
      cases h
      refine ⟨x, ?_, ?_⟩
      · unfold StructSer.pack structPack
        rw [hn, if_pos (by simp), ← e1]
        have := packToks_take P s.byteOrder st.toks 0 [.int c] [v] (by simp [hn])
        rw [← this]; exact h2
      · rw [hn, m3] at h3
        simp only [packToks, packTok, List.drop_succ_cons, List.drop_zero, hb, bind, Except.bind, List.append_nil,
          Except.ok.injEq, str_align, fitTo_eq, List.replicate_zero, List.nil_append] at h3
        rw [h3]
    · cases h

/-- `char[uint*]` -/
theorem dynChar_bytes {P : Platform} {st : StructSer} (hc : st.isCount = true) {v : Val} {b e : Bytes}
    (hb : v.asBytes = some b) (h : (do let (s, vals) ← dynCharPrep st [v]; s.pack P vals) = .ok e) :
    b ≠ [] ∧ st.byteOrder = .default ∧ ∃ x, st.pack P [.int b.length] = .ok x ∧ e = x ++ b := by
  obtain ⟨⟨s, vals⟩, h1, h⟩ := Except.bind_ok' h
  unfold dynCharPrep at h1
  obtain ⟨raw, g1, h1⟩ := Except.bind_ok' h1
  cases g1
  obtain ⟨k, g2, h1⟩ := Except.bind_ok' h1
  rw [pyLen_bytes hb] at g2
  cases g2
  obtain ⟨ch, g3, h1⟩ := Except.bind_ok' h1
  obtain ⟨s', g4, h1⟩ := Except.bind_ok' h1
  cases h1
  exact count_chars hc hb g3 g4 h

theorem dynChar_kept {st : StructSer} (hc : st.isCount = true) {v : Val} {b e rest : Bytes} {src : PSrc}
    (hb : v.asBytes = some b) (h : (do let (s, vals) ← dynCharPrep st [v]; s.pack env.plat vals) = .ok e)
    (hv : Views src (e ++ rest)) : dynCharDec env st src = .ok ⟨[.bytes b], e.length, src.ahead e.length, []⟩ := by
  obtain ⟨h1, h2, x, h3, rfl⟩ := dynChar_bytes hc hb h
  have hbuf : dynCharDec env st (.buf (x ++ b)) = .ok ⟨[.bytes b], (x ++ b).length, 0, []⟩ := by
    obtain ⟨g1, g2⟩ := structDec_kept (src := .buf (x ++ b)) h3 rfl
    unfold dynCharDec
    rw [g2, isCount_kept hc]
    simp only [Except.map, bind, Except.bind, first, needInt, Val.asIndex, Val.strip]
    rw [← g1]
    simp
    omega
  exact dynChar_ext hc hbuf hv (by simp) (fun _ => by
    cases b with
    | nil => exact absurd rfl h1
    | cons => rfl)

/-- `char[math.inf]` -/
theorem consuming_kept {v : Val} {b e : Bytes} {src : PSrc} (hb : v.asBytes = some b) (h : consumeData [v] = .ok e)
    (hv : Views src e) : e = b ∧ consumingDec src = ⟨[.bytes b], e.length, src.ahead e.length, []⟩ := by
  have he : e = b := by
    simpa [consumeData, first, bind, Except.bind, strip_of_asBytes hb] using h.symm
  subst he
  exact ⟨rfl, by rw [consuming_ext hv]; rfl⟩

theorem term_bytes {P : Platform} {term : Byte} {v : Val} {b e : Bytes} (hb : v.asBytes = some b)
    (h : (do
        let b ← termData term [v]
        packOpt P (← singleChar.matmul b.length) [.bytes b]) = .ok e) : e = b ++ [term] := by
  obtain ⟨d, h1, h⟩ := Except.bind_ok' h
  have hd : d = b ++ [term] := by
    simp only [termData, first, bind, Except.bind, strip_of_asBytes hb, intNeBytes, if_true] at h1
    cases hl : b.getLast? with
    | none => rw [hl] at h1; cases h1; rfl
    | some x => rw [hl] at h1; cases h1; rfl
  subst hd
  obtain ⟨s, h2, h⟩ := Except.bind_ok' h
  obtain ⟨cs, m1, m2, m3, m4⟩ := singleChar_matmul (b ++ [term]).length (by simp)
  rw [m1] at h2
  cases h2
  simp only [packOpt, StructSer.pack, structPack, m3] at h
  rw [if_pos (by rfl)] at h
  simp only [packToks, packTok, Val.asBytes, Val.strip, bind, Except.bind, str_align, fitTo_eq] at h
  simpa using h.symm

theorem findTerm_notMem {t : Byte} {b r : Bytes} (h : t ∉ b) : findTerm t (b ++ t :: r) = some b.length := by
  induction b with
  | nil => simp [findTerm]
  | cons x b ih =>
    simp only [List.mem_cons, not_or] at h
    simp only [List.cons_append, findTerm, List.length_cons]
    rw [if_neg (fun e => h.1 (by simpa using e.symm)), ih h.2]
    rfl

/-- `char[b'x']` -/
theorem term_kept {term : Byte} {v : Val} {b e rest : Bytes} {src : PSrc} (hb : v.asBytes = some b) (hn : term ∉ b)
    (h : (do
        let b ← termData term [v]
        packOpt env.plat (← singleChar.matmul b.length) [.bytes b]) = .ok e)
    (hv : Views src (e ++ rest)) (ha : src.isAt = false) :
    terminatedDec term src = .ok ⟨[.bytes b], e.length, src.ahead e.length, []⟩ := by
  have he := term_bytes hb h
  subst he
  have hbuf : terminatedDec term (.buf (b ++ [term])) = .ok ⟨[.bytes b], (b ++ [term]).length, 0, []⟩ := by
    simp [terminatedDec, findTerm_notMem hn]
  exact terminated_ext hbuf hv ha

theorem shortLen_count : shortLen.isCount = true := by rfl
theorem longLen_count : longLen.isCount = true := by rfl

/-- The bytes of a .NET string. -/
theorem net_bytes {P : Platform} {v : Val} {b e : Bytes} (hb : v.asBytes = some b)
    (h : (do let (s, vals) ← netPrep [v]; s.pack P vals) = .ok e) :
    b ≠ [] ∧ b.length ≤ 0x7FFF ∧
    ((b.length < 128 ∧ ∃ x, shortLen.pack P [.int b.length] = .ok x ∧ e = x ++ b) ∨
     (128 ≤ b.length ∧ ∃ x, longLen.pack P [.int (netMark b.length)] = .ok x ∧ e = x ++ b)) := by
  obtain ⟨⟨s, vals⟩, h1, h⟩ := Except.bind_ok' h
  unfold netPrep at h1
  obtain ⟨raw, g1, h1⟩ := Except.bind_ok' h1
  cases g1
  obtain ⟨k, g2, h1⟩ := Except.bind_ok' h1
  rw [pyLen_bytes hb] at g2
  cases g2
  split at h1
  · rename_i hlt
    obtain ⟨ch, g3, h1⟩ := Except.bind_ok' h1
    obtain ⟨s', g4, h1⟩ := Except.bind_ok' h1
    cases h1
    obtain ⟨q1, _, q2⟩ := count_chars shortLen_count hb g3 g4 h
    exact ⟨q1, by omega, .inl ⟨hlt, q2⟩⟩
  · split at h1
    · cases h1
    · obtain ⟨ch, g3, h1⟩ := Except.bind_ok' h1
      obtain ⟨s', g4, h1⟩ := Except.bind_ok' h1
      cases h1
      obtain ⟨q1, _, q2⟩ := count_chars longLen_count hb g3 g4 h
      exact ⟨q1, by omega, .inr ⟨by omega, q2⟩⟩

/-- The marker byte is the first byte of a long marker on little endian hosts. -/
theorem long_first {P : Platform} (hl : P.le = true) {m : Nat} {x : Bytes}
    (h : longLen.pack P [.int m] = .ok x) : ∃ y, x = UInt8.ofNat m :: y := by
  have h1 : longLen.toks = [⟨1, .int false .two⟩] := by decide
  have h2 : longLen.byteOrder = .default := by decide
  unfold StructSer.pack structPack at h
  rw [h1, h2, if_pos (by rfl)] at h
  have h3 : padLen ((Code.int false .two).align ByteOrder.default.isNative) 0 = 0 := by rfl
  obtain ⟨⟨b0, r0⟩, g1, h⟩ := Except.bind_ok' h
  obtain ⟨r, g2, h⟩ := Except.bind_ok' h
  cases g2
  cases h
  rw [h3]
  obtain ⟨b1, g3, g1⟩ := Except.bind_ok' g1
  obtain ⟨⟨b2, r2⟩, g4, g1⟩ := Except.bind_ok' g1
  cases g4
  cases g1
  simp only [packOne, Val.asIndex, Val.strip, encodeInt] at g3
  split at g3
  · cases g3
    simp only [ByteOrder.little, hl, orderBytes, if_true, Width.bytes, leBytes, List.replicate_zero, List.nil_append,
      List.cons_append]
    refine ⟨_, congrArg (· :: _) ?_⟩
    apply UInt8.toNat_inj.1
    simp [UInt8.toNat_ofNat']
    omega
  · cases g3

theorem netDec_short {x b : Bytes} {k : Nat} (hk : k < 128) (h : shortLen.pack env.plat [.int k] = .ok x) (hb : b.length = k) :
    netDec env (.buf (x ++ b)) = .ok ⟨[.bytes b], (x ++ b).length, 0, []⟩ := by
  obtain ⟨g1, g2⟩ := structDec_kept (src := .buf (x ++ b)) h rfl
  unfold netDec
  rw [g2, isCount_kept shortLen_count]
  simp only [Except.map, bind, Except.bind, first, needInt, Val.asIndex, Val.strip]
  rw [if_neg (by omega), ← g1]
  subst hb
  simp

theorem shortLen_first {y : Bytes} {u : UInt8} : structDec env shortLen (.buf (u :: y)) = .ok ([.int u.toNat], 0) := by
  have h1 : shortLen.toks = [⟨1, .int false .one⟩] := by decide
  have h2 : shortLen.byteOrder = .default := by decide
  have h3 : shortLen.size = 1 := by decide
  rw [structDec_views (src := .buf (u :: y)) (b := u :: y) rfl (by rw [h3]; simp), h1, h2, h3]
  have : orderBytes env.plat.le [u] = [u] := by unfold orderBytes; split <;> rfl
  simp [unpackToks, unpackTok, unpackMany, unpackOne, StructSer.applyActions, shortLen, Except.map, PSrc.ahead, decodeInt,
    padLen, Code.align, Code.bytes, Width.bytes, Tok.bytes, ByteOrder.isNative, ByteOrder.little, this, leNat]

theorem netDec_long (hl : env.plat.le = true) {x b : Bytes} {k : Nat} (hk : k ≤ 0x7FFF)
    (h : longLen.pack env.plat [.int (netMark k)] = .ok x) (hb : b.length = k) :
    netDec env (.buf (x ++ b)) = .ok ⟨[.bytes b], (x ++ b).length, 0, []⟩ := by
  obtain ⟨c1, c2, c3⟩ := C16_marker k hk
  obtain ⟨y, rfl⟩ := long_first hl h
  obtain ⟨g1, g2⟩ := structDec_kept (src := .buf (UInt8.ofNat (netMark k) :: y ++ b)) h rfl
  unfold netDec
  rw [List.cons_append] at g2 ⊢
  rw [shortLen_first, g2, isCount_kept longLen_count]
  simp only [Except.map, bind, Except.bind, first, needInt, Val.asIndex, Val.strip]
  rw [if_pos (by simp [UInt8.toNat_ofNat']; omega)]
  simp only [Int.toNat_natCast, c3]
  rw [← g1, ← List.cons_append]
  subst hb
  rw [List.drop_left, List.take_length, List.length_append]

/-- `char[char.NET]` -/
theorem net_kept {v : Val} {b e rest : Bytes} {src : PSrc} (hb : v.asBytes = some b)
    (hl : b.length < 128 ∨ env.plat.le = true) (h : (do let (s, vals) ← netPrep [v]; s.pack env.plat vals) = .ok e)
    (hv : Views src (e ++ rest)) : netDec env src = .ok ⟨[.bytes b], e.length, src.ahead e.length, []⟩ := by
  obtain ⟨h1, h2, h3⟩ := net_bytes hb h
  have hbuf : netDec env (.buf e) = .ok ⟨[.bytes b], e.length, 0, []⟩ := by
    rcases h3 with ⟨h4, x, h5, rfl⟩ | ⟨h4, x, h5, rfl⟩
    · exact netDec_short h4 h5 rfl
    · exact netDec_long (hl.resolve_left (by omega)) h2 h5 rfl
  exact net_ext hbuf hv (Nat.le_refl _)

/-! ### Counted arrays of basic types -/

theorem padLen_add {a d : Nat} (hd : d % a = 0) (o : Nat) : padLen a (o + d) = padLen a o := by
  unfold padLen
  rw [Nat.add_mod, hd, Nat.add_zero, Nat.mod_mod]

theorem padLen_zero {a o : Nat} (ha : 0 < a) (h : padLen a o = 0) : o % a = 0 := by
  have := padLen_lt ha o
  rwa [h, Nat.add_zero] at this

/-- Moving by a multiple of every alignment changes nothing. -/
theorem packToks_shift {P : Platform} {bo : ByteOrder} {d : Nat} : ∀ (ts : List Tok) (o : Nat) (vs : List Val),
    (∀ t ∈ ts, d % t.c.align bo.isNative = 0) → packToks P bo ts (o + d) vs = packToks P bo ts o vs := by
  intro ts
  induction ts with
  | nil => intros; rfl
  | cons t ts ih =>
    intro o vs h
    simp only [packToks]
    rw [padLen_add (h t (by simp))]
    cases packTok P bo t vs with
    | error e => rfl
    | ok r =>
      obtain ⟨b, r⟩ := r
      simp only [bind, Except.bind]
      rw [show o + d + padLen (t.c.align bo.isNative) o + b.length = (o + padLen (t.c.align bo.isNative) o + b.length) + d by omega,
        ih _ _ (fun u hu => h u (by simp [hu]))]

theorem mem_rep {n : Nat} {l : List α} {x : α} (h : x ∈ rep n l) : x ∈ l := by
  simp only [rep, List.mem_flatten, List.mem_replicate] at h
  obtain ⟨y, ⟨_, rfl⟩, h⟩ := h
  exact h

/-- The format of a multiple of one item. -/
theorem mul_format_single {a : StructSer} (ha : StructSer.formatOk a.format = true) (hs : SingleItem a.baseFormat) (m : Nat) :
    ∃ f t, (List.replicate m a.baseFormat).foldl (foldOverlaps false) a.baseFormat = f ∧
      parse a.byteOrder.isNative f = some t ∧ ToksAgree t (rep (m + 1) a.toks) ∧
      (SingleItem f ∨ ∃ c, firstCode t = some c ∧ c.isString = true) := by
  have h1 := StructSer.parse_base ha
  obtain ⟨ds, ch, hf, hd, hch⟩ := hs
  obtain ⟨c, hc⟩ := Option.isSome_iff_exists.1 hch
  have hbase := parse_item a.byteOrder.isNative ds hd ch c hc []
  rw [← hf, h1] at hbase
  split at hbase
  · cases hbase
  · rename_i hno
    simp only [parse, parseAux, Option.map_some, Option.some.injEq] at hbase
    cases hstr : c.isString with
    | true =>
      have hnm : lastCode a.toks ≠ firstCode a.toks ∨ (∃ c, lastCode a.toks = some c ∧ c.isString = true) :=
        .inr ⟨c, by simp [lastCode, hbase], hstr⟩
      exact ⟨_, _, fold_repeat_nomerge h1 hnm m, parse_rep h1 (m + 1), .refl _, .inr ⟨c, by simp [rep_succ, hbase, firstCode], hstr⟩⟩
    | false =>
      obtain ⟨f, hff, hsf, hfp⟩ := fold_repeat_single (cs := false) hd hc hno (.inr hstr) m
      refine ⟨f, _, by rw [hf]; exact hff, hfp, ?_, .inl hsf⟩
      rw [hbase]
      exact ToksAgree.rep_single c hstr _ m

/-- The layout of a multiple, with or without actions. -/
theorem mul_toks {a : StructSer} {n : Nat} (hn : 0 < n) (ha : a.toks ≠ []) (hs : SingleItem a.baseFormat) :
    ∃ c, a.mul n = .ok (some c) ∧ c.byteOrder = a.byteOrder ∧ ToksAgree c.toks (rep n a.toks) ∧ c.toks ≠ [] ∧
      c.actions = a.actions.map (rep n) ∧ (SingleItem c.baseFormat ∨ ∃ k, firstCode c.toks = some k ∧ k.isString = true) := by
  obtain ⟨m, rfl⟩ : ∃ m, n = m + 1 := ⟨n - 1, by omega⟩
  obtain ⟨f, t, hf, hp, hag, hsf⟩ := mul_format_single (formatOk_of_toks ha) hs m
  have hne : t ≠ [] := by
    rintro rfl
    rcases hsf with ⟨ds, ch, rfl, hd, hch⟩ | ⟨c, h, _⟩
    · obtain ⟨c, hc⟩ := Option.isSome_iff_exists.1 hch
      have hbase := parse_item a.byteOrder.isNative ds hd ch c hc []
      rw [hp] at hbase
      split at hbase
      · cases hbase
      · simp [parse, parseAux] at hbase
    · simp [firstCode] at h
  by_cases hm : m = 0
  · subst hm
    refine ⟨a, ?_, rfl, by simpa [rep] using ToksAgree.refl a.toks, ha, ?_, .inl hs⟩
    · cases h : a.actions with
      | none => simp [StructSer.mul, StructSer.mulImpl, h, bind, Except.bind]
      | some as =>
        have : a = { a with actions := some as } := by rw [← h]
        simp [StructSer.mul, StructSer.mulImpl, h, bind, Except.bind, ← this]
    · cases a.actions <;> simp [rep]
  · have hpos : ¬ ((m + 1 : Nat) : Int) = 0 ∧ ¬ ((m + 1 : Nat) : Int) < 0 ∧ ¬ ((m + 1 : Nat) : Int) = 1 := by omega
    have hto : ((m + 1 : Nat) : Int).toNat = m + 1 := by omega
    cases h : a.actions with
    | none =>
      obtain ⟨_, e2, e3, e4⟩ := StructSer.of_parse (a := none) hp
      refine ⟨⟨a.byteOrder.value ++ f, none⟩, ?_, e2, by rw [e4]; exact hag, by rw [e4]; exact hne, rfl, by rw [e3, e4]; exact hsf⟩
      simp only [StructSer.mul, StructSer.mulImpl, hpos, ↓reduceIte, hto, Nat.add_sub_cancel, StructSer.remake, h, hf,
        StructSer.mkPlain_ok hp, bind, Except.bind]
    | some as =>
      obtain ⟨_, e2, e3, e4⟩ := StructSer.of_parse (a := some (rep (m+1) as)) hp
      refine ⟨⟨a.byteOrder.value ++ f, some (rep (m + 1) as)⟩, ?_, e2, by rw [e4]; exact hag, by rw [e4]; exact hne, rfl,
        by rw [e3, e4]; exact hsf⟩
      simp only [StructSer.mul, StructSer.mulImpl, hpos, ↓reduceIte, hto, Nat.add_sub_cancel, StructSer.remake, h, hf,
        StructSer.mkActions_ok (as := []) hp (by simp), bind, Except.bind]
      rfl

theorem storedToks_rep {P : Platform} {nat : Bool} {t : Tok} (ht : t.numVals = 1) : ∀ (items : List Val),
    storedToks P nat (rep items.length [t]) items = items.flatMap fun v => storedToks P nat [t] [v] := by
  intro items
  induction items with
  | nil => rfl
  | cons v vs ih =>
    rw [List.length_cons, rep_succ]
    simp only [List.singleton_append, storedToks, ht, List.take_succ_cons, List.take_zero, List.drop_succ_cons, List.drop_zero,
      List.flatMap_cons, ih, List.append_nil]

theorem storedTok_length {P : Platform} {nat : Bool} {t : Tok} {v : Val} (ht : t.numVals = 1) :
    ∃ w, storedToks P nat [t] [v] = [w] := by
  obtain ⟨n, c⟩ := t
  cases c <;> simp_all [storedToks, storedTok, Tok.numVals]

theorem kept_rep {P : Platform} {item : StructSer} {t : Tok} (ht : item.toks = [t]) (hn : t.numVals = 1)
    (ha : ∀ as, item.actions = some as → as.length = 1) {items ws : List Val} (h : KeptEach P item items ws) :
    ws.length = items.length ∧
    (match item.actions.map (rep items.length) with
      | none => .ok (items.flatMap fun v => storedToks P item.byteOrder.isNative [t] [v])
      | some as => StructSer.runActions as (items.flatMap fun v => storedToks P item.byteOrder.isNative [t] [v])) = Except.ok ws := by
  induction h with
  | nil => cases item.actions <;> simp [rep, StructSer.runActions]
  | cons v w vs ws h1 h2 ih =>
    obtain ⟨ih1, ih2⟩ := ih
    refine ⟨by simp [ih1], ?_⟩
    obtain ⟨x, hx⟩ := storedTok_length (P := P) (nat := item.byteOrder.isNative) (v := v) hn
    simp only [StructSer.kept, ht, StructSer.applyActions, hx] at h1
    cases hact : item.actions with
    | none =>
      simp only [hact, Option.map_none, Except.ok.injEq] at h1 ih2 ⊢
      simp [hx, ih2, h1]
    | some as =>
      obtain ⟨a, rfl⟩ := List.length_eq_one_iff.1 (ha as hact)
      simp only [hact, Option.map_some] at h1 ih2 ⊢
      rw [List.length_cons, rep_succ, List.flatMap_cons, hx, runActions_append _ _ _ _ rfl, h1]
      simp only [bind, Except.bind, ih2]
      rfl

theorem pyLen_pyIter {v : Val} {items : List Val} (h : pyIter v = .ok items) : pyLen v = .ok items.length := by
  unfold pyIter at h
  unfold pyLen
  cases hv : v.strip <;> simp only [hv] at h ⊢ <;> cases h <;> simp

theorem dynArrPrep_ok {cnt item s : StructSer} {v : Val} {items vals : List Val} (hi : pyIter v = .ok items)
    (h : dynArrPrep cnt item [v] = .ok (s, vals)) : vals = .int ((s.numValues : Int) - 1) :: items ∧
      ((items = [] ∧ StructSer.mkPlain cnt.format .default = .ok s) ∨
       (items ≠ [] ∧ ∃ c, item.mul items.length = .ok c ∧ cnt.addN c = .ok s)) := by
  simp only [dynArrPrep, first, bind, Except.bind, pyLen_pyIter hi, hi] at h
  cases items with
  | nil =>
    rw [if_pos List.length_nil] at h
    cases h1 : StructSer.mkPlain cnt.format .default with
    | error e => rw [h1] at h; cases h
    | ok s' => rw [h1] at h; cases h; exact ⟨rfl, .inl ⟨rfl, rfl⟩⟩
  | cons i is =>
    rw [if_neg (by simp)] at h
    cases h1 : item.mul ((i :: is).length : Nat) with
    | error e => rw [h1] at h; cases h
    | ok c =>
      rw [h1] at h
      simp only at h
      cases h2 : cnt.addN c with
      | error e => rw [h2] at h; cases h
      | ok s' => rw [h2] at h; cases h; exact ⟨rfl, .inr ⟨by simp, c, rfl, h2⟩⟩

/-- The bytes of a counted array of a basic type without padding after the count. -/
theorem dynArr_bytes {P : Platform} {cnt item : StructSer} {t : Tok} (hc : cnt.isCount = true) (ht : item.toks = [t]) (hn : t.numVals = 1)
    (hs : SingleItem item.baseFormat) (hb : cnt.byteOrder = item.byteOrder) (hp : packedTight cnt item = true)
    {v : Val} {items : List Val} {e : Bytes} (hi : pyIter v = .ok items)
    (h : (do let (s, vals) ← dynArrPrep cnt item [v]; s.pack P vals) = .ok e) :
    ∃ x y, cnt.pack P [.int items.length] = .ok x ∧ packToks P item.byteOrder (rep items.length item.toks) 0 items = .ok y ∧ e = x ++ y := by
  obtain ⟨⟨s, vals⟩, h1, hpk⟩ := Except.bind_ok' h
  clear h
  have h := hpk
  clear hpk
  obtain ⟨k1, w, k2⟩ := isCount_toks hc
  have hn1 : numVals cnt.toks = 1 := by simp [k2, numVals, Tok.numVals]
  have hprep := dynArrPrep_ok hi h1
  clear h1
  obtain ⟨hvals, hprep⟩ := hprep
  subst hvals
  simp only at h
  rcases hprep with ⟨rfl, g3⟩ | ⟨hne, c, g3, g4⟩
  · have hcnt : s = cnt := by
      have hf : StructSer.formatOk cnt.format = true := formatOk_of_toks (by simp [k2])
      have : StructSer.mkPlain cnt.format .default = .ok cnt := by
        simp only [StructSer.mkPlain]
        rw [if_pos (by simpa [ByteOrder.value] using hf)]
        cases cnt; cases k1; rfl
      rw [this] at g3
      cases g3; rfl
    subst hcnt
    have : s.numValues = 1 := hn1
    rw [this] at h
    exact ⟨e, [], h, rfl, by simp⟩
  · obtain ⟨c', m1, m2, m3, m4, m5, m6⟩ := mul_toks (n := items.length) (List.length_pos_iff.2 hne) (by simp [ht]) hs
    rw [m1] at g3
    cases g3
    simp only [StructSer.addN] at g4
    have hseam : Seam c'.baseFormat cnt.toks c'.toks := by
      rcases m6 with m6 | ⟨k, m6, m7⟩
      · exact .inl m6
      · refine .inr (.inl ?_)
        rw [m6, k2]
        rintro h
        simp only [lastCode, List.getLast?_singleton, Option.map_some, Option.some.injEq] at h
        rw [← h] at m7
        cases m7
    obtain ⟨e1, e2⟩ := add_toks (by simp [k2]) m4 (by rw [hb, m2]) hseam g4
    have e3 := e2.trans (ToksAgree.append (.refl cnt.toks) m3)
    have hnv : s.numValues = 1 + items.length := by
      show numVals s.toks = _
      rw [e3.vals, numVals_append, hn1, numVals_rep, ht]
      simp [numVals, hn]
    rw [hnv, show ((1 + items.length : Nat) : Int) - 1 = (items.length : Int) by omega] at h
    unfold StructSer.pack structPack at h
    split at h
    · rw [e3.pack, packToks_append] at h
      obtain ⟨x, h2, h⟩ := Except.bind_ok' h
      obtain ⟨y, h3, h⟩ := Except.bind_ok' h
      cases h
      rw [e1] at h2 h3
      have hx : cnt.pack P [.int items.length] = .ok x := by
        unfold StructSer.pack structPack
        rw [hn1, if_pos (by simp)]
        have := packToks_take P cnt.byteOrder cnt.toks 0 [.int items.length] items (by simp [hn1])
        rw [← this]; exact h2
      refine ⟨x, y, hx, ?_, rfl⟩
      rw [hn1, List.drop_one, List.tail_cons] at h3
      have hsz : x.length = cnt.size := structSer_pack_length hx
      have := packToks_shift (P := P) (bo := cnt.byteOrder) (d := x.length) (rep items.length item.toks) 0 items ?_
      · rw [this, hb] at h3; exact h3
      · intro u hu
        have hu := mem_rep hu
        unfold packedTight at hp
        rw [List.all_eq_true] at hp
        have := hp u hu
        rw [hsz]
        exact padLen_zero (u.c.align_pos _) (by simpa using this)
    · cases h

theorem dynArr_kept {cnt item : StructSer} {t : Tok} (hc : cnt.isCount = true) (ht : item.toks = [t]) (hn : t.numVals = 1)
    (hs : SingleItem item.baseFormat) (hb : cnt.byteOrder = item.byteOrder) (hp : packedTight cnt item = true)
    (ha : ∀ as, item.actions = some as → as.length = 1)
    {v : Val} {items ws : List Val} {e rest : Bytes} {src : PSrc} (hi : pyIter v = .ok items) (hk : KeptEach env.plat item items ws)
    (h : (do let (s, vals) ← dynArrPrep cnt item [v]; s.pack env.plat vals) = .ok e)
    (hv : Views src (e ++ rest)) : (do
        let (hv, pos) ← structDec env cnt src
        let c ← match hv with
          | [c] => needInt c
          | _ => .error .valueError
        let s ← item.mul c
        let (vs, pos') ← structDecOpt env s (src.next cnt.size pos)
        .ok ⟨[.list vs], cnt.size + s.elim 0 StructSer.size, pos', []⟩ : Except Err Dec) =
      .ok ⟨[.list ws], e.length, src.ahead e.length, []⟩ := by
  obtain ⟨x, y, h1, h2, rfl⟩ := dynArr_bytes hc ht hn hs hb hp hi h
  have hv' : Views src (x ++ (y ++ rest)) := by rwa [List.append_assoc] at hv
  obtain ⟨g1, g2⟩ := structDec_kept h1 hv'
  rw [isCount_kept hc] at g2
  rw [g2]
  obtain ⟨k1, k2⟩ := kept_rep ht hn ha hk
  have hvn : Views (src.next x.length (src.ahead x.length)) (y ++ rest) := by
    have := hv'.next (k := x.length) (Nat.le_refl _)
    rwa [List.drop_length, List.nil_append] at this
  by_cases hne : items = []
  · subst hne
    have hy : y = [] := by simpa [rep, packToks] using h2.symm
    subst hy
    cases hk
    have hm : item.mul 0 = .ok none := rfl
    simp [Except.map, bind, Except.bind, needInt, Val.asIndex, Val.strip, hm, structDecOpt, g1]
    cases src <;> simp [PSrc.next, PSrc.ahead, PSrc.pos]
  · obtain ⟨c, m1, m2, m3, m4, m5, m6⟩ := mul_toks (n := items.length) (List.length_pos_iff.2 hne) (by simp [ht]) hs
    have hnv : numVals c.toks = items.length := by
      rw [m3.vals, numVals_rep, ht]
      simp [numVals, hn]
    have hcp : c.pack env.plat items = .ok y := by
      unfold StructSer.pack structPack
      rw [hnv, if_pos rfl, m3.pack, m2]
      exact h2
    have hsz := structSer_pack_length hcp
    have hread := structDec_views (env := env) (s := c) hvn (by simp; omega)
    rw [List.take_left' hsz, m3.unpack, m2] at hread
    have := unpackToks_stored [] h2
    rw [List.append_nil] at this
    rw [this, ht, storedToks_rep hn] at hread
    have happ : c.applyActions (items.flatMap fun v => storedToks env.plat item.byteOrder.isNative [t] [v]) = .ok ws := by
      unfold StructSer.applyActions
      rw [m5]
      exact k2
    rw [happ] at hread
    simp only [Except.map, bind, Except.bind, needInt, Val.asIndex, Val.strip, m1, structDecOpt, ← g1]
    rw [hread]
    simp only [Except.map, ahead_next, Option.elim, hsz, List.length_append]

end Verif
