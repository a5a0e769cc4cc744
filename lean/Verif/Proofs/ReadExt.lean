import Verif.Proofs.ReadLemmas
import Verif.Proofs.HistoryUnpack
/-
If a buffer is read completely inside its bounds, the same values are read from every source that
shows these bytes first, whatever follows them.
-/
namespace Verif
open Sem

variable {env : Env}

/-- The same reading, from another source. -/
def Sem.Dec.moved (r : Dec) (src : PSrc) : Dec := { r with pos := src.ahead r.size }

theorem decodeInt_nonneg {little : Bool} {w : Nat} {b : Bytes} : 0 ≤ decodeInt little false w b := by
  simp [decodeInt]

theorem isCount_unpack {st : StructSer} (hc : st.isCount = true) {P : Platform} {b : Bytes} {vs : List Val}
    (h : st.applyActions (unpackToks P st.byteOrder st.toks 0 b) = .ok vs) : ∃ c : Nat, vs = [.int c] := by
  simp only [StructSer.isCount, Bool.and_eq_true, Option.isNone_iff_eq_none] at hc
  obtain ⟨h1, h2⟩ := hc
  split at h2
  · rename_i w ht
    simp only [StructSer.applyActions, h1, ht, Except.ok.injEq] at h
    subst h
    simp only [unpackToks, unpackTok, unpackMany, unpackOne, List.append_nil]
    generalize hx : decodeInt _ _ _ _ = x
    have hn : 0 ≤ x := hx ▸ decodeInt_nonneg
    exact ⟨x.toNat, by rw [Int.toNat_of_nonneg hn]⟩
  · cases h2

theorem str_size {s : StructSer} {k : Nat} (h1 : s.byteOrder = .default) (h2 : s.toks = [⟨k, .str⟩]) : s.size = k := by
  rw [StructSer.size, h1, h2]
  simp [sizeToks, endOff, Tok.bytes, Code.bytes, Code.align, padLen, ByteOrder.isNative]

theorem str_unpack {P : Platform} {k : Nat} {b : Bytes} (hb : b.length = k) :
    unpackToks P .default [⟨k, .str⟩] 0 b = [.bytes b] := by
  simp [unpackToks, unpackTok, Tok.bytes, Code.bytes, Code.align, padLen, ByteOrder.isNative, ← hb]

theorem dynChar_ext {st : StructSer} (hc : st.isCount = true) {b rest : Bytes} {r : Dec} {src : PSrc}
    (h : dynCharDec env st (.buf b) = .ok r) (hv : Views src (b ++ rest)) (hl : r.size ≤ b.length)
    (hne : src.isBuf = false → Val.noEmptyList r.vals = true) : dynCharDec env st src = .ok (r.moved src) := by
  obtain ⟨⟨hv0, pos⟩, h1, h⟩ := Except.bind_ok' h
  obtain ⟨g1, _, g3⟩ := structDec_buf h1
  obtain ⟨c, hc'⟩ := isCount_unpack hc g3
  simp only at hc' g3
  subst hc'
  have e1 : first [Val.int (c : Int)] = .ok (.int c) := rfl
  have e2 : needInt (.int (c : Int)) = .ok (c : Int) := rfl
  simp only [e1, e2, bind, Except.bind, Except.ok.injEq] at h
  subst h
  have hsz : ((st.size : Int) + c).toNat = st.size + c := by omega
  rw [hsz] at hl
  simp only at hl hne
  have e3 : structDec env st src = .ok ([.int c], src.ahead st.size) := structDec_ext h1 hv
  have htk : ((b ++ rest).drop st.size).take c = (b.drop st.size).take c := by
    rw [List.drop_append_of_le_length g1, List.take_append_of_le_length (by rw [List.length_drop]; omega)]
  have nonbuf : src.isBuf = false → ∃ s, singleChar.matmul (c : Int) = .ok s ∧
      structDecOpt env s (src.next st.size (src.ahead st.size)) =
        .ok ([.bytes ((b.drop st.size).take c)], src.ahead (st.size + c)) := by
    intro hb
    have := hne hb
    simp only [Val.noEmptyList, Val.noEmpty, Bool.and_true] at this
    have hpos : 0 < c := by
      cases c with
      | zero => simp at this
      | succ c => omega
    obtain ⟨s, m1, m2, m3, m4⟩ := singleChar_matmul c hpos
    refine ⟨some s, m1, ?_⟩
    have hs := str_size m2 m3
    have hv' := hv.next g1
    simp only [structDecOpt]
    rw [structDec_views hv' (by rw [hs, List.length_append, List.length_drop]; omega), hs, m2, m3,
      List.take_append_of_le_length (by rw [List.length_drop]; omega),
      str_unpack (by rw [List.length_take, List.length_drop]; omega)]
    simp [StructSer.applyActions, m4, Except.map, ahead_next]
  unfold dynCharDec
  simp only [e3, e1, e2, bind, Except.bind]
  cases src with
  | buf x =>
    cases hv
    simp only [Dec.moved, PSrc.ahead, Int.toNat_natCast]
    rw [htk]
  | «at» x off =>
    obtain ⟨s, m1, m2⟩ := nonbuf rfl
    simp only [m1, m2, Dec.moved, hsz, Int.toNat_natCast]
  | io data pos =>
    obtain ⟨s, m1, m2⟩ := nonbuf rfl
    simp only [m1, m2, Dec.moved, hsz, Int.toNat_natCast]

theorem consuming_ext {b : Bytes} {src : PSrc} (hv : Views src b) :
    consumingDec src = (consumingDec (.buf b)).moved src := by
  cases src with
  | buf x => cases hv; rfl
  | «at» x off =>
    obtain ⟨h1, rfl⟩ := hv
    simp [consumingDec, Dec.moved, PSrc.ahead]
  | io data pos =>
    have hv : data.drop pos = b := hv
    simp [consumingDec, Dec.moved, PSrc.ahead, hv]

theorem terminated_ext {t : Byte} {b rest : Bytes} {src : PSrc} {r : Dec} (h : terminatedDec t (.buf b) = .ok r)
    (hv : Views src (b ++ rest)) (ha : src.isAt = false) : terminatedDec t src = .ok (r.moved src) := by
  simp only [terminatedDec] at h
  split at h
  · cases h
  · rename_i k hk
    cases h
    have hk' := findTerm_append (b := rest) hk
    have hlt := findTerm_lt hk
    have ht : (b ++ rest).take k = b.take k := List.take_append_of_le_length (by omega)
    cases src with
    | buf x => cases hv; simp only [terminatedDec, hk', ht, Dec.moved, PSrc.ahead]
    | «at» => cases ha
    | io data pos =>
      have hv : data.drop pos = b ++ rest := hv
      simp only [terminatedDec, hv]
      rw [termReadLoop_eq t _ _ _ _ (Nat.lt_succ_self _), hk']
      simp [ht, Dec.moved, PSrc.ahead]

theorem shortLen_unpack {P : Platform} {b : Bytes} {vs : List Val}
    (h : shortLen.applyActions (unpackToks P shortLen.byteOrder shortLen.toks 0 b) = .ok vs) : ∃ c : Nat, vs = [.int c] :=
  isCount_unpack (st := shortLen) (by rfl) h

theorem longLen_unpack {P : Platform} {b : Bytes} {vs : List Val}
    (h : longLen.applyActions (unpackToks P longLen.byteOrder longLen.toks 0 b) = .ok vs) : ∃ c : Nat, vs = [.int c] :=
  isCount_unpack (st := longLen) (by rfl) h

/-- The string after the marker. -/
theorem netTail_ext {b rest : Bytes} {src : PSrc} {size count : Nat} (hv : Views src (b ++ rest)) (hl : size + count ≤ b.length) :
    (match src with
      | .buf b => (.ok ⟨[.bytes ((b.drop size).take count)], size + count, 0, []⟩ : Except Err Dec)
      | .at b off => do
        .ok ⟨← structUnpackFrom env.plat .default [⟨count, .str⟩] b (off + size), size + count, 0, []⟩
      | .io data _ =>
        let d := (data.drop (src.ahead size)).take count
        .ok ⟨[.bytes d], size + count, (src.ahead size) + d.length, []⟩) =
      .ok ⟨[.bytes ((b.drop size).take count)], size + count, src.ahead (size + count), []⟩ := by
  have htk : ((b ++ rest).drop size).take count = (b.drop size).take count := by
    rw [List.drop_append_of_le_length (by omega), List.take_append_of_le_length (by rw [List.length_drop]; omega)]
  have hlen : ((b.drop size).take count).length = count := by rw [List.length_take, List.length_drop]; omega
  cases src with
  | buf x => cases hv; simp only [htk, PSrc.ahead]
  | «at» x off =>
    obtain ⟨h1, h2⟩ := hv
    have hl2 : x.length - off = b.length + rest.length := by rw [← List.length_drop, h2, List.length_append]
    have hs : sizeToks ByteOrder.default.isNative [⟨count, .str⟩] = count := by
      simp [sizeToks, endOff, Tok.bytes, Code.bytes, Code.align, padLen, ByteOrder.isNative]
    simp only [structUnpackFrom]
    rw [hs, if_pos (by omega), ← List.drop_drop, h2, htk, str_unpack hlen]
    rfl
  | io data pos =>
    have hv : data.drop pos = b ++ rest := hv
    simp only [PSrc.ahead]
    rw [← List.drop_drop, hv, htk, hlen, Nat.add_assoc]

theorem net_ext {b rest : Bytes} {src : PSrc} {r : Dec} (h : netDec env (.buf b) = .ok r)
    (hv : Views src (b ++ rest)) (hl : r.size ≤ b.length) : netDec env src = .ok (r.moved src) := by
  unfold netDec at h
  obtain ⟨⟨hv0, pos⟩, h1, h⟩ := Except.bind_ok' h
  obtain ⟨g1, _, g3⟩ := structDec_buf h1
  obtain ⟨c, hc'⟩ := shortLen_unpack g3
  simp only at hc' g3
  subst hc'
  have e1 : first [Val.int (c : Int)] = .ok (.int c) := rfl
  have e2 : needInt (.int (c : Int)) = .ok (c : Int) := rfl
  have e3 : structDec env shortLen src = .ok ([.int c], src.ahead shortLen.size) := structDec_ext h1 hv
  simp only [e1, e2, bind, Except.bind] at h
  unfold netDec
  simp only [e3, e1, e2, bind, Except.bind]
  split at h
  · rename_i hc
    rw [if_pos hc]
    cases h2 : structDec env longLen (.buf b) with
    | error e => rw [h2] at h; cases h
    | ok x =>
      obtain ⟨hv1, pos1⟩ := x
      obtain ⟨k1, _, k3⟩ := structDec_buf h2
      obtain ⟨d, hd⟩ := longLen_unpack k3
      simp only at hd
      subst hd
      have e4 : first [Val.int (d : Int)] = .ok (.int d) := rfl
      have e5 : needInt (.int (d : Int)) = .ok (d : Int) := rfl
      have e6 : structDec env longLen src = .ok ([.int d], src.ahead longLen.size) := structDec_ext h2 hv
      rw [h2] at h
      rw [e6]
      simp only [e4, e5] at h ⊢
      cases h3 : netDecode (d : Int).toNat with
      | error e => rw [h3] at h; cases h
      | ok count =>
        rw [h3] at h
        simp only [Except.ok.injEq] at h ⊢
        subst h
        exact netTail_ext (env := env) hv hl
  · rename_i hc
    rw [if_neg hc]
    simp only [Except.ok.injEq] at h ⊢
    subst h
    exact netTail_ext (env := env) hv hl

theorem dynArr_ext {cnt item : StructSer} {b rest : Bytes} {src : PSrc} {r : Dec} (h : (do
        let (hv, pos) ← structDec env cnt (.buf b)
        let c ← match hv with
          | [c] => needInt c
          | _ => .error .valueError
        let s ← item.mul c
        let (vs, pos') ← structDecOpt env s ((PSrc.buf b).next cnt.size pos)
        .ok ⟨[.list vs], cnt.size + s.elim 0 StructSer.size, pos', []⟩ : Except Err Dec) = .ok r)
    (hv : Views src (b ++ rest)) : r.size ≤ b.length ∧ (do
        let (hv, pos) ← structDec env cnt src
        let c ← match hv with
          | [c] => needInt c
          | _ => .error .valueError
        let s ← item.mul c
        let (vs, pos') ← structDecOpt env s (src.next cnt.size pos)
        .ok ⟨[.list vs], cnt.size + s.elim 0 StructSer.size, pos', []⟩ : Except Err Dec) = .ok (r.moved src) := by
  obtain ⟨⟨hv0, pos⟩, h1, h⟩ := Except.bind_ok' h
  have e1 := structDec_ext h1 hv
  have g := structDec_buf h1
  simp only at h
  split at h
  · obtain ⟨c, h2, h⟩ := Except.bind_ok' h
    obtain ⟨s, h3, h⟩ := Except.bind_ok' h
    obtain ⟨⟨vs, pos'⟩, h4, h⟩ := Except.bind_ok' h
    cases h
    have hv' := hv.next g.1
    have h4' : structDecOpt env s (.buf (b.drop cnt.size)) = .ok (vs, pos') := h4
    obtain ⟨k1, k2⟩ := structDecOpt_ext h4' hv'
    rw [List.length_drop] at k2
    refine ⟨by show cnt.size + s.elim 0 StructSer.size ≤ b.length; omega, ?_⟩
    simp only [e1, h2, h3, k1, bind, Except.bind, Dec.moved, ahead_next]
  · cases h

theorem staticArr_ext {ser : Option StructSer} {b rest : Bytes} {src : PSrc} {r : Dec}
    (h : (do
        let (vs, pos) ← structDecOpt env ser (.buf b)
        .ok ⟨[.list vs], ser.elim 0 StructSer.size, pos, []⟩ : Except Err Dec) = .ok r)
    (hv : Views src (b ++ rest)) : r.size ≤ b.length ∧ (do
        let (vs, pos) ← structDecOpt env ser src
        .ok ⟨[.list vs], ser.elim 0 StructSer.size, pos, []⟩ : Except Err Dec) = .ok (r.moved src) := by
  obtain ⟨⟨vs, pos⟩, h1, h⟩ := Except.bind_ok' h
  cases h
  obtain ⟨k1, k2⟩ := structDecOpt_ext h1 hv
  exact ⟨k2, by simp only [k1, bind, Except.bind, Dec.moved]⟩

theorem structSer_ext {st : StructSer} {b rest : Bytes} {src : PSrc} {r : Dec}
    (h : (do let (vs, pos) ← structDec env st (.buf b); .ok ⟨vs, st.size, pos, []⟩ : Except Err Dec) = .ok r)
    (hv : Views src (b ++ rest)) : r.size ≤ b.length ∧
      (do let (vs, pos) ← structDec env st src; .ok ⟨vs, st.size, pos, []⟩ : Except Err Dec) = .ok (r.moved src) := by
  obtain ⟨⟨vs, pos⟩, h1, h⟩ := Except.bind_ok' h
  cases h
  exact ⟨(structDec_buf h1).1, by simp only [structDec_ext h1 hv, bind, Except.bind, Dec.moved]⟩

end Verif
