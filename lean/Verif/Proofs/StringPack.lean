import Verif.Proofs.RoundTripLift
import Verif.Props.StructFormats
import Verif.Props.Integers
/-
Packing strings: exact results for every string, and lifting results of the functional reading to operations.
-/
namespace Verif
open Sem

variable {env : Env}

/-! ### From the functional reading to operations -/

theorem pack_of_enc {n : Nat} {s : Ser} {vs : List Val} {r : Enc} (h : enc env n s none vs = .ok r) (st : St) :
    ∃ st', pack env n s vs st = .ok r.bytes st' ∧ (s.sized = true → s.readSize st' = .ok r.bytes.length st') := by
  have hr := pack_rel env n s none vs st (Primed.none s st)
  rw [h] at hr
  obtain ⟨b, st', h1, rfl, h3⟩ := hr
  exact ⟨st', h1, h3.size⟩

theorem pack_of_enc_err {n : Nat} {s : Ser} {vs : List Val} {e : Err} (h : enc env n s none vs = .err e) (st : St) :
    ∃ st', pack env n s vs st = .err e st' := by
  have hr := pack_rel env n s none vs st (Primed.none s st)
  rw [h] at hr
  obtain ⟨st', h1, _⟩ := hr
  exact ⟨st', h1⟩

theorem unpack_of_dec {n : Nat} {upd : Upd} {s : Ser} {src : Src} {r : Dec} {st : St}
    (h : dec env n upd s none (src.sem st) = .ok r) :
    ∃ st', unpack env n upd s src st = .ok r.vals st' ∧ Adv src r.pos st st' ∧
      (s.sized = true → s.readSize st' = .ok r.size st') := by
  have hr := unpack_rel env n upd s none src st (Primed.none s st)
  rw [h] at hr
  obtain ⟨vs, st', h1, rfl, h3⟩ := hr
  exact ⟨st', h1, h3.adv, h3.size⟩

theorem unpack_of_dec_err {n : Nat} {upd : Upd} {s : Ser} {src : Src} {e : Err} {st : St}
    (h : dec env n upd s none (src.sem st) = .err e) : ∃ st', unpack env n upd s src st = .err e st' := by
  have hr := unpack_rel env n upd s none src st (Primed.none s st)
  rw [h] at hr
  obtain ⟨st', h1, _⟩ := hr
  exact ⟨st', h1⟩

/-! ### Length-prefixed strings -/

theorem asBytes_of_strip {v : Val} {b : Bytes} (h : v.asBytes = some b) : v.strip = .bytes b := strip_of_asBytes h

/-- A count followed by at least one character, packed as one struct. -/
theorem countChars_pack {st : StructSer} (hc : st.isCount = true) (hbo : st.byteOrder = .default) {b : Bytes} (hb : b ≠ []) :
    ∃ ch s, singleChar.matmul b.length = .ok ch ∧ st.addN ch = .ok s ∧
      ∀ (P : Platform) (c : Int) (v : Val), v.asBytes = some b →
        s.pack P [.int c, v] = (st.pack P [.int c]).map (· ++ b) := by
  obtain ⟨k1, w, k2⟩ := isCount_toks hc
  have hn : numVals st.toks = 1 := by simp [k2, numVals, Tok.numVals]
  have hpos : 0 < b.length := List.length_pos_iff.2 hb
  obtain ⟨cs, m1, m2, m3, m4⟩ := singleChar_matmul b.length hpos
  have hok : StructSer.formatOk st.format = true := formatOk_of_toks (by simp [k2])
  have hok' : StructSer.formatOk cs.format = true := formatOk_of_toks (by simp [m3])
  have hbo' : st.byteOrder = cs.byteOrder := by rw [hbo, m2]
  obtain ⟨s, a1, _, _, _⟩ := C09_add_partial st cs ⟨hok, by simp [k1]⟩ ⟨hok', by simp [m4]⟩ k1 m4 hbo'
    (.inr (.inl (by simp [k2, m3, lastCode, firstCode])))
  obtain ⟨e1, e2⟩ := add_toks (by simp [k2]) (by simp [m3]) hbo' (.inr (.inl (by simp [k2, m3, lastCode, firstCode]))) a1
  refine ⟨some cs, s, m1, a1, fun P c v hv => ?_⟩
  have hnum : numVals s.toks = 2 := by
    rw [e2.vals]; simp [numVals, k2, m3, Tok.numVals]
  unfold StructSer.pack structPack
  rw [hnum, hn, if_pos (by simp), if_pos (by simp), e2.pack, packToks_append, e1, hn, m3]
  have := packToks_take P st.byteOrder st.toks 0 [.int c] [v] (by simp [hn])
  have h0 : packToks P st.byteOrder st.toks 0 [.int c, v] = packToks P st.byteOrder st.toks 0 [.int c] := this
  rw [h0]
  cases packToks P st.byteOrder st.toks 0 [.int c] with
  | error e => rfl
  | ok x =>
    simp [packToks, packTok, hv, bind, Except.bind, str_align, fitTo_eq, Except.map]

theorem dynChar_enc {n : Nat} {id : SerId} {st : StructSer} (hc : st.isCount = true) (hbo : st.byteOrder = .default)
    {v : Val} {b : Bytes} (hv : v.asBytes = some b) (hb : b ≠ []) :
    enc env (n + 1) (.dynChar id st) none [v] = encLeaf ((st.pack env.plat [.int b.length]).map (· ++ b)) := by
  obtain ⟨ch, s, h1, h2, h3⟩ := countChars_pack hc hbo hb
  simp only [enc, dynCharPrep, first, bind, Except.bind, pyLen_bytes hv, h1, h2]
  rw [h3 _ _ _ hv]

/-- Reading back a length prefix and the bytes. -/
theorem dynChar_dec {n : Nat} {upd : Upd} {id : SerId} {st : StructSer} (hc : st.isCount = true) {x b rest : Bytes}
    (hx : st.pack env.plat [.int b.length] = .ok x) {src : PSrc} (hv : Views src (x ++ b ++ rest))
    (hb : src.isBuf = false → b ≠ []) :
    dec env (n + 1) upd (.dynChar id st) none src
      = .ok ⟨[.bytes b], (x ++ b).length, src.ahead (x ++ b).length, []⟩ := by
  have hbuf : dynCharDec env st (.buf (x ++ b)) = .ok ⟨[.bytes b], (x ++ b).length, 0, []⟩ := by
    obtain ⟨g1, g2⟩ := structDec_kept (src := .buf (x ++ b)) hx rfl
    unfold dynCharDec
    rw [g2, isCount_kept hc]
    simp only [Except.map, bind, Except.bind, first, needInt, Val.asIndex, Val.strip]
    rw [← g1]
    simp
    omega
  simp only [dec]
  have := dynChar_ext hc hbuf hv (by simp) (fun h => by
    cases b with
    | nil => exact absurd rfl (hb h)
    | cons => rfl)
  rw [this]
  rfl

/-! ### .NET strings -/

theorem net_enc {n : Nat} {id : SerId} {v : Val} {b : Bytes} (hv : v.asBytes = some b) (hb : b ≠ []) (hl : b.length ≤ 0x7FFF) :
    enc env (n + 1) (.net id) none [v] = encLeaf
      ((if b.length < 128 then shortLen.pack env.plat [.int b.length]
        else longLen.pack env.plat [.int (netMark b.length)]).map (· ++ b)) := by
  simp only [enc, netPrep, first, bind, Except.bind, pyLen_bytes hv]
  by_cases h : b.length < 128
  · obtain ⟨ch, s, h1, h2, h3⟩ := countChars_pack shortLen_count (by decide) hb
    rw [if_pos h, if_pos h]
    simp only [h1, h2]
    rw [h3 _ _ _ hv]
  · obtain ⟨ch, s, h1, h2, h3⟩ := countChars_pack longLen_count (by decide) hb
    rw [if_neg h, if_neg h, if_neg (by omega)]
    simp only [h1, h2]
    rw [h3 _ _ _ hv]

theorem net_enc_long {n : Nat} {id : SerId} {v : Val} {b : Bytes} (hv : v.asBytes = some b) (hl : 0x7FFF < b.length) :
    enc env (n + 1) (.net id) none [v] = .err .valueError := by
  simp only [enc, netPrep, first, bind, Except.bind, pyLen_bytes hv]
  rw [if_neg (by omega), if_pos hl]
  rfl

theorem shortLen_eq : shortLen = Spec.intSer .default 'B' := by rfl
theorem longLen_eq : longLen = Spec.intSer .default 'H' := by rfl

theorem netMark_lt (k : Nat) (hk : k ≤ 0x7FFF) : netMark k < 2 ^ 16 := (C16_marker k hk).1

/-! ### Terminated strings -/

theorem term_enc {n : Nat} {id : SerId} {term : Byte} {v : Val} {b : Bytes} (hv : v.asBytes = some b) :
    enc env (n + 1) (.terminated id term) none [v] = .ok ⟨b ++ [term], []⟩ := by
  have hd : termData term [v] = .ok (b ++ [term]) := by
    simp only [termData, first, bind, Except.bind, strip_of_asBytes hv]
    cases b.getLast? <;> simp [intNeBytes]
  obtain ⟨s, h1, h2, h3, h4⟩ := singleChar_matmul (b ++ [term]).length (by simp)
  simp only [enc, hd, bind, Except.bind, h1, packOpt, StructSer.pack, structPack, h2, h3]
  simp [numVals, Tok.numVals, packToks, packTok, Val.asBytes, Val.strip, bind, Except.bind, str_align, fitTo, encLeaf]
  exact List.take_of_length_le (by simp)

end Verif
