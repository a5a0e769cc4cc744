import Verif.Proofs.ExactLeaf
import Verif.Proofs.ZipLemmas
/-
The main induction of C50: packing what was unpacked gives the bytes that were used.
-/
namespace Verif
open Sem

variable {env : Env} {k t : Bool}

/-- Packing gives these bytes; if `k`, it may fail instead. -/
def Back (k : Bool) (x : Out Enc) (b : Bytes) (tc : List SerId) : Prop := x = .ok ⟨b, tc⟩ ∨ (k = true ∧ ∃ e, x = .err e)

theorem Back.bind {x : Out Enc} {b b' : Bytes} {tc tc' : List SerId} {f : Enc → Out Enc} (h : Back k x b tc)
    (hf : Back k (f ⟨b, tc⟩) b' tc') : Back k (x >>= f) b' tc' := by
  rcases h with rfl | ⟨hk, e, rfl⟩
  · exact hf
  · exact .inr ⟨hk, e, rfl⟩

theorem Back.leaf {x : Except Err Bytes} {b : Bytes} (h : ∀ y, x = .ok y → y = b) : Back true (encLeaf x) b [] := by
  cases x with
  | error e => exact .inr ⟨rfl, e, rfl⟩
  | ok y => rw [h y rfl]; exact .inl rfl

/-! ### Counted strings and arrays -/

theorem isCount_actions {st : StructSer} (hc : st.isCount = true) : st.actions = none := (isCount_toks hc).1

theorem dynChar_exact {st : StructSer} (hc : st.isCount = true) (he : st.exact = true) {src : PSrc} {b : Bytes} (hv : Views src b)
    (hb : src.isBuf = true) {d : Dec} (h : dynCharDec env st src = .ok d) (hl : d.size ≤ b.length) :
    d.vals.length = 1 ∧ d.pos = src.ahead d.size ∧ d.touched = [] ∧
      Back true (encLeaf (do let (s, vals) ← dynCharPrep st d.vals; s.pack env.plat vals)) (b.take d.size) [] := by
  cases src with
  | «at» => cases hb
  | io => cases hb
  | buf x =>
    cases hv
    obtain ⟨⟨hv, pos⟩, h1, h⟩ := Except.bind_ok' h
    obtain ⟨g1, g2, g3, g4, g5⟩ := structDec_exact (src := .buf b) he rfl h1
    simp only at g2 g3 g4 g5
    obtain ⟨c, hcv⟩ := isCount_unpack hc (P := env.plat) (b := b.take st.size) (vs := hv) (by
      simp [StructSer.applyActions, isCount_actions hc, g3])
    subst hcv
    have e1 : first [Val.int (c : Int)] = .ok (.int c) := rfl
    have e2 : needInt (.int (c : Int)) = .ok (c : Int) := rfl
    simp only [e1, e2, bind, Except.bind, Except.ok.injEq] at h
    subst h
    simp only at hl
    have hsz : ((st.size : Int) + c).toNat = st.size + c := by omega
    simp only [hsz, Int.toNat_natCast] at hl ⊢
    refine ⟨rfl, rfl, trivial, Back.leaf fun y hy => ?_⟩
    obtain ⟨_, _, x, h3, rfl⟩ := dynChar_bytes hc (v := .bytes ((b.drop st.size).take c)) rfl hy
    rw [show ((b.drop st.size).take c).length = c by rw [List.length_take, List.length_drop]; omega] at h3
    rw [g5] at h3
    cases h3
    rw [← List.take_add]

theorem exactToks_rep {nat : Bool} {tk : Tok} (h : tk.c.exact = true) : ∀ (n o : Nat), o % tk.c.align nat = 0 → exactToks nat (rep n [tk]) o = true
  | 0, _, _ => rfl
  | n + 1, o, ho => by
    rw [rep_succ]
    simp only [List.singleton_append, exactToks, padLen_eq_zero ho, h, Bool.and_true, beq_self_eq_true, Bool.true_and]
    refine exactToks_rep h n _ ?_
    have h1 := Code.bytes_mod_align nat tk.c
    have h2 : tk.bytes nat % tk.c.align nat = 0 := by
      unfold Tok.bytes
      rw [Nat.mul_mod, h1]; simp
    rw [Nat.add_mod, ho, h2]; simp

theorem dynArr_exact {cnt item : StructSer} (hc : cnt.isCount = true) (he : cnt.exact = true) (hi : item.exact = true) (ho : item.oneValue)
    (hs : SingleItem item.baseFormat) (hbo : cnt.byteOrder = item.byteOrder) (hp : packedTight cnt item = true) {src : PSrc} {b : Bytes}
    (hv : Views src b) {d : Dec} (h : (do
        let (hv, pos) ← structDec env cnt src
        let c ← match hv with
          | [c] => needInt c
          | _ => .error .valueError
        let s ← item.mul c
        let (vs, pos') ← structDecOpt env s (src.next cnt.size pos)
        .ok ⟨[.list vs], cnt.size + s.elim 0 StructSer.size, pos', []⟩ : Except Err Dec) = .ok d) :
    d.vals.length = 1 ∧ d.pos = src.ahead d.size ∧ d.touched = [] ∧
      Back true (encLeaf (do let (s, vals) ← dynArrPrep cnt item d.vals; s.pack env.plat vals)) (b.take d.size) [] := by
  obtain ⟨⟨hv0, pos⟩, h1, h⟩ := Except.bind_ok' h
  obtain ⟨g1, g2, g3, g4, g5⟩ := structDec_exact he hv h1
  simp only at g2 g3 g4 g5
  obtain ⟨c, hcv⟩ := isCount_unpack hc (P := env.plat) (b := b.take cnt.size) (vs := hv0) (by
      simp [StructSer.applyActions, isCount_actions hc, g3])
  subst hcv
  obtain ⟨c0, h2, h⟩ := Except.bind_ok' h
  have h2 : c0 = (c : Int) := by
    have e2 : needInt (.int (c : Int)) = .ok (c : Int) := rfl
    simp only [e2] at h2
    cases h2; rfl
  subst h2
  obtain ⟨s, h3, h⟩ := Except.bind_ok' h
  obtain ⟨⟨vs, pos'⟩, h4, h⟩ := Except.bind_ok' h
  cases h
  simp only
  subst g2
  obtain ⟨tk, ho1, ho2⟩ := ho
  have hv1 := hv.nil g1
  have key : vs.length = c ∧ pos' = src.ahead (cnt.size + s.elim 0 StructSer.size) ∧ cnt.size + s.elim 0 StructSer.size ≤ b.length ∧
      packToks env.plat item.byteOrder (rep c item.toks) 0 vs = .ok ((b.drop cnt.size).take (s.elim 0 StructSer.size)) := by
    by_cases hc0 : c = 0
    · subst hc0
      have : item.mul ((0 : Nat) : Int) = .ok none := rfl
      rw [this] at h3
      cases h3
      cases h4
      refine ⟨rfl, ?_, by simpa using g1, by simp [rep, packToks]⟩
      cases src <;> simp [PSrc.next, PSrc.ahead, PSrc.pos]
    · obtain ⟨s', m1, m2, m3, m4, m5, m6⟩ := mul_toks (n := c) (by omega) (by simp [ho1]) hs
      rw [m1] at h3
      cases h3
      have hact : s'.actions = none := by
        simp only [StructSer.exact, Bool.and_eq_true, Option.isNone_iff_eq_none] at hi
        rw [m5, hi.1]; rfl
      have h4 : structDec env s' (src.next cnt.size (src.ahead cnt.size)) = .ok (vs, pos') := h4
      rw [structDec_same hv1] at h4
      cases hb4 : structDec env s' (.buf (b.drop cnt.size)) with
      | error e => rw [hb4] at h4; cases h4
      | ok r =>
        rw [hb4] at h4
        cases h4
        obtain ⟨z1, _, z3⟩ := structDec_buf hb4
        simp only [StructSer.applyActions, hact, Except.ok.injEq] at z3
        rw [List.length_drop] at z1
        have hlen : r.1.length = c := by
          rw [← z3, unpackToks_length, m3.vals, numVals_rep, ho1]
          simp [numVals, ho2]
        refine ⟨hlen, by rw [ahead_next]; rfl, by simp only [Option.elim]; omega, ?_⟩
        rw [← z3, m3.unpack, m2]
        have hx : exactToks item.byteOrder.isNative (rep c item.toks) 0 = true := by
          rw [ho1]
          refine exactToks_rep ?_ c 0 (Nat.zero_mod _)
          simp only [StructSer.exact, ho1, exactToks, Bool.and_eq_true] at hi
          exact hi.2.1.2
        have := packToks_unpackToks (P := env.plat) (bo := item.byteOrder) (rep c item.toks) 0 ((b.drop cnt.size).take s'.size) [] hx (by
          rw [List.length_take, List.length_drop, Nat.zero_add, ← m3.off]
          show min s'.size _ = sizeToks item.byteOrder.isNative s'.toks
          rw [← m2, Nat.min_eq_left (by omega)]
          rfl)
        rwa [List.append_nil] at this
  obtain ⟨k1, k2, k3, k4⟩ := key
  refine ⟨rfl, k2, trivial, Back.leaf fun y hy => ?_⟩
  obtain ⟨x, y', h5, h6, rfl⟩ := dynArr_bytes hc ho1 ho2 hs hbo hp (v := .list vs) (items := vs) rfl hy
  rw [k1] at h5 h6
  rw [g5] at h5
  rw [k4] at h6
  cases h5
  cases h6
  rw [← List.take_add]

/-! ### Array headers -/

theorem unpackMany_nonneg {P : Platform} {bo : ByteOrder} {w : Width} : ∀ (n : Nat) (b : Bytes) (v : Val), v ∈ unpackMany P bo (.int false w) n b →
    ∃ c : Nat, v = .int c
  | 0, _, v, h => by simp [unpackMany] at h
  | n + 1, b, v, h => by
    rcases List.mem_cons.1 h with rfl | h
    · refine ⟨(decodeInt (bo.little P) false (w.bytes bo.isNative) (b.take ((Code.int false w).bytes bo.isNative))).toNat, ?_⟩
      rw [Int.toNat_of_nonneg decodeInt_nonneg]
      rfl
    · exact unpackMany_nonneg n _ v h

theorem unpackToks_nonneg {P : Platform} {bo : ByteOrder} : ∀ (ts : List Tok) (o : Nat) (b : Bytes) (v : Val),
    (ts.all fun t => match t.c with | .int false _ => true | _ => false) = true → v ∈ unpackToks P bo ts o b → ∃ c : Nat, v = .int c
  | [], _, _, v, _, h => by simp [unpackToks] at h
  | ⟨n, c⟩ :: ts, o, b, v, ha, h => by
    simp only [List.all_cons, Bool.and_eq_true] at ha
    simp only [unpackToks, List.mem_append] at h
    rcases h with h | h
    · obtain ⟨ha, _⟩ := ha
      cases c <;> try cases ha
      rename_i s w
      cases s
      · exact unpackMany_nonneg _ _ _ h
      · cases ha
    · exact unpackToks_nonneg ts _ _ v ha.2 h

/-- What was read from a header is what packing the items will write there. -/
theorem header_exact {hdr : Option StructSer} {sl : Int} (hh : hdrExact hdr sl = true) {src : PSrc} {b : Bytes} (hv : Views src b)
    {r : List Val × Nat} (h : structDecOpt env hdr src = .ok r) {count ds : Int} (h2 : headerUnpackValues hdr sl r.1 = .ok (count, ds))
    {size : Nat} (h3 : checkDataSize ds size = .ok ()) :
    hdrSize hdr ≤ b.length ∧ r.2 = src.ahead (hdrSize hdr) ∧
      (do let hv ← headerPackValues hdr sl count.toNat size; packOpt env.plat hdr hv) = .ok (b.take (hdrSize hdr)) := by
  have hread : hdrSize hdr ≤ b.length ∧ r.2 = src.ahead (hdrSize hdr) ∧ r.1.length = hdrNum hdr ∧ packOpt env.plat hdr r.1 = .ok (b.take (hdrSize hdr)) ∧
      ∀ v ∈ r.1, ∃ c : Nat, v = .int c := by
    cases hdr with
    | none => cases h; exact ⟨Nat.zero_le _, ahead_zero.symm, rfl, rfl, by simp⟩
    | some s =>
      simp only [hdrExact, Bool.and_eq_true] at hh
      obtain ⟨g1, g2, g3, g4, g5⟩ := structDec_exact hh.2.1 hv h
      exact ⟨g1, g2, g4, g5, fun v hv => unpackToks_nonneg _ _ _ v hh.2.2 (by rw [← g3]; exact hv)⟩
  obtain ⟨a1, a2, a3, a4, a5⟩ := hread
  refine ⟨a1, a2, ?_⟩
  obtain ⟨rv, rp⟩ := r
  simp only at a3 a4 a5 h2
  have hnum : (if 0 ≤ sl then decide (hdrNum hdr ≤ 1) else decide (hdrNum hdr = 1 ∨ hdrNum hdr = 2)) = true := by
    simp only [hdrExact, Bool.and_eq_true] at hh
    exact hh.1
  have hds : ∀ {d : Nat}, ds = (d : Int) → d = size := by
    rintro d rfl
    unfold checkDataSize at h3
    split at h3
    · cases h3
    · omega
  suffices headerPackValues hdr sl count.toNat size = .ok rv by rw [this]; exact a4
  unfold headerUnpackValues at h2
  unfold headerPackValues
  have nI : ∀ c : Nat, needInt (.int (c : Int)) = .ok (c : Int) := fun _ => rfl
  by_cases hsl : 0 ≤ sl
  · rw [if_pos hsl] at h2 hnum ⊢
    simp only [decide_eq_true_eq] at hnum
    by_cases h1 : hdrNum hdr = 1
    · rw [if_pos h1] at h2 ⊢
      rw [h1] at a3
      obtain ⟨v, rfl⟩ := List.length_eq_one_iff.1 a3
      obtain ⟨c, rfl⟩ := a5 v (by simp)
      simp only [first, nI, bind, Except.bind, Except.ok.injEq, Prod.mk.injEq] at h2
      obtain ⟨rfl, h2⟩ := h2
      rw [if_neg (by omega), hds h2.symm]
    · rw [if_neg h1] at h2 ⊢
      have : rv = [] := List.eq_nil_of_length_eq_zero (by omega)
      cases h2
      rw [if_neg (by omega), this]
  · rw [if_neg hsl] at h2 hnum ⊢
    simp only [decide_eq_true_eq] at hnum
    by_cases h2n : hdrNum hdr = 2
    · rw [if_pos h2n] at h2 ⊢
      rw [h2n] at a3
      match rv, a3 with
      | [v, w], _ =>
        obtain ⟨c, rfl⟩ := a5 v (by simp)
        obtain ⟨c', rfl⟩ := a5 w (by simp)
        simp only [nI, bind, Except.bind, Except.ok.injEq, Prod.mk.injEq] at h2
        obtain ⟨rfl, h2⟩ := h2
        rw [hds h2.symm]; rfl
    · rw [if_neg h2n] at h2 ⊢
      rw [hnum.resolve_right h2n] at a3
      obtain ⟨v, rfl⟩ := List.length_eq_one_iff.1 a3
      obtain ⟨c, rfl⟩ := a5 v (by simp)
      simp only [first, nI, bind, Except.bind, Except.ok.injEq, Prod.mk.injEq] at h2
      obtain ⟨rfl, _⟩ := h2
      rfl

end Verif
