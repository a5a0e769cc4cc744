import Verif.Props.Layout
import Verif.Spec.Pads
import Verif.Proofs.ReadTrim
import Verif.Proofs.ReadLift
/-
Lemmas about pads.
-/
namespace Verif
open Spec Sem

/-! ### The serializer of `pad[k]` -/

theorem padChar_matmul (k : Nat) (hk : 0 < k) : ∃ s, StructSer.matmul ⟨['x'], none⟩ k = .ok (some s) ∧
    s.byteOrder = .default ∧ s.toks = [⟨k, .pad⟩] ∧ s.actions = none ∧ SingleItem s.baseFormat ∧ s.Valid ∧ (Ser.struct s).isPad = true := by
  have last : ∀ {f : List Char} {t : Tok}, parse true f = some [t] → t.c = .pad → SingleItem f → f.getLast? = some 'x' := by
    rintro f t hp ht ⟨ds, ch, rfl, hd, hs⟩
    obtain ⟨c, hc⟩ := Option.isSome_iff_exists.1 hs
    rw [parse_item true ds hd ch c hc []] at hp
    simp [parse, parseAux] at hp
    have : c = .pad := by rw [← hp] at ht; exact ht
    subst this
    have : ch = 'x' := ofChar_inj hc (by rfl)
    subst this
    simp
  obtain ⟨m, rfl⟩ : ∃ m, k = m + 1 := ⟨k - 1, by omega⟩
  by_cases h1 : m = 0
  · subst h1
    exact ⟨⟨['x'], none⟩, by rfl, by decide, by decide, rfl, ⟨[], 'x', by rfl, by simp, by rfl⟩, ⟨by decide, by simp⟩, by rfl⟩
  · have hpos : ¬ ((m + 1 : Nat) : Int) = 0 ∧ ¬ ((m + 1 : Nat) : Int) < 0 ∧
        ¬ ((m + 1 : Nat) : Int) = 1 := by omega
    have hto : ((m + 1 : Nat) : Int).toNat = m + 1 := by omega
    obtain ⟨f, hf, hsi, hp⟩ := fold_repeat_single (nat := true) (cs := true) (ds := []) (ch := 'x') (c := .pad)
      (by simp) (by rfl) (by simp) (.inl rfl) m
    obtain ⟨g1, g2, g3, g4⟩ := StructSer.of_parse (bo := .default) (a := none) hp
    have hl := last hp rfl hsi
    refine ⟨⟨ByteOrder.default.value ++ f, none⟩, ?_, g2, ?_, rfl, ?_, ⟨g1, by simp⟩, ?_⟩
    · have e1 : (StructSer.mk ['x'] none).baseFormat = ['x'] := by decide
      have e2 : (StructSer.mk ['x'] none).byteOrder = .default := by decide
      simp only [List.nil_append] at hf
      simp only [StructSer.matmul, StructSer.mulImpl, hpos, ↓reduceIte, hto, e1, e2, StructSer.remake,
        bind, Except.bind, Nat.add_sub_cancel, hf]
      rw [StructSer.mkPlain_ok (bo := .default) hp]
    · rw [g4]; simp [countVal]
    · rw [g3]; exact hsi
    · simp only [Ser.isPad, StructSer.numValues, g4, Bool.and_eq_true, beq_iff_eq]
      refine ⟨by simp [numVals, Tok.numVals], ?_⟩
      exact hl

theorem padHint_transform {ctx : HintCtx} {k : Nat} {h : Hint} (hp : PadHint k h) : ∃ st : StructSer,
    (∀ n id, transform ctx (n + 1) id h = .ok (.ser (.struct st))) ∧ (∀ n id, transformTypehint ctx (n + 1) id h = .ok (some (.struct st))) ∧
    evalHint h = h ∧ st.toks = [⟨k, .pad⟩] ∧ st.byteOrder = .default ∧ FieldOf .default (.struct st) ∧ (Ser.struct st).isPad = true := by
  obtain ⟨hk, hp⟩ := hp
  obtain ⟨s, h1, h2, h3, h4, h5, h6, h7⟩ := padChar_matmul k hk
  simp only [mkPad, h1, bind, Except.bind] at hp
  cases hp
  have ht : ∀ n id, transform ctx (n + 1) id (.annot (.plain "NoneType") [.ser (optSer (some s))]) = .ok (.ser (.struct s)) := fun n id => rfl
  refine ⟨s, ht, ?_, rfl, h3, h2, ⟨rfl, fun x hx => by cases hx; exact ⟨h6, h2, h5⟩⟩, h7⟩
  intro n id
  show (do .ok (← transform ctx (n + 1) id _).ser?) = _
  rw [ht]
  rfl

/-- Whatever the nesting allowed, a pad's hint gives the pad's serializer. -/
theorem padHint_only {ctx : HintCtx} {k n : Nat} {id : SerId} {h : Hint} {r : Option Ser} (hp : PadHint k h)
    (hr : transformTypehint ctx n id h = .ok r) : ∃ st : StructSer, r = some (.struct st) ∧ st.toks = [⟨k, .pad⟩] ∧
      st.byteOrder = .default ∧ FieldOf .default (.struct st) ∧ (Ser.struct st).isPad = true := by
  obtain ⟨st, _, h2, _, h4, h5, h6, h7⟩ := padHint_transform (ctx := ctx) hp
  have := transformTypehint_same hr (h2 0 [])
  cases r with
  | none => cases this
  | some s =>
    have e := anon_struct (x := st) (Option.some.inj this)
    subst e
    exact ⟨st, rfl, h4, h5, h6, h7⟩

theorem padHint_wbo {st : StructSer} {k : Nat} {bo : ByteOrder} {s : Ser} (ht : st.toks = [⟨k, .pad⟩])
    (hf : FieldOf .default (.struct st)) (h : (Ser.struct st).withByteOrder bo = .ok s) :
    ∃ st' : StructSer, s = .struct st' ∧ st'.toks = [⟨k, .pad⟩] ∧ st'.byteOrder = bo := by
  simp only [Ser.withByteOrder] at h
  obtain ⟨st', h1, h⟩ := Except.bind_ok' h
  cases h
  obtain ⟨hv, hb, _⟩ := hf.2 st rfl
  obtain ⟨hp, rfl⟩ := (structWbo_default hv).1 h1
  obtain ⟨g1, g2, g3, g4⟩ := StructSer.of_parse (bo := bo) (a := st.actions) hp
  exact ⟨_, rfl, g4.trans ht, g2⟩

/-! ### Struct serializers with a pad in them -/

theorem pad_align (nat : Bool) : Code.align nat .pad = 1 := by cases nat <;> rfl

theorem pad_bytes (nat : Bool) (k : Nat) : (Tok.mk k .pad).bytes nat = k := by
  cases nat <;> simp [Tok.bytes, Code.bytes]

theorem packToks_pad {P : Platform} {bo : ByteOrder} {t1 t2 : List Tok} {k : Nat} {vs : List Val} {b : Bytes}
    (h : packToks P bo (t1 ++ ⟨k, .pad⟩ :: t2) 0 vs = .ok b) :
    ∃ x y, b = x ++ List.replicate k 0 ++ y ∧ x.length = endOff bo.isNative t1 0 := by
  rw [packToks_append] at h
  obtain ⟨x, h1, h⟩ := Except.bind_ok' h
  obtain ⟨y, h2, h⟩ := Except.bind_ok' h
  cases h
  rw [packToks] at h2
  simp only [packTok, pad_align, padLen_one, List.replicate_zero, List.nil_append, bind, Except.bind] at h2
  split at h2
  · cases h2
  · rename_i r hr
    cases h2
    refine ⟨x, r, by simp, ?_⟩
    have := packToks_length h1
    omega

theorem unpackToks_congr (P : Platform) (bo : ByteOrder) : ∀ (ts : List Tok) (o : Nat) (b b' : Bytes),
    b.take (endOff bo.isNative ts o - o) = b'.take (endOff bo.isNative ts o - o) →
    unpackToks P bo ts o b = unpackToks P bo ts o b'
  | [], o, b, b', _ => rfl
  | t :: ts, o, b, b', h => by
    simp only [endOff] at h
    have hle := le_endOff bo.isNative ts (o + padLen (t.c.align bo.isNative) o + t.bytes bo.isNative)
    generalize hE : endOff bo.isNative ts (o + padLen (t.c.align bo.isNative) o + t.bytes bo.isNative) = E at h hle
    simp only [unpackToks]
    generalize padLen (t.c.align bo.isNative) o = pad at *
    generalize t.bytes bo.isNative = w at *
    have e1 : (b.drop pad).take w = (b'.drop pad).take w := by
      have := congrArg (fun l => (l.drop pad).take w) h
      simp only [List.drop_take, List.take_take] at this
      rwa [Nat.min_eq_left (by omega)] at this
    have e2 : (b.drop (pad + w)).take (E - (o + pad + w)) = (b'.drop (pad + w)).take (E - (o + pad + w)) := by
      have := congrArg (fun l => l.drop (pad + w)) h
      simp only [List.drop_take] at this
      rwa [show E - o - (pad + w) = E - (o + pad + w) by omega] at this
    have e3 := unpackToks_congr P bo ts (o + pad + w) (b.drop (pad + w)) (b'.drop (pad + w)) (by rw [hE]; exact e2)
    rw [e1, e3]

theorem unpackToks_pad (P : Platform) (bo : ByteOrder) {t1 t2 : List Tok} {k : Nat} {x p p' y : Bytes}
    (hx : x.length = endOff bo.isNative t1 0) (hp : p.length = k) (hp' : p'.length = k) :
    unpackToks P bo (t1 ++ ⟨k, .pad⟩ :: t2) 0 (x ++ p ++ y) = unpackToks P bo (t1 ++ ⟨k, .pad⟩ :: t2) 0 (x ++ p' ++ y) := by
  rw [unpackToks_append, unpackToks_append]
  have e1 : unpackToks P bo t1 0 (x ++ p ++ y) = unpackToks P bo t1 0 (x ++ p' ++ y) := by
    apply unpackToks_congr
    rw [Nat.sub_zero, ← hx]
    simp [List.append_assoc]
  have e2 : ∀ q : Bytes, q.length = k → unpackToks P bo (⟨k, .pad⟩ :: t2) (endOff bo.isNative t1 0) ((x ++ q ++ y).drop (endOff bo.isNative t1 0 - 0)) =
      unpackToks P bo t2 (endOff bo.isNative t1 0 + k) y := by
    intro q hq
    rw [Nat.sub_zero, ← hx, List.append_assoc, List.drop_left, unpackToks]
    simp only [unpackTok, pad_align, padLen_one, pad_bytes, List.nil_append, Nat.zero_add, Nat.add_zero, ← hq, List.drop_left]
  rw [e1, e2 p hp, e2 p' hp']

theorem StructSer.unpack_pad {P : Platform} {z : StructSer} {t1 t2 : List Tok} {k : Nat} {x p p' y : Bytes}
    (hz : ToksAgree z.toks (t1 ++ ⟨k, .pad⟩ :: t2)) (hx : x.length = offsetAfter z t1) (hp : p.length = k) (hp' : p'.length = k) :
    z.unpack P (x ++ p ++ y) = z.unpack P (x ++ p' ++ y) := by
  have hsz : z.size = endOff z.byteOrder.isNative (t1 ++ ⟨k, .pad⟩ :: t2) 0 := by
    rw [← hz.off]; rfl
  have hle : x.length + k ≤ z.size := by
    rw [hsz, endOff_append, endOff, pad_align, padLen_one, pad_bytes, hx]
    exact le_endOff _ _ _
  have cut : ∀ q : Bytes, q.length = k → (x ++ q ++ y).take z.size = x ++ q ++ y.take (z.size - (x.length + k)) := by
    intro q hq
    rw [List.take_append, List.take_of_length_le (by simp; omega)]
    simp [hq]
  unfold StructSer.unpack
  rw [cut p hp, cut p' hp']
  unfold structUnpack
  rw [hz.unpack, hz.unpack, unpackToks_pad P z.byteOrder hx hp hp']
  have : (x ++ p ++ y.take (z.size - (x.length + k))).length = (x ++ p' ++ y.take (z.size - (x.length + k))).length := by
    simp [hp, hp']
  rw [this]

/-- Reading on behind a place does not depend on what is before it. -/
theorem decLoopSpec_behind {decN : Ser → Option PObj → PSrc → Out Dec} {upd : Upd} {b b' : Bytes} : ∀ (ss : List Ser) (p : PObj)
    (done size pos : Nat), b.drop size = b'.drop size →
    decLoopSpec decN upd (.buf b) p done size pos ss = decLoopSpec decN upd (.buf b') p done size pos ss := by
  intro ss
  induction ss with
  | nil => intro p done size pos _; rfl
  | cons s ss ih =>
    intro p done size pos h
    have h' : ∀ k, b.drop (size + k) = b'.drop (size + k) := fun k => by
      rw [← List.drop_drop, ← List.drop_drop, h]
    rw [decLoopSpec, decLoopSpec]
    simp only [PSrc.next, h]
    congr 1; funext x
    congr 1; funext a
    congr 1; funext p'
    rw [ih _ _ _ _ (h' _)]

theorem decLoop_behind {decN : Ser → Option PObj → PSrc → Out Dec} {b b' : Bytes} : ∀ (ss : List Ser)
    (size pos : Nat), b.drop size = b'.drop size →
    decLoop decN (.buf b) size pos ss = decLoop decN (.buf b') size pos ss := by
  intro ss
  induction ss with
  | nil => intro size pos _; rfl
  | cons s ss ih =>
    intro size pos h
    have h' : ∀ k, b.drop (size + k) = b'.drop (size + k) := fun k => by
      rw [← List.drop_drop, ← List.drop_drop, h]
    rw [decLoop, decLoop]
    simp only [PSrc.next, h]
    congr 1; funext a
    rw [ih _ _ (h' _)]

section ignored
variable {env : Env}

/-- A part in front of the pad reads the same. -/
theorem dec_front (hp : env.noPeek) (hk : env.allowed ⟨true, false, true, false⟩) {n : Nat} {upd : Upd} {s : Ser} {q : Option PObj}
    {b b' : Bytes} {r : Dec} (hs : s.noPeek = true) (ha : s.allowed ⟨true, false, true, false⟩ = true) (h : dec env n upd s q (.buf b) = .ok r)
    (hl : r.size ≤ b.length) (he : b.take r.size = b'.take r.size) :
    dec env n upd s q (.buf b') = .ok r := by
  have h1 : dec env n upd s q (.buf (b.take r.size ++ b.drop r.size)) = .ok r := by rw [List.take_append_drop]; exact h
  have h2 := dec_trim hp n upd s q _ _ r hs h1 (by simp; omega)
  have h3 := dec_ext hk n upd s q _ r (.buf (b.take r.size ++ b'.drop r.size)) (b'.drop r.size) ha h2 (by simp; omega) rfl
    ⟨by simp, by simp [PSrc.isAt], by simp [PSrc.isBuf], by simp [PSrc.isBuf], nofun⟩ (by simp [PSrc.isBuf])
  have h4 := dec_ext hk n upd s q _ r (.buf (b.take r.size ++ [])) [] ha h2 (by simp; omega) rfl
    ⟨by simp, by simp [PSrc.isAt], by simp [PSrc.isBuf], by simp [PSrc.isBuf], nofun⟩ (by simp [PSrc.isBuf])
  rw [List.append_nil, h2] at h4
  have h5 : r.moved (.buf (b.take r.size ++ b'.drop r.size)) = r := (Out.ok.inj h4).symm
  rw [h5, he, List.take_append_drop] at h3
  exact h3

theorem take_drop_front {x q q' y : Bytes} {size m : Nat} (h : size + m ≤ x.length) :
    ((x ++ q ++ y).drop size).take m = ((x ++ q' ++ y).drop size).take m ∧ m ≤ ((x ++ q ++ y).drop size).length := by
  constructor
  · have : ∀ w : Bytes, ((x ++ w).drop size).take m = (x.drop size).take m := by
      intro w
      rw [List.drop_append_of_le_length (by omega), List.take_append_of_le_length (by simp; omega)]
    rw [List.append_assoc, List.append_assoc, this, this]
  · simp; omega

theorem drop_behind {x q q' y : Bytes} {m : Nat} (h : x.length + q.length ≤ m) (hq : q.length = q'.length) :
    (x ++ q ++ y).drop m = (x ++ q' ++ y).drop m := by
  have : ∀ w : Bytes, w.length = q.length → (x ++ w ++ y).drop m = y.drop (m - (x.length + q.length)) := by
    intro w hw
    rw [List.drop_append, List.drop_eq_nil_of_le (by simp; omega)]
    simp [hw]
  rw [this q rfl, this q' hq.symm]

/-- The struct serializer with the pad. -/
theorem dec_pad {n k : Nat} {upd : Upd} {z : StructSer} {q : Option PObj} {t1 t2 : List Tok} {x p p' y : Bytes} {size pos : Nat}
    (hz : ToksAgree z.toks (t1 ++ ⟨k, .pad⟩ :: t2)) (hx : x.length = size + offsetAfter z t1) (hp : p.length = k) (hp' : p'.length = k) :
    dec env n upd (.struct z) q ((PSrc.buf (x ++ p ++ y)).next size pos) =
      dec env n upd (.struct z) q ((PSrc.buf (x ++ p' ++ y)).next size pos) := by
  cases n with
  | zero => rfl
  | succ n =>
    have : ∀ w : Bytes, (x ++ w ++ y).drop size = x.drop size ++ w ++ y := by
      intro w
      rw [List.append_assoc, List.drop_append_of_le_length (by omega), List.append_assoc]
    simp only [PSrc.next, dec, structDec, this]
    rw [StructSer.unpack_pad hz (by simp; omega) hp hp']

theorem pad_size {k : Nat} {z : StructSer} {t1 t2 : List Tok} (hz : ToksAgree z.toks (t1 ++ ⟨k, .pad⟩ :: t2)) :
    offsetAfter z t1 + k ≤ z.size := by
  have hsz : z.size = endOff z.byteOrder.isNative (t1 ++ ⟨k, .pad⟩ :: t2) 0 := by
    rw [← hz.off]; rfl
  rw [hsz, endOff_append, endOff, pad_align, padLen_one, pad_bytes]
  exact le_endOff _ _ _

theorem dec_struct_size {n : Nat} {upd : Upd} {z : StructSer} {q : Option PObj} {src : PSrc} {a : Dec}
    (h : dec env n upd (.struct z) q src = .ok a) : a.size = z.size := by
  cases n with
  | zero => cases h
  | succ n =>
    simp only [dec] at h
    obtain ⟨x, _, h2⟩ := Except.bind_ok' (ofE_ok h)
    cases h2
    rfl

theorem decLoopSpec_pad (hnp : env.noPeek) (hk : env.allowed ⟨true, false, true, false⟩) {n k : Nat} {upd : Upd} {z : StructSer}
    {t1 t2 : List Tok} {post : List Ser} {x p p' y : Bytes}
    (hz : ToksAgree z.toks (t1 ++ ⟨k, .pad⟩ :: t2)) (hp : p.length = k) (hp' : p'.length = k) :
    ∀ (pre : List Ser) (o : PObj) (done size pos : Nat) (r r0 : Dec), Ser.noPeekList pre = true → Ser.allowedList ⟨true, false, true, false⟩ pre = true →
      decLoopSpec (dec env n noUpd) upd (.buf (x ++ p ++ y)) o done size pos (pre ++ .struct z :: post) = .ok r →
      decLoopSpec (dec env n noUpd) upd (.buf (x ++ p ++ y)) o done size pos pre = .ok r0 →
      x.length = r0.size + offsetAfter z t1 →
      decLoopSpec (dec env n noUpd) upd (.buf (x ++ p' ++ y)) o done size pos (pre ++ .struct z :: post) = .ok r := by
  intro pre
  induction pre with
  | nil =>
    intro o done size pos r r0 _ _ h h0 hx
    cases h0
    rw [List.nil_append] at h ⊢
    rw [decLoopSpec] at h ⊢
    have hpre : preU (.struct z) o = .ok (.struct z, none) := rfl
    rw [Out.ofE_ok_bind hpre] at h ⊢
    simp only at h hx ⊢
    obtain ⟨a, e2, h⟩ := Out.bind_ok' h
    have hsz := dec_struct_size e2
    rw [dec_pad hz hx hp hp'] at e2
    have := pad_size hz
    rw [← h, e2]
    have e3 := fun p1 d1 => decLoopSpec_behind (decN := dec env n noUpd) (upd := upd) post p1 d1 (size + a.size) a.pos
      (drop_behind (x := x) (q := p) (q' := p') (y := y) (m := size + a.size) (by omega) (by omega))
    simp only [e3]
    rfl
  | cons s pre ih =>
    intro o done size pos r r0 hn ha h h0 hx
    rw [List.cons_append] at h ⊢
    rw [decLoopSpec] at h h0 ⊢
    simp only [Ser.noPeekList, Ser.allowedList, Bool.and_eq_true] at hn ha
    obtain ⟨⟨s', q⟩, e1, h⟩ := Out.ofE_ok' h
    obtain ⟨⟨s'', q''⟩, e1', h0⟩ := Out.ofE_ok' h0
    rw [e1] at e1'; cases e1'
    obtain ⟨a, e2, h⟩ := Out.bind_ok' h
    obtain ⟨a', e2', h0⟩ := Out.bind_ok' h0
    rw [e2] at e2'; cases e2'
    obtain ⟨o', e3, h⟩ := Out.ofE_ok' h
    obtain ⟨o'', e3', h0⟩ := Out.ofE_ok' h0
    rw [e3] at e3'; cases e3'
    by_cases hs : ¬ s'.sized = true
    · rw [if_pos hs] at h; cases h
    rw [if_neg hs] at h h0
    obtain ⟨r1, e4, h⟩ := Out.bind_ok' h
    obtain ⟨r2, e4', h0⟩ := Out.bind_ok' h0
    cases h0
    have hsz := decLoopSpec_size _ _ _ _ _ _ e4'
    simp only at hx
    have e5 := ih _ _ _ _ _ _ hn.2 ha.2 e4 e4' hx
    have hb := take_drop_front (x := x) (q := p) (q' := p') (y := y) (size := size) (m := a.size) (by omega)
    have e6 := dec_front hnp hk (preU_noPeek hn.1 e1) (preU_allowed ha.1 e1) (b' := (x ++ p' ++ y).drop size) e2 hb.2 hb.1
    have e6' : dec env n noUpd s' q ((PSrc.buf (x ++ p' ++ y)).next size pos) = .ok a := e6
    rw [Out.ofE_ok_bind e1]
    show (dec env n noUpd s' q ((PSrc.buf (x ++ p' ++ y)).next size pos) >>= _) = _
    rw [e6']
    show (Out.ofE (upd o done a.vals) >>= _) = _
    rw [Out.ofE_ok_bind e3, if_neg hs, e5]
    exact h

theorem decLoop_pad (hnp : env.noPeek) (hk : env.allowed ⟨true, false, true, false⟩) {n k : Nat} {z : StructSer}
    {t1 t2 : List Tok} {post : List Ser} {x p p' y : Bytes}
    (hz : ToksAgree z.toks (t1 ++ ⟨k, .pad⟩ :: t2)) (hp : p.length = k) (hp' : p'.length = k) :
    ∀ (pre : List Ser) (size pos : Nat) (r r0 : Dec), Ser.noPeekList pre = true → Ser.allowedList ⟨true, false, true, false⟩ pre = true →
      decLoop (dec env n noUpd) (.buf (x ++ p ++ y)) size pos (pre ++ .struct z :: post) = .ok r →
      decLoop (dec env n noUpd) (.buf (x ++ p ++ y)) size pos pre = .ok r0 →
      x.length = r0.size + offsetAfter z t1 →
      decLoop (dec env n noUpd) (.buf (x ++ p' ++ y)) size pos (pre ++ .struct z :: post) = .ok r := by
  intro pre
  induction pre with
  | nil =>
    intro size pos r r0 _ _ h h0 hx
    cases h0
    rw [List.nil_append] at h ⊢
    rw [decLoop] at h ⊢
    simp only at hx
    obtain ⟨a, e2, h⟩ := Out.bind_ok' h
    have hsz := dec_struct_size e2
    rw [dec_pad hz hx hp hp'] at e2
    have := pad_size hz
    rw [← h, e2]
    have e3 := decLoop_behind (decN := dec env n noUpd) post (size + a.size) a.pos
      (drop_behind (x := x) (q := p) (q' := p') (y := y) (m := size + a.size) (by omega) (by omega))
    simp only [e3]
    rfl
  | cons s pre ih =>
    intro size pos r r0 hn ha h h0 hx
    rw [List.cons_append] at h ⊢
    rw [decLoop] at h h0 ⊢
    simp only [Ser.noPeekList, Ser.allowedList, Bool.and_eq_true] at hn ha
    obtain ⟨a, e2, h⟩ := Out.bind_ok' h
    obtain ⟨a', e2', h0⟩ := Out.bind_ok' h0
    rw [e2] at e2'; cases e2'
    by_cases hs : ¬ s.sized = true
    · rw [if_pos hs] at h; cases h
    rw [if_neg hs] at h h0
    obtain ⟨r1, e4, h⟩ := Out.bind_ok' h
    obtain ⟨r2, e4', h0⟩ := Out.bind_ok' h0
    cases h0
    have hsz := decLoop_size _ _ _ _ e4'
    simp only at hx
    have e5 := ih _ _ _ _ hn.2 ha.2 e4 e4' hx
    have hb := take_drop_front (x := x) (q := p) (q' := p') (y := y) (size := size) (m := a.size) (by omega)
    have e6 := dec_front hnp hk hn.1 ha.1 (b' := (x ++ p' ++ y).drop size) e2 hb.2 hb.1
    have e6' : dec env n noUpd s none ((PSrc.buf (x ++ p' ++ y)).next size pos) = .ok a := e6
    rw [e6']
    show (if ¬ s.sized = true then _ else _) = _
    rw [if_neg hs, e5]
    exact h

theorem decLoopSpec_front {decN : Ser → Option PObj → PSrc → Out Dec} {upd : Upd} {src : PSrc} {post : List Ser} :
    ∀ (pre : List Ser) (o : PObj) (done size pos : Nat) (r : Dec), decLoopSpec decN upd src o done size pos (pre ++ post) = .ok r →
      ∃ r0, decLoopSpec decN upd src o done size pos pre = .ok r0 := by
  intro pre
  induction pre with
  | nil => intro o done size pos r _; exact ⟨_, rfl⟩
  | cons s pre ih =>
    intro o done size pos r h
    rw [List.cons_append, decLoopSpec] at h
    rw [decLoopSpec]
    obtain ⟨⟨s', q⟩, e1, h⟩ := Out.ofE_ok' h
    obtain ⟨a, e2, h⟩ := Out.bind_ok' h
    obtain ⟨o', e3, h⟩ := Out.ofE_ok' h
    by_cases hs : ¬ s'.sized = true
    · rw [if_pos hs] at h; cases h
    rw [if_neg hs] at h
    obtain ⟨r1, e4, h⟩ := Out.bind_ok' h
    obtain ⟨r2, e5⟩ := ih _ _ _ _ _ e4
    rw [Out.ofE_ok_bind e1]
    simp only [e2]
    exact ⟨_, by
      show (Out.ofE (upd o done a.vals) >>= _) = _
      rw [Out.ofE_ok_bind e3, if_neg hs, e5]; rfl⟩

theorem decLoop_front {decN : Ser → Option PObj → PSrc → Out Dec} {src : PSrc} {post : List Ser} :
    ∀ (pre : List Ser) (size pos : Nat) (r : Dec), decLoop decN src size pos (pre ++ post) = .ok r →
      ∃ r0, decLoop decN src size pos pre = .ok r0 := by
  intro pre
  induction pre with
  | nil => intro size pos r _; exact ⟨_, rfl⟩
  | cons s pre ih =>
    intro size pos r h
    rw [List.cons_append, decLoop] at h
    rw [decLoop]
    obtain ⟨a, e2, h⟩ := Out.bind_ok' h
    by_cases hs : ¬ s.sized = true
    · rw [if_pos hs] at h; cases h
    rw [if_neg hs] at h
    obtain ⟨r1, e4, h⟩ := Out.bind_ok' h
    obtain ⟨r2, e5⟩ := ih _ _ _ e4
    simp only [e2]
    exact ⟨_, by
      show (if ¬ s.sized = true then _ else _) = _
      rw [if_neg hs, e5]; rfl⟩

end ignored

/-! ### The place of a field -/

/-- The struct serializer that a basic field is part of. -/
theorem laid_at {xs ys : List Ser} (h : Laid xs ys) : ∀ {pre post : List Ser} {st : StructSer}, xs = pre ++ .struct st :: post →
    ∃ (preP : List Ser) (z : StructSer) (postP x1 x2 : List Ser) (t1 t2 : List StructSer), ys = preP ++ .struct z :: postP ∧
      pre = x1 ++ t1.map Ser.struct ∧ post = t2.map Ser.struct ++ x2 ∧ Laid x1 preP ∧ Laid x2 postP ∧
      ToksAgree z.toks (t1.flatMap StructSer.toks ++ (st.toks ++ t2.flatMap StructSer.toks)) ∧ st.byteOrder = z.byteOrder := by
  induction h with
  | nil => intro pre post st h; simp at h
  | @one s xs ys hl ih =>
    intro pre post st h
    cases pre with
    | nil =>
      simp only [List.nil_append, List.cons.injEq] at h
      obtain ⟨rfl, rfl⟩ := h
      exact ⟨[], st, ys, [], xs, [], [], rfl, rfl, rfl, .nil, hl, by simpa using ToksAgree.refl _, rfl⟩
    | cons a pre =>
      simp only [List.cons_append, List.cons.injEq] at h
      obtain ⟨rfl, h⟩ := h
      obtain ⟨preP, z, postP, x1, x2, t1, t2, e1, e2, e3, e4, e5, e6, e7⟩ := ih h
      exact ⟨s :: preP, z, postP, s :: x1, x2, t1, t2, by rw [e1]; rfl, by rw [e2]; rfl, e3, .one e4, e5, e6, e7⟩
  | @group ts w xs ys ht hb hl ih =>
    intro pre post st h
    rcases List.append_eq_append_iff.1 h with ⟨c, rfl, hc⟩ | ⟨c, h1, h2⟩
    · obtain ⟨preP, z, postP, x1, x2, t1, t2, e1, e2, e3, e4, e5, e6, e7⟩ := ih hc
      exact ⟨.struct w :: preP, z, postP, ts.map Ser.struct ++ x1, x2, t1, t2, by rw [e1]; rfl, by rw [e2]; simp, e3, .group ht hb e4, e5, e6, e7⟩
    · cases c with
      | nil =>
        simp only [List.append_nil, List.nil_append] at h1 h2
        subst h1
        obtain ⟨preP, z, postP, x1, x2, t1, t2, e1, e2, e3, e4, e5, e6, e7⟩ := ih (pre := []) h2.symm
        have e2' := List.append_eq_nil_iff.1 e2.symm
        obtain ⟨rfl, h6⟩ := e2'
        exact ⟨.struct w :: preP, z, postP, ts.map Ser.struct ++ [], x2, t1, t2, by rw [e1]; rfl, by rw [h6]; simp, e3, .group ht hb e4, e5, e6, e7⟩
      | cons c cs =>
        simp only [List.cons_append, List.cons.injEq] at h2
        obtain ⟨rfl, rfl⟩ := h2
        obtain ⟨t1, t2, rfl, rfl, h3⟩ := map_struct_append h1
        cases t2 with
        | nil => cases h3
        | cons t t2 =>
          simp only [List.map_cons, List.cons.injEq, Ser.struct.injEq] at h3
          obtain ⟨rfl, rfl⟩ := h3
          refine ⟨[], w, ys, [], xs, t1, t2, rfl, rfl, rfl, .nil, hl, ?_, hb st (by simp)⟩
          simpa [List.flatMap_append] using ht

/-! ### Packing -/

theorem packLoop_at {f : Ser → List Val → M Bytes} {pr : Ser → M Ser} {z : StructSer} {post : List Ser}
    (hpr : ∀ st, pr (.struct z) st = .ok (.struct z) st) :
    ∀ {pre : List Ser} {vs : List Val} {st st' : St} {r : Bytes × Nat},
      packLoop f pr (pre ++ .struct z :: post) vs st = .ok r st' →
      ∃ b0 c0 st0 vs' bz st1 b1, packLoop f pr pre vs st = .ok (b0, c0) st0 ∧ f (.struct z) vs' st0 = .ok bz st1 ∧ r.1 = b0 ++ bz ++ b1
  | [], vs, st, st', r, h => by
    rw [List.nil_append, packLoop] at h
    obtain ⟨s', t1, h1, h⟩ := M.bind_ok h
    rw [hpr] at h1
    cases h1
    obtain ⟨b, t2, h2, h⟩ := M.bind_ok h
    obtain ⟨z', t3, h3, h⟩ := M.bind_ok h
    obtain ⟨q, t4, h4, h⟩ := M.bind_ok h
    cases h
    exact ⟨[], 0, st, _, b, _, q.1, rfl, h2, by simp⟩
  | x :: pre, vs, st, st', r, h => by
    rw [List.cons_append, packLoop] at h
    obtain ⟨x', t1, h1, h⟩ := M.bind_ok h
    obtain ⟨c, t2, h2, h⟩ := M.bind_ok h
    obtain ⟨z', t3, h3, h⟩ := M.bind_ok h
    obtain ⟨q, t4, h4, h⟩ := M.bind_ok h
    cases h
    obtain ⟨b0, c0, st0, vs', bz, st1, b1, e1, e2, e3⟩ := packLoop_at hpr h4
    refine ⟨c ++ b0, z' + c0, st0, vs', bz, st1, b1, ?_, e2, ?_⟩
    · rw [packLoop, M.bind_eq h1, M.bind_eq h2, M.bind_eq h3, M.bind_eq e1]
      rfl
    · show c ++ q.1 = _
      rw [e3]; simp

theorem parts_struct {s : Ser} {pre post : List Ser} {z : StructSer} (h : parts s = pre ++ .struct z :: post) :
    (s = .struct z ∧ pre = [] ∧ post = []) ∨ ∃ i, s = .compound i (pre ++ .struct z :: post) := by
  have one : ∀ t : Ser, [t] = pre ++ .struct z :: post → t = .struct z ∧ pre = [] ∧ post = [] := by
    intro t e
    cases pre with
    | nil => simp only [List.nil_append, List.cons.injEq] at e; exact ⟨e.1, rfl, e.2.symm⟩
    | cons a as => simp at e
  cases s <;> first
    | (simp [parts] at h; done)
    | (right; simp only [parts] at h; exact ⟨_, by rw [h]⟩)
    | (left; exact one _ h)

end Verif
