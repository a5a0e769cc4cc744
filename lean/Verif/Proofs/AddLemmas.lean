import Verif.Proofs.FormatLemmas
import Verif.Spec.Struct
/-
Helper lemmas: when two item lists describe the same layout, and what `fold_overlaps` and
`reduce(fold_overlaps, repeat(fmt, n))` give as item lists.
-/
namespace Verif

/-- What a failing `pack_into` writes, for a concatenated format. -/
theorem packToksPrefix_append (P : Platform) (bo : ByteOrder) (t1 t2 : List Tok) (o : Nat)
    (vs : List Val) :
    packToksPrefix P bo (t1 ++ t2) o vs = match packToks P bo t1 o vs with
      | .ok b1 => b1 ++ packToksPrefix P bo t2 (o + b1.length) (vs.drop (numVals t1))
      | .error _ => packToksPrefix P bo t1 o vs := by
  induction t1 generalizing o vs with
  | nil => simp [packToks, numVals]
  | cons t ts ih =>
    simp only [List.cons_append, packToks, packToksPrefix, bind, Except.bind]
    cases hr : packTok P bo t vs with
    | error e => rfl
    | ok r =>
      obtain ⟨b0, rest⟩ := r
      obtain ⟨h1, h2, h3⟩ := packTok_spec hr
      dsimp only
      rw [ih]
      cases hq : packToks P bo ts (o + padLen (t.c.align bo.isNative) o + b0.length) rest with
      | error e => rfl
      | ok b1 =>
        dsimp only
        subst h2
        have e1 : o + (List.replicate (padLen (t.c.align bo.isNative) o) (0 : UInt8) ++ b0 ++ b1).length
            = o + padLen (t.c.align bo.isNative) o + b0.length + b1.length := by simp; omega
        have e2 : List.drop (numVals (t :: ts)) vs = List.drop (numVals ts) (List.drop t.numVals vs) := by
          simp [numVals, List.drop_drop]
        rw [e1, e2]; simp

theorem packManyPrefix_add (P : Platform) (bo : ByteOrder) (c : Code) (a b : Nat) (vs : List Val) :
    packManyPrefix P bo c (a + b) vs = match packMany P bo c a vs with
      | .ok (x, vs') => x ++ packManyPrefix P bo c b vs'
      | .error _ => packManyPrefix P bo c a vs := by
  induction a generalizing vs with
  | zero => simp [packMany]
  | succ a ih =>
    rw [show a + 1 + b = (a + b) + 1 by omega]
    cases vs with
    | nil => rfl
    | cons v vs =>
      simp only [packMany, packManyPrefix, bind, Except.bind]
      cases packOne P bo c v with
      | error e => rfl
      | ok x =>
        dsimp only
        rw [ih]
        cases packMany P bo c a vs with
        | error e => rfl
        | ok r => simp

theorem packToksPrefix_split (P : Platform) (bo : ByteOrder) (c : Code) (hc : c.isString = false)
    (a b : Nat) (o : Nat) (vs : List Val) :
    packToksPrefix P bo [⟨a + b, c⟩] o vs = packToksPrefix P bo [⟨a, c⟩, ⟨b, c⟩] o vs := by
  by_cases hp : c = .pad
  · subst hp
    have hz : padLen (Code.pad.align bo.isNative) (o + padLen (Code.pad.align bo.isNative) o
        + a) = 0 := by
      apply padLen_eq_zero
      have := aligned_after (nat := bo.isNative) .pad a o
      simpa [Code.bytes] using this
    simp [packToksPrefix, packTok, hz, List.replicate_append_replicate]; omega
  · have key : ∀ k us, packTok P bo ⟨k, c⟩ us = packMany P bo c k us := by
      intro k us
      cases c <;> simp [Code.isString] at hc hp <;> rfl
    simp only [packToksPrefix, key, packMany_add, packManyPrefix_add, bind, Except.bind]
    cases hx : packMany P bo c a vs with
    | error e => rfl
    | ok r =>
      obtain ⟨x, vs'⟩ := r
      dsimp only
      have hz : padLen (c.align bo.isNative) (o + padLen (c.align bo.isNative) o + x.length) = 0 := by
        apply padLen_eq_zero
        rw [(packMany_spec hx).1]; exact aligned_after c a o
      rw [hz]
      cases hy : packMany P bo c b vs' with
      | error e => simp
      | ok r => simp

/-- Two item lists that behave the same from every offset. -/
structure ToksAgree (t u : List Tok) : Prop where
  pre : ∀ P bo o vs, packToksPrefix P bo t o vs = packToksPrefix P bo u o vs
  pack : ∀ P bo o vs, packToks P bo t o vs = packToks P bo u o vs
  unpack : ∀ P bo o b, unpackToks P bo t o b = unpackToks P bo u o b
  off : ∀ nat o, endOff nat t o = endOff nat u o
  vals : numVals t = numVals u

theorem ToksAgree.refl (t : List Tok) : ToksAgree t t :=
  ⟨by simp, by simp, by simp, by simp, rfl⟩

theorem ToksAgree.symm {t u : List Tok} (h : ToksAgree t u) : ToksAgree u t :=
  ⟨fun P bo o vs => (h.pre P bo o vs).symm, fun P bo o vs => (h.pack P bo o vs).symm, fun P bo o b => (h.unpack P bo o b).symm,
   fun n o => (h.off n o).symm, h.vals.symm⟩

theorem ToksAgree.trans {t u w : List Tok} (h : ToksAgree t u) (k : ToksAgree u w) : ToksAgree t w :=
  ⟨fun P bo o vs => (h.pre P bo o vs).trans (k.pre P bo o vs),
   fun P bo o vs => (h.pack P bo o vs).trans (k.pack P bo o vs),
   fun P bo o b => (h.unpack P bo o b).trans (k.unpack P bo o b),
   fun n o => (h.off n o).trans (k.off n o), h.vals.trans k.vals⟩

theorem ToksAgree.append {t u t' u' : List Tok} (h : ToksAgree t u) (k : ToksAgree t' u') :
    ToksAgree (t ++ t') (u ++ u') := by
  refine ⟨?_, ?_, ?_, ?_, ?_⟩
  · intro P bo o vs
    rw [packToksPrefix_append, packToksPrefix_append, h.pack, h.vals, h.pre]
    split
    · rw [k.pre]
    · rfl
  · intro P bo o vs
    rw [packToks_append, packToks_append, h.pack, h.vals]
    congr 1; funext b1; rw [k.pack]
  · intro P bo o b
    rw [unpackToks_append, unpackToks_append, h.unpack, h.off, k.unpack]
  · intro nat o
    rw [endOff_append, endOff_append, h.off, k.off]
  · rw [numVals_append, numVals_append, h.vals, k.vals]

theorem ToksAgree.split (c : Code) (hc : c.isString = false) (a b : Nat) :
    ToksAgree [⟨a + b, c⟩] [⟨a, c⟩, ⟨b, c⟩] :=
  ⟨fun P bo o vs => packToksPrefix_split P bo c hc a b o vs,
   fun P bo o vs => packToks_split P bo c hc a b [] o vs,
   fun P bo o d => unpackToks_split P bo c hc a b [] o d,
   fun nat o => endOff_split nat c a b [] o,
   numVals_split c hc a b []⟩

/-- The code of the first/last item; `none` for an empty format. -/
def firstCode (ts : List Tok) : Option Code := ts.head?.map Tok.c
def lastCode (ts : List Tok) : Option Code := ts.getLast?.map Tok.c

/-- Joining `t1` and `t2` does not hit the code that drops everything after the first code of the
right operand: the right operand is one item, or the codes at the seam differ, or they are strings. -/
def Seam (f2 : List Char) (t1 t2 : List Tok) : Prop :=
  SingleItem f2 ∨ lastCode t1 ≠ firstCode t2 ∨ (∃ c, lastCode t1 = some c ∧ c.isString = true)

theorem parse_firstCode {nat : Bool} {f : List Char} {ts : List Tok} {ds ep : List Char} {ch : Char}
    (hp : parse nat f = some ts) (h : reStart f = some (ds, ch, ep)) :
    ∃ c, Code.ofChar ch = some c ∧ firstCode ts = some c := by
  obtain ⟨rest, rfl, hd, hs, _⟩ := reStart_spec h
  obtain ⟨c, hc⟩ := Option.isSome_iff_exists.1 hs
  refine ⟨c, hc, ?_⟩
  rw [parse_item nat ds hd ch c hc rest] at hp
  split at hp
  · cases hp
  · cases hr : parse nat rest with
    | none => simp [hr] at hp
    | some r => simp [hr] at hp; subst hp; rfl

theorem parse_lastCode {nat : Bool} {f : List Char} {ts : List Tok} {pre ds : List Char} {ch : Char}
    (hp : parse nat f = some ts) (h : reEnd f = some (pre, ds, ch)) :
    ∃ c, Code.ofChar ch = some c ∧ lastCode ts = some c := by
  obtain ⟨rfl, hd, hs, hl⟩ := reEnd_spec h
  obtain ⟨tp, c, hc, _, rfl, _⟩ := parse_reEnd hp hd hl hs
  exact ⟨c, hc, by simp [lastCode]⟩

/-- `fold_overlaps` describes the same layout as writing the two formats one after the other. -/
theorem foldOverlaps_agree {nat : Bool} {f1 f2 : List Char} {t1 t2 : List Tok}
    (h1 : parse nat f1 = some t1) (h2 : parse nat f2 = some t2) (hs : Seam f2 t1 t2) :
    ∃ t, parse nat (foldOverlaps false f1 f2) = some t ∧ ToksAgree t (t1 ++ t2) := by
  rcases hs with hs | hs
  · rcases foldOverlaps_parse (cs := false) h1 h2 hs with h | ⟨tp, a, b, c, rfl, rfl, hc, h⟩
    · exact ⟨_, h, .refl _⟩
    · refine ⟨_, h, ?_⟩
      have hc : c.isString = false := by simpa using hc
      rw [List.append_assoc]
      exact (ToksAgree.refl tp).append (ToksAgree.split c hc a b)
  · have hcat : foldOverlaps false f1 f2 = f1 ++ f2 := by
      unfold foldOverlaps
      split
      · rename_i c2 o2 ep pre c1 o1 hstart hend
        rw [if_neg]
        rintro ⟨rfl, hn⟩
        simp only [Bool.false_eq_true, false_or] at hn
        obtain ⟨ca, hca, hfa⟩ := parse_firstCode h2 hstart
        obtain ⟨cb, hcb, hlb⟩ := parse_lastCode h1 hend
        obtain rfl : ca = cb := by simpa using hca.symm.trans hcb
        rcases hs with hs | ⟨c, hc, hstr⟩
        · exact hs (hlb.trans hfa.symm)
        · obtain rfl : ca = c := by simpa using hlb.symm.trans hc
          exact hn ((ofChar_isString hcb).1 hstr)
      · rfl
    refine ⟨t1 ++ t2, ?_, .refl _⟩
    rw [hcat, parse_append h1, h2]; rfl

/-- `fold_overlaps` of formats that meet in a code only looks at the first item of the right one. -/
theorem foldOverlaps_first (f : List Char) {es : List Char} {ch : Char} (hd : ∀ d ∈ es, d.isDigit = true)
    (hs : isStructChar ch = true) (rest : List Char) (hm : ∃ p, f = p ++ [ch]) (h1 : ch ≠ 's') (h2 : ch ≠ 'p') :
    foldOverlaps false f (es ++ ch :: rest) = foldOverlaps false f (es ++ [ch]) ∧
    ∃ p, foldOverlaps false f (es ++ ch :: rest) = p ++ [ch] := by
  obtain ⟨p, rfl⟩ := hm
  have he : ∃ q ds, reEnd (p ++ [ch]) = some (q, ds, ch) := by
    unfold reEnd
    simp [hs]
  obtain ⟨q, ds, he⟩ := he
  unfold foldOverlaps
  rw [reStart_append hd hs, reStart_append hd hs, he]
  simp [h1, h2]
  exact ⟨q ++ Nat.toDigits 10 (countVal ds + countVal es), by simp⟩

theorem takeWhile_dropWhile_all {p : Char → Bool} {l : List Char} (h : ∀ x ∈ l, p x = true) :
    l.takeWhile p = l ∧ l.dropWhile p = [] := by
  induction l with
  | nil => simp
  | cons a l ih =>
    have ha := h a (by simp)
    have := ih (fun x hx => h x (by simp [hx]))
    simp [ha, this]

/-- `reduce(fold_overlaps, repeat(fmt, n+1))` for a single item format with a repeatable code. -/
theorem fold_repeat_single {nat cs : Bool} {ds : List Char} {ch : Char} {c : Code}
    (hd : ∀ d ∈ ds, d.isDigit = true) (hc : Code.ofChar ch = some c)
    (hno : ¬ (c.nativeOnly ∧ nat = false)) (hcs : cs = true ∨ c.isString = false) (n : Nat) :
    ∃ f, (List.replicate n (ds ++ [ch])).foldl (foldOverlaps cs) (ds ++ [ch]) = f ∧
      SingleItem f ∧ parse nat f = some [⟨(n + 1) * countVal ds, c⟩] := by
  have hs : isStructChar ch = true := by simp [isStructChar, hc]
  have base : ∀ es : List Char, (∀ d ∈ es, d.isDigit = true) →
      parse nat (es ++ [ch]) = some [⟨countVal es, c⟩] := by
    intro es hes
    rw [parse_item nat es hes ch c hc [], if_neg hno]; simp [parse, parseAux]
  have hrev : ∀ es : List Char, (∀ d ∈ es, d.isDigit = true) →
      reEnd (es ++ [ch]) = some ([], es, ch) := by
    intro es hes
    unfold reEnd
    simp only [List.reverse_append, List.reverse_cons, List.reverse_nil, List.nil_append,
      List.cons_append, hs, ↓reduceIte]
    have hall := takeWhile_dropWhile_all (p := Char.isDigit) (l := es.reverse)
      (by intro x hx; exact hes x (by simpa using hx))
    rw [hall.1, hall.2]; simp
  induction n with
  | zero => exact ⟨ds ++ [ch], rfl, ⟨ds, ch, rfl, hd, hs⟩, by simpa using base ds hd⟩
  | succ n ih =>
    obtain ⟨f, hf, hsi, hp⟩ := ih
    rw [List.replicate_succ', List.foldl_append, hf]
    refine ⟨_, rfl, ?_⟩
    simp only [List.foldl_cons, List.foldl_nil]
    obtain ⟨es, ch', rfl, hes, hs'⟩ := hsi
    obtain ⟨c', hc'⟩ := Option.isSome_iff_exists.1 hs'
    rw [parse_item nat es hes ch' c' hc' []] at hp
    split at hp
    · cases hp
    · simp only [parse, parseAux, Option.map_some, Option.some.injEq, List.cons.injEq, Tok.mk.injEq,
        and_true] at hp
      obtain ⟨hp1, rfl⟩ := hp
      obtain rfl := ofChar_inj hc hc'
      have hfold : foldOverlaps cs (es ++ [ch]) (ds ++ [ch])
          = Nat.toDigits 10 (countVal es + countVal ds) ++ [ch] := by
        unfold foldOverlaps
        rw [reStart_append hd hs, hrev es hes]
        dsimp only
        rw [if_pos]
        · simp
        · refine ⟨rfl, ?_⟩
          rcases hcs with h | h
          · exact .inl h
          · right; intro h'
            have := (ofChar_isString hc).2 h'
            simp [h] at this
      rw [hfold]
      refine ⟨⟨_, _, rfl, toDigits_isDigit _, hs⟩, ?_⟩
      rw [base _ (toDigits_isDigit _), countVal_toDigits, hp1]
      simp [Nat.add_mul]

/-- `n` copies of a list, one after the other. -/
def rep (n : Nat) (l : List α) : List α := (List.replicate n l).flatten

theorem rep_succ (n : Nat) (l : List α) : rep (n + 1) l = l ++ rep n l := by
  simp [rep, List.replicate_succ]

theorem rep_succ' (n : Nat) (l : List α) : rep (n + 1) l = rep n l ++ l := by
  simp [rep, List.replicate_succ']

theorem parse_rep {nat : Bool} {f : List Char} {t : List Tok} (h : parse nat f = some t) (n : Nat) :
    parse nat (rep n f) = some (rep n t) := by
  induction n with
  | zero => rfl
  | succ n ih => rw [rep_succ, parse_append h, ih, rep_succ]; rfl

/-- `ac` repeated is `(n*a)c`. -/
theorem ToksAgree.rep_single (c : Code) (hc : c.isString = false) (a n : Nat) :
    ToksAgree [⟨(n + 1) * a, c⟩] (rep (n + 1) [⟨a, c⟩]) := by
  induction n with
  | zero => simpa [rep] using ToksAgree.refl [⟨a, c⟩]
  | succ n ih =>
    rw [rep_succ', show (n + 1 + 1) * a = (n + 1) * a + a by rw [Nat.succ_mul]]
    exact (ToksAgree.split c hc _ _).trans (ih.append (.refl _))

theorem lastCode_agree_append {t t' : List Tok} (h : t' ≠ []) : lastCode (t ++ t') = lastCode t' := by
  obtain ⟨x, l, rfl⟩ := List.exists_cons_of_ne_nil h
  simp [lastCode, List.getLast?_append, List.getLast?_cons]

/-- `reduce(fold_overlaps, repeat(fmt, n+1))` for a format whose last and first codes cannot be
merged: plain repetition of the text. -/
theorem fold_repeat_nomerge {nat : Bool} {f : List Char} {t : List Tok}
    (h : parse nat f = some t)
    (hs : lastCode t ≠ firstCode t ∨ (∃ c, lastCode t = some c ∧ c.isString = true)) (n : Nat) :
    (List.replicate n f).foldl (foldOverlaps false) f = rep (n + 1) f := by
  induction n with
  | zero => simp [rep]
  | succ n ih =>
    rw [List.replicate_succ', List.foldl_append, ih]
    simp only [List.foldl_cons, List.foldl_nil]
    have hp := parse_rep h (n + 1)
    have hl : t ≠ [] → lastCode (rep (n + 1) t) = lastCode t := by
      intro ht; rw [rep_succ', lastCode_agree_append ht]
    have ht : t ≠ [] := by
      rintro rfl
      rcases hs with hs | ⟨c, hc, _⟩
      · simp [lastCode, firstCode] at hs
      · simp [lastCode] at hc
    rw [rep_succ' (n + 1)]
    unfold foldOverlaps
    split
    · rename_i c2 o2 ep pre c1 o1 hstart hend
      rw [if_neg]
      rintro ⟨rfl, hn⟩
      simp only [Bool.false_eq_true, false_or] at hn
      obtain ⟨ca, hca, hfa⟩ := parse_firstCode h hstart
      obtain ⟨cb, hcb, hlb⟩ := parse_lastCode hp hend
      obtain rfl : ca = cb := by simpa using hca.symm.trans hcb
      rw [hl ht] at hlb
      rcases hs with hs | ⟨c, hc, hstr⟩
      · exact hs (hlb.trans hfa.symm)
      · obtain rfl : ca = c := by simpa using hlb.symm.trans hc
        exact hn ((ofChar_isString hcb).1 hstr)
    · rfl

/-! ### Struct serializer objects -/

theorem parseAux_no_order {nat : Bool} {f : List Char} {acc : Option Nat} {t : List Tok}
    (h : parseAux nat f acc = some t) : ∀ c ∈ f, ByteOrder.ofChar c = none := by
  induction f generalizing acc t with
  | nil => simp
  | cons ch cs ih =>
    have key : ∀ c, (c.isWhitespace = true ∨ c.isDigit = true ∨ (Code.ofChar c).isSome) →
        ByteOrder.ofChar c = none := by
      intro c hc
      unfold ByteOrder.ofChar
      have : c ≠ '<' ∧ c ≠ '>' ∧ c ≠ '=' ∧ c ≠ '@' ∧ c ≠ '!' := by
        refine ⟨?_, ?_, ?_, ?_, ?_⟩ <;> (rintro rfl; revert hc; decide)
      simp [this]
    simp only [parseAux] at h
    intro c hc
    split at h
    · rename_i hw
      rcases List.mem_cons.1 hc with rfl | hc
      · exact key c (.inl hw.2)
      · exact ih h c hc
    · split at h
      · rename_i hd
        rcases List.mem_cons.1 hc with rfl | hc
        · exact key c (.inr (.inl hd))
        · exact ih h c hc
      · cases ho : Code.ofChar ch with
        | none => simp [ho] at h
        | some k =>
          simp only [ho] at h
          split at h
          · cases h
          · cases hr : parseAux nat cs none with
            | none => simp [hr] at h
            | some r =>
              rcases List.mem_cons.1 hc with rfl | hc
              · exact key c (.inr (.inr (by simp [ho])))
              · exact ih hr c hc

theorem splitByteOrder_value {nat : Bool} {f : List Char} {t : List Tok} (bo : ByteOrder)
    (h : parse nat f = some t) : splitByteOrder (bo.value ++ f) = (bo, f) := by
  cases bo <;> try rfl
  cases f with
  | nil => rfl
  | cons c cs =>
    have := parseAux_no_order h c (by simp)
    simp [ByteOrder.value, splitByteOrder, this]

/-- Every object made by the constructors: a format `struct` accepts, one action per value. -/
structure StructSer.Valid (s : StructSer) : Prop where
  fmt : StructSer.formatOk s.format = true
  acts : ∀ as, s.actions = some as → as.length = s.numValues

theorem StructSer.parse_base {s : StructSer} (h : StructSer.formatOk s.format = true) :
    parse s.byteOrder.isNative s.baseFormat = some s.toks := by
  simp only [StructSer.formatOk] at h
  unfold StructSer.toks StructSer.byteOrder StructSer.baseFormat
  cases hp : parse (splitByteOrder s.format).1.isNative (splitByteOrder s.format).2 with
  | none => simp [hp] at h
  | some t => rfl

theorem StructSer.format_eq (s : StructSer) : s.format = s.byteOrder.value ++ s.baseFormat := by
  unfold StructSer.byteOrder StructSer.baseFormat splitByteOrder
  split
  · simp_all [ByteOrder.value]
  · rename_i c rest h
    rw [h]
    split
    · rename_i bo hbo
      simp only
      unfold ByteOrder.ofChar at hbo
      have : c = '<' ∧ bo = .le ∨ c = '>' ∧ bo = .be ∨ c = '=' ∧ bo = .nativeStd ∨
          c = '@' ∧ bo = .native ∨ c = '!' ∧ bo = .network := by
        by_cases h1 : c = '<'
        · simp [h1] at hbo; simp [h1, hbo]
        by_cases h2 : c = '>'
        · simp [h2] at hbo; simp [h2, hbo]
        by_cases h3 : c = '='
        · simp [h3] at hbo; simp [h3, hbo]
        by_cases h4 : c = '@'
        · simp [h4] at hbo; simp [h4, hbo]
        by_cases h5 : c = '!'
        · simp [h5] at hbo; simp [h5, hbo]
        simp [h1, h2, h3, h4, h5] at hbo
      rcases this with ⟨rfl, rfl⟩ | ⟨rfl, rfl⟩ | ⟨rfl, rfl⟩ | ⟨rfl, rfl⟩ | ⟨rfl, rfl⟩ <;> rfl
    · rfl

/-- Facts about a serializer object made from text that parses. -/
theorem StructSer.of_parse {f : List Char} {t : List Tok} {bo : ByteOrder} {a : Option (List Action)}
    (h : parse bo.isNative f = some t) :
    let s : StructSer := ⟨bo.value ++ f, a⟩
    StructSer.formatOk s.format = true ∧ s.byteOrder = bo ∧ s.baseFormat = f ∧ s.toks = t := by
  have hsp := splitByteOrder_value bo h
  refine ⟨?_, ?_, ?_, ?_⟩
  · simp [StructSer.formatOk, hsp, h]
  · simp [StructSer.byteOrder, hsp]
  · simp [StructSer.baseFormat, hsp]
  · simp [StructSer.toks, StructSer.byteOrder, StructSer.baseFormat, hsp, h]

theorem StructSer.mkPlain_ok {f : List Char} {t : List Tok} {bo : ByteOrder}
    (h : parse bo.isNative f = some t) : StructSer.mkPlain f bo = .ok ⟨bo.value ++ f, none⟩ := by
  have := (StructSer.of_parse (a := none) h).1
  simp [StructSer.mkPlain, this]

theorem StructSer.mkActions_ok {f : List Char} {t : List Tok} {bo : ByteOrder} {as : List Action}
    (h : parse bo.isNative f = some t) (hl : as.length ≤ numVals t) :
    StructSer.mkActions f bo as
      = .ok ⟨bo.value ++ f, some (as ++ List.replicate (numVals t - as.length) noopAction)⟩ := by
  have h1 := StructSer.of_parse (a := none) h
  dsimp only at h1
  simp only [StructSer.mkActions, h1.1, ↓reduceIte, StructSer.numValues, h1.2.2.2]
  split
  · rfl
  · have : numVals t - as.length = 0 := by omega
    simp [this]

open Spec in
theorem sameStruct_of {f : List Char} {bo : ByteOrder} {t u : List Tok} {g : List Char}
    (hf : parse bo.isNative f = some t) (hg : parse bo.isNative g = some u) (h : ToksAgree t u) :
    SameStruct ⟨bo.value ++ f, none⟩ ⟨bo.value ++ g, none⟩ := by
  obtain ⟨_, a1, _, a2⟩ := StructSer.of_parse (a := none) hf
  obtain ⟨_, b1, _, b2⟩ := StructSer.of_parse (a := none) hg
  have hsz : ∀ nat, sizeToks nat t = sizeToks nat u := fun nat => h.off nat 0
  refine ⟨?_, ?_, ?_, ?_, ?_, ?_, ?_⟩
  · simp only [StructSer.size, a1, a2, b1, b2, hsz]
  · simp only [StructSer.numValues, a2, b2, h.vals]
  · intro P vs
    simp only [StructSer.pack, structPack, a1, a2, b1, b2, h.vals, h.pack]
  · intro P buf off vs
    simp only [StructSer.packInto, structPackInto, a1, a2, b1, b2, h.vals, h.pack, hsz, h.pre]
  · intro P buf
    simp only [StructSer.unpack, structUnpack, StructSer.size, StructSer.applyActions, a1, a2, b1, b2,
      hsz, h.unpack]
  · intro P buf off
    simp only [StructSer.unpackFrom, structUnpackFrom, StructSer.applyActions, a1, a2, b1, b2,
      hsz, h.unpack]
  · intro P d
    simp only [StructSer.unpackRead, structUnpack, StructSer.applyActions, a1, a2, b1, b2,
      hsz, h.unpack]

end Verif
