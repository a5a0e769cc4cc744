import Verif.Spec.Align
import Verif.Proofs.FormatClass
/-
Lemmas for the places of basic fields.
-/
namespace Verif
open Spec

variable {ctx : HintCtx}

/-- The item of the `struct` module. -/
def Spec.Basic.tok : Basic → Tok
  | .int s w => ⟨1, .int s w.wd⟩
  | .bool => ⟨1, .bool⟩
  | .half => ⟨1, .half⟩
  | .single => ⟨1, .single⟩
  | .double => ⟨1, .double⟩
  | .chars n => ⟨n, .str⟩
  | .pascal n => ⟨n, .pas⟩
  | .pad n => ⟨n, .pad⟩

theorem isNative_aligned (bo : ByteOrder) : bo.isNative = aligned bo := by cases bo <;> rfl

theorem tok_bytes (t : Basic) (nat : Bool) : t.tok.bytes nat = t.width := by
  cases t with
  | int s w => cases w <;> rfl
  | _ => simp [Basic.tok, Basic.width, Tok.bytes, Code.bytes]

theorem tok_align (t : Basic) : t.tok.c.align true = t.unit := by
  cases t with
  | int s w => cases w <;> rfl
  | _ => rfl

theorem start_eq (bo : ByteOrder) (t : Basic) (o : Nat) : o + padLen (t.tok.c.align bo.isNative) o = t.start bo o := by
  rw [isNative_aligned]
  unfold Basic.start
  cases aligned bo
  · simp [align_std, padLen_one]
  · rw [tok_align, if_pos rfl]
    unfold padLen
    have : t.unit = 1 ∨ t.unit = 2 ∨ t.unit = 4 ∨ t.unit = 8 := by
      cases t with
      | int s w => cases w <;> simp [Basic.unit, Size.bytes]
      | _ => simp [Basic.unit]
    rcases this with h | h | h | h <;> rw [h] <;> omega

theorem extent_eq (bo : ByteOrder) : ∀ (ts : List Basic) (o : Nat), endOff bo.isNative (ts.map Basic.tok) o = extent bo o ts
  | [], _ => rfl
  | t :: ts, o => by
    simp only [List.map_cons, endOff, extent]
    rw [start_eq, tok_bytes, extent_eq bo ts]

theorem parse_format (t : Basic) (nat : Bool) : parse nat t.format = some [t.tok] := by
  have key : ∀ (n : Nat) (ch : Char) (c : Code), Code.ofChar ch = some c → c.nativeOnly = false →
      parse nat (Nat.toDigits 10 n ++ [ch]) = some [⟨n, c⟩] := by
    intro n ch c hc hn
    rw [parse_item nat _ (toDigits_isDigit n) ch c hc [], if_neg (by simp [hn]), countVal_toDigits]
    rfl
  cases t with
  | int s w => cases nat <;> cases s <;> cases w <;> rfl
  | bool => cases nat <;> rfl
  | half => cases nat <;> rfl
  | single => cases nat <;> rfl
  | double => cases nat <;> rfl
  | chars n => exact key n 's' .str rfl rfl
  | pascal n => exact key n 'p' .pas rfl rfl
  | pad n => exact key n 'x' .pad rfl rfl

theorem alone_facts (bo : ByteOrder) (t : Basic) : (t.alone bo).byteOrder = bo ∧ (t.alone bo).toks = [t.tok] ∧ (t.alone bo).actions = none :=
  have h := StructSer.of_parse (a := none) (parse_format t bo.isNative)
  ⟨h.2.1, h.2.2.2, rfl⟩

theorem pad_zero (c : Code) (nat : Bool) : padLen (c.align nat) 0 = 0 := by
  simp [padLen]

theorem alone_pack (P : Platform) (bo : ByteOrder) {t : Basic} (ht : t.isPad = false) (v : Val) (rest : List Val) :
    packTok P bo t.tok (v :: rest) = ((t.alone bo).pack P [v]).map fun b => (b, rest) := by
  obtain ⟨h1, h2, _⟩ := alone_facts bo t
  unfold StructSer.pack structPack
  rw [h1, h2]
  have hv : t.tok.numVals = 1 := by cases t <;> first | rfl | cases ht
  rw [if_pos (by simp [numVals, hv])]
  have := packTok_take P bo t.tok [v] rest (by simp [hv])
  simp only [List.singleton_append] at this
  rw [this]
  simp only [packToks, pad_zero]
  cases hp : packTok P bo t.tok [v] with
  | error e => rfl
  | ok r =>
    obtain ⟨b, r⟩ := r
    have := (packTok_spec hp).2.1
    rw [hv] at this
    simp only [List.drop_succ_cons, List.drop_nil] at this
    subst this
    simp [bind, Except.bind, Except.map]

theorem alone_length {P : Platform} {bo : ByteOrder} {t : Basic} {v : Val} {b : Bytes} (ht : t.isPad = false)
    (h : (t.alone bo).pack P [v] = .ok b) : b.length = t.width := by
  have := alone_pack P bo ht v []
  rw [h] at this
  have := (packTok_spec this).1
  rw [this, tok_bytes]

/-- Packing the items is packing each alone and putting it at its place. -/
theorem pieces_pack (P : Platform) (bo : ByteOrder) : ∀ (ts : List Basic) (o : Nat) (vs : List Val),
    packToks P bo (ts.map Basic.tok) o vs = (pieces P bo ts vs).map fun bs => layOut bo o ts bs
  | [], o, vs => rfl
  | t :: ts, o, vs => by
    simp only [List.map_cons, packToks]
    by_cases ht : t.isPad = true
    · cases t <;> first | cases ht | skip
      rename_i n
      have hs := start_eq bo (.pad n) o
      simp only [pieces, Basic.tok, packTok, bind, Except.bind] at hs ⊢
      rw [hs, List.length_replicate, pieces_pack P bo ts]
      cases pieces P bo ts vs with
      | error e => rfl
      | ok bs =>
        simp only [Except.map, layOut, Basic.width, Except.ok.injEq]
        rw [← hs]
        simp
    · have ht : t.isPad = false := by simpa using ht
      cases vs with
      | nil =>
        cases t <;> first | rfl | cases ht
      | cons v vs =>
        have hpc : pieces P bo (t :: ts) (v :: vs) = ((t.alone bo).pack P [v] >>= fun b => pieces P bo ts vs >>= fun bs => .ok (b :: bs)) := by
          cases t <;> first | rfl | cases ht
        rw [hpc, alone_pack P bo ht]
        have hs := start_eq bo t o
        cases hp : (t.alone bo).pack P [v] with
        | error e => rfl
        | ok b =>
          simp only [Except.map, bind, Except.bind]
          rw [hs, alone_length ht hp, pieces_pack P bo ts]
          cases pieces P bo ts vs with
          | error e => rfl
          | ok bs =>
            simp only [Except.map, layOut, Except.ok.injEq]
            rw [← hs]
            simp

/-- Reading the items is reading each alone at its place. -/
theorem readBack_unpack (P : Platform) (bo : ByteOrder) (b : Bytes) : ∀ (ts : List Basic) (o : Nat), extent bo o ts ≤ b.length →
    readBack P bo b o ts = .ok (unpackToks P bo (ts.map Basic.tok) o (b.drop o))
  | [], _, _ => rfl
  | t :: ts, o, h => by
    have h' : extent bo (t.start bo o + t.width) ts ≤ b.length := h
    have hle : t.start bo o + t.width ≤ b.length := by
      refine Nat.le_trans ?_ h'
      rw [← extent_eq]
      exact le_endOff _ _ _
    simp only [readBack, List.map_cons, unpackToks]
    rw [readBack_unpack P bo b ts _ h', tok_bytes, List.drop_drop, start_eq, List.drop_drop]
    have hs := start_eq bo t o
    rw [show o + (padLen (t.tok.c.align bo.isNative) o + t.width) = t.start bo o + t.width by omega]
    obtain ⟨h1, h2, h3⟩ := alone_facts bo t
    have hl : ((b.drop (t.start bo o)).take t.width).length = t.width := by simp; omega
    have hsz : sizeToks bo.isNative [t.tok] = t.width := by
      simp [sizeToks, endOff, pad_zero, tok_bytes]
    have : (t.alone bo).unpack P ((b.drop (t.start bo o)).take t.width) =
        .ok (unpackTok P bo t.tok ((b.drop (t.start bo o)).take t.width)) := by
      unfold StructSer.unpack StructSer.applyActions StructSer.size structUnpack
      rw [h1, h2, h3, hsz, List.take_take, Nat.min_self, if_pos hl]
      simp [bind, Except.bind, unpackToks, pad_zero, tok_bytes, List.take_take]
    rw [this]
    rfl

/-- What is writtenItem for a basic type is turned into its serializer. -/
theorem basic_is {t : Basic} {n : Nat} {id : SerId} {h r : Hint} (hw : 0 < t.width) (e : t.hint ctx = .ok h)
    (ht : transform ctx n id h = .ok r) : ∃ st, r = .ser (.struct st) ∧ BasicSer .default t.tok st ∧ (Ser.struct st).isPad = t.isPad := by
  have np : ∀ {st : StructSer}, BasicSer .default t.tok st → t.tok.numVals = 1 → (Ser.struct st).isPad = false := by
    intro st hb hv
    simp [Ser.isPad, hb.numValues hv]
  cases t with
  | int s w => cases e; exact ⟨_, ser_transform rfl ht, basic_int s w, np (basic_int s w) rfl⟩
  | bool => cases e; exact ⟨_, ser_transform rfl ht, basic_bool, np basic_bool rfl⟩
  | half =>
    cases e
    have : BasicSer .default (Basic.tok .half) ⟨['e'], none⟩ :=
      ⟨⟨by decide, by simp⟩, by rfl, ⟨[], _, by rfl, by simp, by decide⟩, by rfl, rfl, by rfl⟩
    exact ⟨_, ser_transform rfl ht, this, np this rfl⟩
  | single =>
    cases e
    have : BasicSer .default (Basic.tok .single) ⟨['f'], none⟩ :=
      ⟨⟨by decide, by simp⟩, by rfl, ⟨[], _, by rfl, by simp, by decide⟩, by rfl, rfl, by rfl⟩
    exact ⟨_, ser_transform rfl ht, this, np this rfl⟩
  | double => cases e; exact ⟨_, ser_transform rfl ht, basic_double, np basic_double rfl⟩
  | chars k =>
    obtain ⟨st, h1, h2⟩ := basic_chars k hw
    have e' : mkChar ctx (.int k) = .ok h := e
    unfold mkChar at e'
    simp only [sizeType?, h1, bind, Except.bind, optSer] at e'
    cases e'
    exact ⟨_, ser_transform rfl ht, h2, np h2 rfl⟩
  | pascal k =>
    obtain ⟨st, h1, h2⟩ := basic_pascal k hw
    simp only [Basic.hint, mkPascal, h1, bind, Except.bind, optSer] at e
    cases e
    exact ⟨_, ser_transform rfl ht, h2, np h2 rfl⟩
  | pad k =>
    obtain ⟨s, rfl, ⟨st, rfl, h2⟩, h3⟩ := field_is (ctx := ctx) (N := 0) (f := .pad "" k) (bo := .default) (by simpa [Field.good, Basic.width] using hw) nofun e ht
    exact ⟨st, rfl, h2, h3 rfl⟩


/-! ### Format strings -/

theorem ofChar_value {c : Char} {b : ByteOrder} (h : ByteOrder.ofChar c = some b) : b.value = [c] := by
  unfold ByteOrder.ofChar at h
  repeat' split at h
  all_goals first
    | (cases h; rename_i e; subst e; rfl)
    | cases h

theorem format_split (s : StructSer) : s.format = s.byteOrder.value ++ s.baseFormat := by
  obtain ⟨f, a⟩ := s
  cases f with
  | nil => rfl
  | cons c f =>
    simp only [StructSer.byteOrder, StructSer.baseFormat, splitByteOrder]
    cases hc : ByteOrder.ofChar c with
    | none => rfl
    | some b => simp [ofChar_value hc]

theorem baseFormat_default {s : StructSer} (h : s.byteOrder = .default) : s.baseFormat = s.format := by
  rw [format_split s, h]; rfl

theorem reEnd_group {p ds : List Char} {ch : Char} (hs : isStructChar ch = true) (hd : ∀ d ∈ ds, d.isDigit = true)
    (hp : ∀ l, p.getLast? = some l → l.isDigit = false) : reEnd (p ++ (ds ++ [ch])) = some (p, ds, ch) := by
  unfold reEnd
  have hr : (p ++ (ds ++ [ch])).reverse = ch :: (ds.reverse ++ p.reverse) := by simp
  have hd' : ∀ d ∈ ds.reverse, d.isDigit = true := fun d h => hd d (by simpa using h)
  have hp' : p.reverse.dropWhile Char.isDigit = p.reverse ∧ p.reverse.takeWhile Char.isDigit = [] := by
    cases hpr : p.reverse with
    | nil => exact ⟨rfl, rfl⟩
    | cons l q =>
      have : l.isDigit = false := hp l (by rw [← List.reverse_reverse p, hpr]; simp)
      simp [this]
  simp only [hr, hs, ↓reduceIte]
  rw [List.dropWhile_append_of_pos hd', List.takeWhile_append_of_pos hd', hp'.1, hp'.2]
  simp

/-- The digits of an item. -/
def digitsOf (n : Nat) : List Char := if n = 1 then [] else Nat.toDigits 10 n

theorem digitsOf_digits (n : Nat) : ∀ d ∈ digitsOf n, d.isDigit = true := by
  unfold digitsOf
  split
  · simp
  · exact toDigits_isDigit _

theorem countVal_digitsOf (n : Nat) : countVal (digitsOf n) = n := by
  unfold digitsOf
  split
  · rename_i h; rw [h]; rfl
  · exact countVal_toDigits n

theorem written_eq (g : Nat × Char) : writtenItem g = digitsOf g.1 ++ [g.2] := rfl

theorem toDigits_big {n : Nat} (h : n ≠ 1) : Nat.toDigits 10 n = digitsOf n := by simp [digitsOf, h]

theorem groups_last {gs : List (Nat × Char)} (hg : ∀ g ∈ gs, isStructChar g.2 = true) :
    ∀ l, (gs.reverse.flatMap writtenItem).getLast? = some l → l.isDigit = false := by
  intro l hl
  cases gs with
  | nil => cases hl
  | cons g gs =>
    simp only [List.reverse_cons, List.flatMap_append, List.flatMap_cons, List.flatMap_nil, List.append_nil, written_eq, ← List.append_assoc,
      List.getLast?_append, List.getLast?_singleton, Option.some_or, Option.some.injEq] at hl
    subst hl
    exact (ofChar_not_digit (hg g (by simp))).1

theorem fold_join {gs : List (Nat × Char)} {g : Nat × Char} (hgs : ∀ g ∈ gs, isStructChar g.2 = true ∧ 0 < g.1) (hg : isStructChar g.2 = true) (hp : 0 < g.1) :
    foldOverlaps false (gs.reverse.flatMap writtenItem) (writtenItem g) = (joinItem gs g).reverse.flatMap writtenItem := by
  obtain ⟨b, d⟩ := g
  have hst : reStart (writtenItem (b, d)) = some (digitsOf b, d, []) := by
    rw [written_eq]
    exact reStart_append (digitsOf_digits b) hg []
  cases gs with
  | nil =>
    unfold foldOverlaps
    rw [hst]
    simp [reEnd, joinItem]
  | cons h gs =>
    obtain ⟨a, c⟩ := h
    have hac := hgs (a, c) (by simp)
    have hen : reEnd (((a, c) :: gs).reverse.flatMap writtenItem) = some (gs.reverse.flatMap writtenItem, digitsOf a, c) := by
      simp only [List.reverse_cons, List.flatMap_append, List.flatMap_cons, List.flatMap_nil, List.append_nil, written_eq]
      exact reEnd_group hac.1 (digitsOf_digits a) (groups_last fun g hm => (hgs g (by simp [hm])).1)
    unfold foldOverlaps
    rw [hst, hen]
    simp only [countVal_digitsOf, joinItem]
    by_cases hm : c = d ∧ c ≠ 's' ∧ c ≠ 'p'
    · have h1 : c = d ∧ (false = true ∨ ¬ (c = 's' ∨ c = 'p')) := ⟨hm.1, .inr (by simp [hm.2.1, hm.2.2])⟩
      have hb : a + b ≠ 1 := by
        have := hac.2
        simp only at this hp
        omega
      rw [if_pos h1, if_pos hm, toDigits_big hb]
      simp [written_eq]
    · have h1 : ¬ (c = d ∧ (false = true ∨ ¬ (c = 's' ∨ c = 'p'))) := by
        rintro ⟨e, h | h⟩
        · cases h
        · exact hm ⟨e, fun x => h (.inl x), fun x => h (.inr x)⟩
      rw [if_neg h1, if_neg hm]
      simp [written_eq]

theorem fold_repeat_written {ch : Char} (hs : isStructChar ch = true) : ∀ m, (List.replicate m [ch]).foldl (foldOverlaps true) [ch] = writtenItem (m + 1, ch)
  | 0 => rfl
  | m + 1 => by
    rw [List.replicate_succ', List.foldl_append, fold_repeat_written hs m]
    simp only [List.foldl_cons, List.foldl_nil]
    unfold foldOverlaps
    have h1 : reStart [ch] = some ([], ch, []) := reStart_append (ds := []) (by simp) hs []
    have h2 : reEnd (writtenItem (m + 1, ch)) = some ([], digitsOf (m + 1), ch) := by
      have := reEnd_group (p := []) hs (digitsOf_digits (m + 1)) (by simp)
      simpa [written_eq] using this
    rw [h1, h2]
    simp only [countVal_digitsOf, List.nil_append, List.append_nil, true_or, and_self, ↓reduceIte]
    rw [show m + 1 + countVal [] = m + 1 + 1 from rfl, toDigits_big (by omega), written_eq]

theorem matmul_written {ch : Char} (hs : isStructChar ch = true) (h0 : ByteOrder.ofChar ch = none) {n : Nat} (hn : 0 < n) {st : StructSer}
    (h : StructSer.matmul ⟨[ch], none⟩ n = .ok (some st)) : st = ⟨writtenItem (n, ch), none⟩ := by
  have e1 : (StructSer.mk [ch] none).baseFormat = [ch] := by simp [StructSer.baseFormat, splitByteOrder, h0]
  have e2 : (StructSer.mk [ch] none).byteOrder = .default := by simp [StructSer.byteOrder, splitByteOrder, h0]
  by_cases h1 : n = 1
  · subst h1
    cases h
    rfl
  · have hpos : ¬ (n : Int) = 0 ∧ ¬ (n : Int) < 0 ∧ ¬ (n : Int) = 1 := by omega
    have hto : (n : Int).toNat = n := by omega
    simp only [StructSer.matmul, StructSer.mulImpl, hpos, ↓reduceIte, hto, e1, e2, StructSer.remake, bind, Except.bind,
      fold_repeat_written hs, StructSer.mkPlain, Nat.sub_add_cancel hn] at h
    split at h
    · cases h
    · rename_i hm
      split at hm
      · cases hm
        cases h
        rfl
      · cases hm

theorem basic_written {t : Basic} {n : Nat} {id : SerId} {h : Hint} {st : StructSer} (hw : 0 < t.width) (e : t.hint ctx = .ok h)
    (ht : transform ctx n id h = .ok (.ser (.struct st))) : st.format = writtenItem t.item := by
  have key : ∀ {s : StructSer}, (Hint.ser (.struct st)) = .ser (.struct s) → s.format = writtenItem t.item → st.format = writtenItem t.item := by
    intro s h1 h2
    cases h1
    exact h2
  cases t with
  | int s w => cases e; exact key (ser_transform rfl ht) rfl
  | bool => cases e; exact key (ser_transform rfl ht) rfl
  | half => cases e; exact key (ser_transform rfl ht) rfl
  | single => cases e; exact key (ser_transform rfl ht) rfl
  | double => cases e; exact key (ser_transform rfl ht) rfl
  | chars k =>
    obtain ⟨s, h1, h2⟩ := basic_chars k hw
    have e' : mkChar ctx (.int k) = .ok h := e
    unfold mkChar at e'
    simp only [sizeType?, h1, bind, Except.bind, optSer] at e'
    cases e'
    exact key (ser_transform rfl ht) (by rw [matmul_written (ch := 's') (by rfl) (by rfl) hw h1]; rfl)
  | pascal k =>
    obtain ⟨s, h1, h2⟩ := basic_pascal k hw
    simp only [Basic.hint, mkPascal, h1, bind, Except.bind, optSer] at e
    cases e
    exact key (ser_transform rfl ht) (by rw [matmul_written (ch := 'p') (by rfl) (by rfl) hw h1]; rfl)
  | pad k =>
    obtain ⟨s, h1, h2⟩ := padChar_matmul k hw
    simp only [Basic.hint, mkPad, h1, bind, Except.bind, optSer] at e
    cases e
    exact key (ser_transform rfl ht) (by rw [matmul_written (ch := 'x') (by rfl) (by rfl) hw h1]; rfl)

/-- The serializers of the declarations. -/
theorem filterHints_basic {n : Nat} {id : SerId} {H : Name → Hint} : ∀ (as : List Name) (fs : List (Name × Basic)) (j : Nat) (fields : Dict Ser),
    as.filter (fun a => !unserialized (H a)) = fs.map (·.1) → (∀ f ∈ fs, f.2.hint ctx = .ok (H f.1)) →
    (∀ f ∈ fs, 0 < f.2.width) → filterHints ctx n id j (as.map fun a => (a, H a)) = .ok fields →
    ∃ sts : List StructSer, fields.map (·.2) = sts.map Ser.struct ∧ fields.map (·.1) = fs.map (·.1) ∧
      (∀ st ∈ sts, ∃ t, BasicSer .default t st) ∧ sts.flatMap StructSer.toks = fs.map (·.2.tok) ∧
      sts.map StructSer.baseFormat = fs.map (fun f => writtenItem f.2.item) ∧ (fields.filter (!·.2.isPad)).map (·.1) = valueNames fs
  | [], fs, j, fields, h1, _, _, h => by
    cases h
    cases fs with
    | nil => exact ⟨[], rfl, rfl, by simp, rfl, rfl, rfl⟩
    | cons => cases h1
  | a :: as, fs, j, fields, h1, h2, hg, h => by
    simp only [List.map_cons, filterHints] at h
    obtain ⟨t, e1, h⟩ := Except.bind_ok' h
    obtain ⟨ts, e2, h⟩ := Except.bind_ok' h
    by_cases hc : unserialized (H a) = true
    · have : t = none := unserialized_none hc e1
      subst this
      cases h
      rw [List.filter_cons_of_neg (by simp [hc])] at h1
      exact filterHints_basic as fs (j + 1) _ h1 h2 hg e2
    · rw [List.filter_cons_of_pos (by simp [hc])] at h1
      cases fs with
      | nil => cases h1
      | cons f fs =>
        simp only [List.map_cons, List.cons.injEq] at h1
        obtain ⟨rfl, h1⟩ := h1
        have e3 : ∃ r, transform ctx n ((j + 7) :: id) (H f.1) = .ok r ∧ t = r.ser? := by
          cases hh : H f.1 <;> rw [hh] at hc e1 <;> first
            | exact absurd rfl hc
            | (obtain ⟨r, k1, k2⟩ := Except.bind_ok' e1; cases k2; exact ⟨r, k1, rfl⟩)
        obtain ⟨r, e3, rfl⟩ := e3
        obtain ⟨st, rfl, hs, hp⟩ := basic_is (hg f (by simp)) (h2 f (by simp)) e3
        cases h
        obtain ⟨sts, i1, i2, i3, i4, i6, i5⟩ := filterHints_basic as fs (j + 1) ts h1 (fun f' hm => h2 f' (by simp [hm]))
          (fun f' hm => hg f' (by simp [hm])) e2
        refine ⟨st :: sts, by simp [i1], by simp [i2], ?_, by simp [i4, hs.toks], ?_, ?_⟩
        · intro s hm
          rcases List.mem_cons.1 hm with rfl | hm
          · exact ⟨_, hs⟩
          · exact i3 s hm
        · simp only [List.map_cons, i6, baseFormat_default hs.order, basic_written (hg f (by simp)) (h2 f (by simp)) e3]
        · unfold valueNames at i5 ⊢
          cases hf : f.2.isPad <;> simp [hp, hf, i5]

/-- A serializer of several items, in the default byte order. -/
structure RunSer (ts : List Tok) (z : StructSer) : Prop where
  valid : z.Valid
  order : z.byteOrder = .default
  toks : ToksAgree z.toks ts
  acts : z.actions = none
  std : parse false z.baseFormat = some z.toks

theorem BasicSer.run {t : Tok} {st : StructSer} (h : BasicSer .default t st) : RunSer [t] st :=
  ⟨h.valid, h.order, by rw [h.toks]; exact .refl _, h.acts, h.std⟩

theorem RunSer.add {ts : List Tok} {t : Tok} {x y : StructSer} (hx : RunSer ts x) (hy : BasicSer .default t y) :
    ∃ z, x.add y = .ok z ∧ RunSer (ts ++ [t]) z ∧ z.baseFormat = foldOverlaps false x.baseFormat y.baseFormat := by
  have hbo : x.byteOrder = y.byteOrder := hx.order.trans hy.order.symm
  obtain ⟨u, hu, hag⟩ := foldOverlaps_agree hx.std hy.std (.inl hy.single)
  have hu' : parse x.byteOrder.isNative (foldOverlaps false x.baseFormat y.baseFormat) = some u := by
    rw [hx.order]; exact parseAux_mode hu
  obtain ⟨e0, e1, e3, e2⟩ := StructSer.of_parse (a := none) hu'
  refine ⟨_, ?_, ⟨⟨e0, by simp⟩, e1.trans hx.order, ?_, rfl, ?_⟩, e3⟩
  · unfold StructSer.add
    simp only [hx.acts, hy.acts, if_pos hbo]
    exact StructSer.mkPlain_ok hu'
  · rw [e2]
    refine hag.trans ?_
    rw [hy.toks]
    exact hx.toks.append (.refl _)
  · rw [e3, e2]; exact hu

/-- Fields that are all basic are added up to one serializer. -/
theorem sum_run {cf : ClassId → Bool} {id : SerId} {sts : List StructSer} (hs : ∀ st ∈ sts, ∃ t, BasicSer .default t st) (hn : sts ≠ []) :
    ∃ z, sumSers cf id (sts.map Ser.struct) = .ok (.struct z) ∧ RunSer (sts.flatMap StructSer.toks) z ∧
      z.baseFormat = (sts.map StructSer.baseFormat).foldl (foldOverlaps false) [] := by
  have key : ∀ (rest : List StructSer) (x : StructSer) (ts : List Tok), (∀ st ∈ rest, ∃ t, BasicSer .default t st) → RunSer ts x →
      ∃ z, (rest.map Ser.struct).foldlM (fun (acc : Ser) s => acc.add cf id s) (.struct x) = .ok (.struct z) ∧
        RunSer (ts ++ rest.flatMap StructSer.toks) z ∧ z.baseFormat = (rest.map StructSer.baseFormat).foldl (foldOverlaps false) x.baseFormat := by
    intro rest
    induction rest with
    | nil => intro x ts _ hx; exact ⟨x, rfl, by simpa using hx, rfl⟩
    | cons y rest ih =>
      intro x ts hr hx
      obtain ⟨t, hy⟩ := hr y (by simp)
      obtain ⟨z, h1, h2, h5⟩ := hx.add hy
      obtain ⟨z', h3, h4, h6⟩ := ih z _ (fun st hm => hr st (by simp [hm])) h2
      refine ⟨z', ?_, by simpa [hy.toks] using h4, by rw [h6, h5]; rfl⟩
      rw [List.map_cons, List.foldlM_cons]
      have : (Ser.struct x).add cf id (.struct y) = .ok (.struct z) := by
        show (Ser.struct x).addSimple cf id (.struct y) = _
        simp only [Ser.addSimple, h1, bind, Except.bind]
      rw [this]
      exact h3
  cases sts with
  | nil => exact absurd rfl hn
  | cons x rest =>
    obtain ⟨t, hx⟩ := hs x (by simp)
    obtain ⟨z, h1, h2, h3⟩ := key rest x [t] (fun st hm => hs st (by simp [hm])) hx.run
    refine ⟨z, ?_, by simpa [hx.toks] using h2, ?_⟩
    rotate_left
    · rw [h3, List.map_cons, List.foldl_cons]
      congr 1
      unfold foldOverlaps
      split
      · rename_i h
        cases h
      · rfl
    unfold sumSers
    rw [List.map_cons, List.foldlM_cons]
    exact h1

/-- The serializer of the fields `ts` in byte order `bo`. -/
structure Lies (bo : ByteOrder) (ts : List Basic) (z : StructSer) : Prop where
  order : z.byteOrder = bo
  toks : ToksAgree z.toks (ts.map Basic.tok)
  acts : z.actions = none
  base : z.baseFormat = joinedFormat ts

theorem basic_char (t : Basic) : isStructChar t.item.2 = true := by
  cases t <;> first | rfl | (rename_i s w; cases s <;> cases w <;> rfl)

theorem basic_count {t : Basic} (h : 0 < t.width) : 0 < t.item.1 := by
  cases t <;> first | exact Nat.one_pos | exact h

theorem fold_joined {ts : List Basic} (h : ∀ t ∈ ts, 0 < t.width) :
    (ts.map fun t => writtenItem t.item).foldl (foldOverlaps false) [] = joinedFormat ts := by
  have key : ∀ (ts : List Basic) (gs : List (Nat × Char)), (∀ t ∈ ts, 0 < t.width) → (∀ g ∈ gs, isStructChar g.2 = true ∧ 0 < g.1) →
      (ts.map fun t => writtenItem t.item).foldl (foldOverlaps false) (gs.reverse.flatMap writtenItem) =
        ((ts.map Basic.item).foldl joinItem gs).reverse.flatMap writtenItem := by
    intro ts
    induction ts with
    | nil => intros; rfl
    | cons t ts ih =>
      intro gs h hg
      have ht := basic_count (h t (by simp))
      rw [List.map_cons, List.foldl_cons, fold_join hg (basic_char t) ht, ih _ (fun t hm => h t (by simp [hm])) ?_]
      · rfl
      · intro g hm
        cases gs with
        | nil =>
          simp only [joinItem, List.mem_singleton] at hm
          subst hm
          exact ⟨basic_char t, ht⟩
        | cons g0 gs =>
          obtain ⟨a, c⟩ := g0
          have h0 := hg (a, c) (by simp)
          simp only [joinItem] at hm
          split at hm
          · rcases List.mem_cons.1 hm with rfl | hm
            · exact ⟨h0.1, by simp; omega⟩
            · exact hg g (by simp [hm])
          · rcases List.mem_cons.1 hm with rfl | hm
            · exact ⟨basic_char t, ht⟩
            · exact hg g hm
  exact key ts [] h (by simp)

theorem basicClass_lies {bo : ByteOrder} {fs : List (Name × Basic)} {o : ClassObj} (h : BasicClass ctx bo fs o) :
    o.info.attrs = valueNames fs ∧ (valueNames fs).Nodup ∧ ∃ z, o.info.serializer = .struct z ∧ Lies bo (fs.map (·.2)) z ∧
      ∀ bo', ∃ z', z.withByteOrder bo' = .ok z' ∧ Lies bo' (fs.map (·.2)) z' := by
  obtain ⟨m, id, w, dec, hmk, hbo⟩ := h.made
  obtain ⟨fields, s0, h1, h2, h3, h4⟩ := (createClass_made hmk).fields
  rw [typeHints_eq] at h1
  obtain ⟨sts, i1, i2, i3, i4, i6, i5⟩ := filterHints_basic (H := fun a => evalHint (lastDecl o.decls a)) _ fs 0 fields h.names h.hints h.some h1
  have hself : ∀ f ∈ fields, f.1 ≠ "self" := by
    intro f hf
    have : f.1 ∈ fs.map (·.1) := by rw [← i2]; exact List.mem_map.2 ⟨f, hf, rfl⟩
    obtain ⟨g, hg, e⟩ := List.mem_map.1 this
    rw [← e]
    exact h.self g hg
  have hi : initVars fields = (fields.filter (!·.2.isPad)).map (·.1) := by
    unfold initVars
    congr 1
    refine List.filter_congr fun f hf => ?_
    simp [hself f hf]
  have hne : sts ≠ [] := by
    rintro rfl
    have : fields = [] := by simpa using i1
    rw [this] at i2
    exact h.any (by simpa using i2.symm)
  refine ⟨by rw [h4, hi, i5], ?_, ?_⟩
  · have hnd : (fs.map (·.1)).Nodup := by
      rw [← h.names]
      exact List.filter_sublist.nodup (nodup_firsts _)
    exact (List.Sublist.map _ List.filter_sublist).nodup hnd
  rw [i1] at h2
  obtain ⟨z0, k1, k2, k3⟩ := sum_run (cf := ctx.clsFinal) (id := id) i3 hne
  rw [h2] at k1
  cases k1
  rw [i4] at k2
  have k3 : z0.baseFormat = joinedFormat (fs.map (·.2)) := by
    rw [k3, i6, ← fold_joined (by simpa using fun t a hm => h.some (a, t) hm), List.map_map]
    rfl
  have wbo : ∀ (x : StructSer) (bo' : ByteOrder), x.Valid → parse false x.baseFormat = some x.toks → ToksAgree x.toks (fs.map (·.2.tok)) →
      x.actions = none → x.baseFormat = joinedFormat (fs.map (·.2)) → ∃ z', x.withByteOrder bo' = .ok z' ∧ Lies bo' (fs.map (·.2)) z' ∧ z'.Valid ∧ parse false z'.baseFormat = some z'.toks := by
    intro x bo' hv hp ht ha hb
    have : (parse bo'.isNative x.baseFormat).isSome := by
      cases bo'.isNative
      · rw [hp]; rfl
      · rw [show parse true x.baseFormat = some x.toks from parseAux_mode hp]; rfl
    obtain ⟨c, c1, c2, c3, c4, c5, c6⟩ := C36_struct_with_byte_order x bo' hv this
    exact ⟨c, c1, ⟨c3, by rw [c5, List.map_map]; exact ht, c6.trans ha, c4.trans hb⟩, c2, by rw [c4, c5]; exact hp⟩
  rw [hbo] at h3
  obtain ⟨z, w1, w2, w3, w4⟩ := wbo z0 bo k2.valid k2.std k2.toks k2.acts k3
  simp only [Ser.withByteOrder, w1, bind, Except.bind] at h3
  have h3 : o.info.serializer = .struct z := (Except.ok.inj h3).symm
  refine ⟨z, h3, w2, fun bo' => ?_⟩
  obtain ⟨z', v1, v2, _⟩ := wbo z bo' w3 w4 (by simpa [List.map_map, Function.comp_def] using w2.toks) w2.acts w2.base
  exact ⟨z', v1, v2⟩

end Verif
