import Verif.Proofs.StructLemmas
import Verif.Spec.Struct
/-
Helper lemmas about parsing format strings and about `fold_overlaps`.
-/
namespace Verif

/-- Parser state after reading some characters: items so far and pending digits. -/
def parseState (native : Bool) : List Char → Option Nat → Option (List Tok × Option Nat)
  | [], acc => some ([], acc)
  | ch :: cs, acc =>
    if acc = none ∧ ch.isWhitespace then parseState native cs none
    else if ch.isDigit then parseState native cs (some (acc.getD 0 * 10 + (ch.toNat - '0'.toNat)))
    else match Code.ofChar ch with
      | none => none
      | some c =>
        if c.nativeOnly ∧ native = false then none
        else (parseState native cs none).map fun (ts, a) => (⟨acc.getD 1, c⟩ :: ts, a)

theorem parseAux_append (nat : Bool) (a b : List Char) (acc : Option Nat) :
    parseAux nat (a ++ b) acc = (parseState nat a acc).bind fun (ts, acc') =>
      (parseAux nat b acc').map (ts ++ ·) := by
  induction a generalizing acc with
  | nil => simp [parseState]
  | cons ch cs ih =>
    simp only [List.cons_append, parseAux, parseState]
    split
    · rw [ih]
    · split
      · rw [ih]
      · cases Code.ofChar ch with
        | none => rfl
        | some c =>
          dsimp only
          split
          · rfl
          · rw [ih]
            cases parseState nat cs none with
            | none => rfl
            | some r => simp [Option.map_map, Function.comp_def]

theorem parseAux_eq_state (nat : Bool) (a : List Char) (acc : Option Nat) :
    parseAux nat a acc = (parseState nat a acc).bind fun (ts, acc') =>
      match acc' with | none => some ts | some _ => none := by
  have := parseAux_append nat a [] acc
  simp only [List.append_nil] at this
  rw [this]
  congr 1; funext r
  obtain ⟨ts, acc'⟩ := r
  cases acc' <;> simp [parseAux]

theorem parse_append {nat : Bool} {a : List Char} {ts : List Tok} (h : parse nat a = some ts)
    (b : List Char) : parse nat (a ++ b) = (parse nat b).map (ts ++ ·) := by
  unfold parse at *
  rw [parseAux_eq_state] at h
  rw [parseAux_append]
  cases hs : parseState nat a none with
  | none => simp [hs] at h
  | some r =>
    obtain ⟨ts', acc'⟩ := r
    cases acc' with
    | none => simp [hs] at h; subst h; rfl
    | some _ => simp [hs] at h

/-- If the text does not end in a digit, no digits are pending after it. -/
theorem parseState_closed {nat : Bool} {a : List Char} {acc : Option Nat} {ts : List Tok}
    {acc' : Option Nat} (h : parseState nat a acc = some (ts, acc')) :
    (a = [] ∧ acc' = acc) ∨ (∀ l, a.getLast? = some l → l.isDigit = false → acc' = none) := by
  induction a generalizing acc ts acc' with
  | nil => simp [parseState] at h; exact .inl ⟨rfl, h.2.symm⟩
  | cons ch cs ih =>
    right
    intro l hl hd
    simp only [parseState] at h
    split at h
    · rcases ih h with ⟨_, h'⟩ | h'
      · exact h'
      · cases cs with
        | nil => simp [parseState] at h; exact h.2.symm
        | cons c cs => exact h' l (by simpa using hl) hd
    · split at h
      · rename_i hdig
        cases cs with
        | nil => simp at hl; subst hl; simp [hd] at hdig
        | cons c cs =>
          rcases ih h with ⟨h0, _⟩ | h'
          · cases h0
          · exact h' l (by simpa using hl) hd
      · split at h
        · cases h
        · split at h
          · cases h
          · cases hs : parseState nat cs none with
            | none => simp [hs] at h
            | some r =>
              obtain ⟨ts', a'⟩ := r
              simp [hs] at h
              obtain ⟨_, rfl⟩ := h
              rcases ih hs with ⟨_, h'⟩ | h'
              · exact h'
              · cases cs with
                | nil => simp [parseState] at hs; exact hs.2.symm
                | cons c cs => exact h' l (by simpa using hl) hd

/-- The characters that are format codes. -/
theorem mem_structChars {c : Char} {k} (h : (Code.ofChar c) = some k) :
  c ∈ ['x','c','b','B','?','h','H','i','I','l','L','q','Q','n','N','e','f','d','s','p','P'] := by
  apply Decidable.byContradiction
  intro hn
  simp only [List.mem_cons, List.not_mem_nil, or_false, not_or] at hn
  obtain ⟨h1,h2,h3,h4,h5,h6,h7,h8,h9,h10,h11,h12,h13,h14,h15,h16,h17,h18,h19,h20,h21⟩ := hn
  unfold Code.ofChar at h
  rw [if_neg h1, if_neg h2, if_neg h3, if_neg h4, if_neg h5, if_neg h6, if_neg h7, if_neg h8, if_neg h9, if_neg h10, if_neg h11, if_neg h12, if_neg h13, if_neg h14, if_neg h15, if_neg h16, if_neg h17, if_neg h18, if_neg h19, if_neg h20, if_neg h21] at h
  cases h

theorem ofChar_not_digit {c : Char} (h : (Code.ofChar c).isSome) : c.isDigit = false ∧ c.isWhitespace = false := by
  obtain ⟨k, h⟩ := Option.isSome_iff_exists.1 h
  have := mem_structChars h
  simp only [List.mem_cons, List.not_mem_nil, or_false] at this
  rcases this with h|h|h|h|h|h|h|h|h|h|h|h|h|h|h|h|h|h|h|h|h <;> subst h <;> decide

theorem digit_not_white {c : Char} (h : c.isDigit = true) : c.isWhitespace = false := by
  simp only [Char.isWhitespace, Char.isDigit] at *
  simp only [Bool.and_eq_true, decide_eq_true_eq] at h
  have h1 : c ≠ ' ' := by rintro rfl; revert h; decide
  have h2 : c ≠ '\t' := by rintro rfl; revert h; decide
  have h3 : c ≠ '\r' := by rintro rfl; revert h; decide
  have h4 : c ≠ '\n' := by rintro rfl; revert h; decide
  simp [h1, h2, h3, h4]

theorem parseAux_digits (nat : Bool) (ds : List Char) (hd : ∀ d ∈ ds, d.isDigit = true) (b : List Char)
    (m : Nat) : parseAux nat (ds ++ b) (some m)
      = parseAux nat b (some (ds.foldl (fun a d => a * 10 + (d.toNat - '0'.toNat)) m)) := by
  induction ds generalizing m with
  | nil => rfl
  | cons d ds ih =>
    simp only [List.cons_append, parseAux, reduceCtorEq, false_and, ↓reduceIte,
      hd d (by simp), Option.getD_some, List.foldl_cons]
    exact ih (fun x hx => hd x (by simp [hx])) _

theorem parse_digits (nat : Bool) (ds : List Char) (hd : ∀ d ∈ ds, d.isDigit = true) (b : List Char) :
    parseAux nat (ds ++ b) none = parseAux nat b (if ds = [] then none else some (digitsVal ds)) := by
  cases ds with
  | nil => rfl
  | cons d ds =>
    have h1 := hd d (by simp)
    have h2 := digit_not_white h1
    simp only [List.cons_append, parseAux, true_and, h2, Bool.false_eq_true, ↓reduceIte, h1,
      reduceCtorEq, Option.getD_none]
    rw [parseAux_digits nat ds (fun x hx => hd x (by simp [hx]))]
    simp [digitsVal]

/-- Parsing one `<digits><code>` item followed by anything. -/
theorem parse_item (nat : Bool) (ds : List Char) (hd : ∀ d ∈ ds, d.isDigit = true) (ch : Char) (c : Code)
    (hc : Code.ofChar ch = some c) (b : List Char) :
    parse nat (ds ++ ch :: b) = if c.nativeOnly ∧ nat = false then none
      else (parse nat b).map (⟨countVal ds, c⟩ :: ·) := by
  have hch := ofChar_not_digit (c := ch) (by simp [hc])
  unfold parse
  rw [parse_digits nat ds hd]
  simp only [parseAux, hch.1, hch.2, Bool.false_eq_true, and_false, ↓reduceIte, hc]
  congr 3
  unfold countVal
  split <;> simp_all

theorem digitsVal_eq (ds : List Char) : digitsVal ds = Nat.ofDigitChars 10 ds 0 := by
  rw [Nat.ofDigitChars_eq_foldl, digitsVal]
  congr 1; funext a d; rw [Nat.mul_comm]

theorem countVal_toDigits (k : Nat) : countVal (Nat.toDigits 10 k) = k := by
  rw [countVal, if_neg Nat.toDigits_ne_nil, digitsVal_eq, Nat.ofDigitChars_ten_toDigits]

theorem toDigits_isDigit (k : Nat) : ∀ d ∈ Nat.toDigits 10 k, d.isDigit = true :=
  fun _ h => Nat.isDigit_of_mem_toDigits (by decide) (by decide) h

theorem takeWhile_all {p : Char → Bool} (l : List Char) : ∀ x ∈ l.takeWhile p, p x = true := by
  intro x hx
  induction l with
  | nil => simp at hx
  | cons a l ih =>
    rw [List.takeWhile_cons] at hx
    split at hx
    · rcases List.mem_cons.1 hx with rfl | h
      · assumption
      · exact ih h
    · simp at hx

theorem head_dropWhile_not {p : Char → Bool} {l : List Char} {x : Char}
    (h : (l.dropWhile p).head? = some x) : p x = false := by
  induction l with
  | nil => simp at h
  | cons a l ih =>
    rw [List.dropWhile_cons] at h
    split at h
    · exact ih h
    · simp at h; subst h; simp_all

/-- What `_re_end` finds. -/
theorem reEnd_spec {cs pre ds : List Char} {c : Char} (h : reEnd cs = some (pre, ds, c)) :
    cs = pre ++ ds ++ [c] ∧ (∀ d ∈ ds, d.isDigit = true) ∧ isStructChar c = true ∧
      (∀ l, pre.getLast? = some l → l.isDigit = false) := by
  unfold reEnd at h
  split at h
  · cases h
  · rename_i c' rest hr
    split at h
    · rename_i hs
      simp only [Option.some.injEq, Prod.mk.injEq] at h
      obtain ⟨rfl, rfl, rfl⟩ := h
      have hcs : cs = rest.reverse ++ [c'] := by
        have := congrArg List.reverse hr
        simpa using this
      refine ⟨?_, ?_, hs, ?_⟩
      · rw [hcs, ← List.reverse_append, List.takeWhile_append_dropWhile]
      · intro d hd
        exact takeWhile_all rest d (by simpa using hd)
      · intro l hl
        rw [List.getLast?_reverse] at hl
        exact head_dropWhile_not hl
    · cases h

theorem reStart_spec {cs ds ep : List Char} {c : Char} (h : reStart cs = some (ds, c, ep)) :
    ∃ rest, cs = ds ++ c :: rest ∧ (∀ d ∈ ds, d.isDigit = true) ∧ isStructChar c = true ∧ ep = [] := by
  unfold reStart at h
  split at h
  · cases h
  · rename_i c' rest hr
    split at h
    · rename_i hs
      simp only [Option.some.injEq, Prod.mk.injEq] at h
      obtain ⟨rfl, rfl, rfl⟩ := h
      refine ⟨rest, ?_, takeWhile_all _, hs, rfl⟩
      rw [← hr, List.takeWhile_append_dropWhile]
    · cases h

/-- The text that `_re_end` splits off parses as the prelude followed by one item. -/
theorem parse_reEnd {nat : Bool} {pre ds : List Char} {ch : Char} {ts : List Tok}
    (hp : parse nat (pre ++ ds ++ [ch]) = some ts) (hd : ∀ d ∈ ds, d.isDigit = true)
    (hlast : ∀ l, pre.getLast? = some l → l.isDigit = false) (hs : isStructChar ch = true) :
    ∃ tp c, Code.ofChar ch = some c ∧ parse nat pre = some tp ∧ ts = tp ++ [⟨countVal ds, c⟩] ∧
      ¬ (c.nativeOnly ∧ nat = false) := by
  obtain ⟨c, hc⟩ := Option.isSome_iff_exists.1 hs
  unfold parse at hp
  rw [List.append_assoc, parseAux_append] at hp
  cases hst : parseState nat pre none with
  | none => simp [hst] at hp
  | some r =>
    obtain ⟨tp, acc'⟩ := r
    have hacc : acc' = none := by
      rcases parseState_closed hst with ⟨_, h⟩ | h
      · exact h
      · cases hg : pre.getLast? with
        | none =>
          have : pre = [] := by simpa using hg
          subst this; simp [parseState] at hst; exact hst.2.symm
        | some l => exact h l hg (hlast l hg)
    subst hacc
    rw [hst] at hp
    simp only [Option.bind_some] at hp
    have hi := parse_item nat ds hd ch c hc []
    unfold parse at hi
    rw [hi] at hp
    by_cases hno : c.nativeOnly ∧ nat = false
    · simp [hno] at hp
    · rw [if_neg hno] at hp
      simp [parseAux] at hp
      refine ⟨tp, c, hc, ?_, hp.symm, hno⟩
      unfold parse
      rw [parseAux_eq_state, hst]; rfl

theorem ofChar_inj {a b : Char} {c : Code} (ha : Code.ofChar a = some c) (hb : Code.ofChar b = some c) :
    a = b := by
  have h1 := mem_structChars ha
  have h2 := mem_structChars hb
  have key : ∀ x ∈ ['x','c','b','B','?','h','H','i','I','l','L','q','Q','n','N','e','f','d','s','p','P'],
    ∀ y ∈ ['x','c','b','B','?','h','H','i','I','l','L','q','Q','n','N','e','f','d','s','p','P'],
      Code.ofChar x = Code.ofChar y → x = y := by decide
  exact key a h1 b h2 (ha.trans hb.symm)

theorem ofChar_isString {ch : Char} {c : Code} (h : Code.ofChar ch = some c) :
    c.isString = true ↔ (ch = 's' ∨ ch = 'p') := by
  constructor
  · intro hs
    cases c <;> simp [Code.isString] at hs
    · left; exact ofChar_inj h (by decide)
    · right; exact ofChar_inj h (by decide)
  · rintro (rfl | rfl)
    · have : some Code.str = some c := by rw [← h]; decide
      cases this; rfl
    · have : some Code.pas = some c := by rw [← h]; decide
      cases this; rfl

theorem reStart_append {ds : List Char} {ch : Char} (hd : ∀ d ∈ ds, d.isDigit = true)
    (hs : isStructChar ch = true) (b : List Char) : reStart (ds ++ ch :: b) = some (ds, ch, []) := by
  have h1 : List.dropWhile Char.isDigit (ds ++ ch :: b) = ch :: b := by
    rw [List.dropWhile_append_of_pos hd, List.dropWhile_cons_of_neg]
    simp [(ofChar_not_digit (c := ch) hs).1]
  have h2 : List.takeWhile Char.isDigit (ds ++ ch :: b) = ds := by
    rw [List.takeWhile_append_of_pos hd, List.takeWhile_cons_of_neg]
    · simp
    · simp [(ofChar_not_digit (c := ch) hs).1]
  unfold reStart
  rw [h1, h2]
  simp [hs]

/-- The result of `fold_overlaps` when the right side is a single item, as items: either the plain
concatenation, or the last item of the left side and the right item (same code) merged. -/
theorem foldOverlaps_parse {cs nat : Bool} {f1 f2 : List Char} {t1 t2 : List Tok}
    (h1 : parse nat f1 = some t1) (h2 : parse nat f2 = some t2) (hs : SingleItem f2) :
    parse nat (foldOverlaps cs f1 f2) = some (t1 ++ t2) ∨
    ∃ tp a b c, t1 = tp ++ [⟨a, c⟩] ∧ t2 = [⟨b, c⟩] ∧ (cs = true ∨ c.isString = false) ∧
      parse nat (foldOverlaps cs f1 f2) = some (tp ++ [⟨a + b, c⟩]) := by
  have hcat : parse nat (f1 ++ f2) = some (t1 ++ t2) := by
    rw [parse_append h1, h2]; rfl
  obtain ⟨ds2, ch2, rfl, hd2, hs2⟩ := hs
  unfold foldOverlaps
  rw [reStart_append hd2 hs2]
  cases hr : reEnd f1 with
  | none => left; exact hcat
  | some r =>
    obtain ⟨pre, ds1, ch1⟩ := r
    dsimp only
    split
    · rename_i hov
      right
      obtain ⟨rfl, hov⟩ := hov
      obtain ⟨hf1, hd1, hs1, hlast⟩ := reEnd_spec hr
      subst hf1
      obtain ⟨tp, c, hc, hpp, rfl, hno⟩ := parse_reEnd h1 hd1 hlast hs1
      have hi2 := parse_item nat ds2 hd2 ch1 c hc []
      rw [h2, if_neg hno] at hi2
      simp [parse, parseAux] at hi2
      refine ⟨tp, countVal ds1, countVal ds2, c, rfl, hi2, ?_, ?_⟩
      · rcases hov with h | h
        · exact .inl h
        · right
          cases hstr : c.isString with
          | false => rfl
          | true => exact absurd ((ofChar_isString hc).1 hstr) h
      · rw [List.append_nil, List.append_assoc, parse_append hpp,
          parse_item nat _ (toDigits_isDigit _) ch1 c hc [], if_neg hno, countVal_toDigits]
        simp [parse, parseAux]
    · left; exact hcat

/-- Without an overlap `fold_overlaps` is concatenation, for any right side. -/
theorem foldOverlaps_no_overlap {cs : Bool} {f1 f2 : List Char}
    (h : ∀ pre ds1 c1 ds2 c2 ep, reEnd f1 = some (pre, ds1, c1) → reStart f2 = some (ds2, c2, ep) →
      c1 ≠ c2) : foldOverlaps cs f1 f2 = f1 ++ f2 := by
  unfold foldOverlaps
  split
  · rename_i h2 h1
    rw [if_neg]
    rintro ⟨he, _⟩
    exact h _ _ _ _ _ _ h1 h2 he
  · rfl

end Verif
