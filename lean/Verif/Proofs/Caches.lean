import Verif.Spec.Caches
import Verif.Props.Brackets
/-
Helper lemmas for the caches behind brackets.
-/
namespace Verif.Caches
open Spec

/-! ### Equal arguments -/

theorem floatEq_inf {f : UInt64} (h : floatEq f infBits = true) : f = infBits := by
  unfold floatEq at h
  simp only [Bool.and_eq_true, Bool.or_eq_true, beq_iff_eq] at h
  rcases h.2 with h | h
  · exact h
  · exact absurd h.2 (by decide)

theorem floatEq_comm (f g : UInt64) : floatEq f g = floatEq g f := by
  unfold floatEq
  simp only
  rw [Bool.and_comm (!decide (0x7FF0000000000000 < f.toNat % 2 ^ 63)), Bool.and_comm (f.toNat % 2 ^ 63 == 0), Bool.beq_comm (a := f)]

theorem eq_hint {a b : Arg} (ha : Exact a) (hb : Exact b) (h : a.eq b = true) : a.hint = b.hint := by
  obtain ⟨-, ha⟩ := ha
  obtain ⟨-, hb⟩ := hb
  cases a <;> cases b <;> simp only [Arg.eq, Bool.false_eq_true] at h
  case val.val v w =>
    cases v <;> cases w <;> simp only [Val.keyEq, Bool.false_eq_true] at h <;> first | rfl | skip
    case int.int => simp only [beq_iff_eq] at h; rw [h]
    case int.bool => simp only [beq_iff_eq] at h; simp only [Arg.hint, h]
    case int.float f => rw [hb f _ rfl] at h; cases h
    case bool.int => simp only [beq_iff_eq] at h; simp only [Arg.hint, h]
    case bool.bool => simp only [beq_iff_eq] at h; rw [h]
    case bool.float f => rw [hb f _ rfl] at h; cases h
    case float.int f _ => rw [ha f _ rfl] at h; cases h
    case float.bool f _ => rw [ha f _ rfl] at h; cases h
    case float.float f g =>
      simp only [Arg.hint]
      by_cases hg : g = infBits
      · subst hg; rw [floatEq_inf h]
      · by_cases hf : f = infBits
        · subst hf; rw [floatEq_comm] at h; exact absurd (floatEq_inf h) hg
        · rw [if_neg hf, if_neg hg]
    case bytes.bytes => simp only [beq_iff_eq] at h; rw [h]
  case size.size => simp only [beq_iff_eq] at h; rw [h]
  case net.net => rfl
  case tvar.tvar => simp only [beq_iff_eq] at h; rw [h]
  case other.other => rfl

/-- It is not an object that no type takes. -/
def Known (a : Arg) : Prop := ∀ n, a.hint ≠ .plain n

theorem hint_eq {a b : Arg} (ha : Known a) (h : a.hint = b.hint) : a.eq b = true := by
  cases a with
  | val v =>
    cases v <;> cases b with
    | val w => 
      cases w <;> simp only [Arg.hint] at h <;> (repeat' split at h) <;> first
        | (cases h; done)
        | exact absurd rfl (ha _)
        | rfl
        | (simp only [Arg.eq, Val.keyEq]; simp_all; done)
        | (rename_i h1 h2; rw [h1, h2]; decide)
        | (rename_i h1 h2; exact absurd (by simp only [Arg.hint]; rw [if_neg h1]) (ha "float"))
    | _ => simp only [Arg.hint] at h <;> (repeat' split at h) <;> first | (cases h; done) | exact absurd rfl (ha _) | (rename_i h1; exact absurd (by simp only [Arg.hint]; rw [if_neg h1]) (ha "float"))
  | other k => exact absurd rfl (ha _)
  | size c => 
    cases b with
    | val w => cases w <;> simp only [Arg.hint] at h <;> (repeat' split at h) <;> cases h
    | size d => simp only [Arg.hint, basicHint] at h; injection h with _ h; injection h with h; injection h with h; injection h with h; injection h with h; injection h with h; simp [Arg.eq, h]
    | _ => cases h
  | net => 
    cases b with
    | val w => cases w <;> simp only [Arg.hint] at h <;> (repeat' split at h) <;> cases h
    | net => rfl
    | _ => cases h
  | tvar t =>
    cases b with
    | val w => cases w <;> simp only [Arg.hint] at h <;> (repeat' split at h) <;> cases h
    | tvar u => cases h; simp [Arg.eq]
    | _ => cases h

/-! ### What does not depend on identities -/

theorem mkChar_ident {c d : HintCtx} {h : Hint} (hi : c.ident .char [h] = d.ident .char [h]) : mkChar c h = mkChar d h := by
  unfold mkChar
  simp only [hi]

theorem mkChar_error {c d : HintCtx} {h : Hint} {e : Err} (he : mkChar c h = .error e) : mkChar d h = .error e := by
  unfold mkChar at he ⊢
  simp only at he ⊢
  split at he
  · cases he
  · rename_i hn
    split at he <;> first | (cases he; done) | exact he | skip

theorem transform_ident (c : HintCtx) (f : AliasKind → List Hint → SerId) :
    ∀ n id h, transform { c with ident := f } n id h = transform c n id h
  | 0, _, _ => rfl
  | n + 1, id, h => by
    have : transform { c with ident := f } n = transform c n := by
      funext id h; exact transform_ident c f n id h
    unfold transform
    rw [this]; rfl

theorem mkArray_ident (c : HintCtx) (f g : AliasKind → List Hint → SerId) {n : Nat} {h i : Hint} (hi : f .array [h, i] = g .array [h, i]) :
    mkArray { c with ident := f } n h i = mkArray { c with ident := g } n h i := by
  unfold mkArray
  simp only [hi, transform_ident]

theorem char_known {c : HintCtx} {a : Arg} {h : Hint} (hc : mkChar c a.hint = .ok h) : Known a := by
  intro n hn
  rw [hn] at hc
  cases hc

/-- What a header that is not an alias was made of. -/
theorem header_of {l z h : Hint} (hh : mkHeader l z = .ok h) (ha : h.isAlias = false) :
    (∃ c d, h = .header c d ∧ ((∃ i : Int, l = .int i ∧ c = .static i) ∨ ∃ st, IsSizeType l st ∧ c = .dyn st) ∧
      (z = .noneT ∧ d = none ∨ ∃ st, IsSizeType z st ∧ d = some st)) := by
  unfold mkHeader at hh
  split at hh
  · cases hh; cases ha
  · have tail : ∀ c, (match sizeType? z with
        | some st => Except.ok (Hint.header c (some st))
        | none => match z with
          | .noneT => .ok (.header c none)
          | _ => .error Err.typeError) = .ok h → ∃ d, h = .header c d ∧ (z = .noneT ∧ d = none ∨ ∃ st, IsSizeType z st ∧ d = some st) := by
      intro c h2
      split at h2
      · rename_i st hst
        cases h2
        exact ⟨_, rfl, .inr ⟨st, sizeType_iff.1 hst, rfl⟩⟩
      · split at h2
        · cases h2
          exact ⟨_, rfl, .inl ⟨rfl, rfl⟩⟩
        · cases h2
    simp only at hh
    split at hh
    · rename_i st hst
      obtain ⟨d, e, hd⟩ := tail _ hh
      exact ⟨_, d, e, .inr ⟨st, sizeType_iff.1 hst, rfl⟩, hd⟩
    · split at hh
      · split at hh
        · cases hh
        · obtain ⟨d, e, hd⟩ := tail _ hh
          exact ⟨_, d, e, .inl ⟨_, rfl, rfl⟩, hd⟩
      · cases hh

theorem sizeType_inj {h h' : Hint} {st : StructSer} (a : IsSizeType h st) (b : IsSizeType h' st) : h = h' := by
  obtain ⟨c, _, rfl, rfl⟩ := a
  obtain ⟨d, _, rfl, e⟩ := b
  injection e with e
  injection e with e
  rw [e]

theorem mkHeader_inj {l z l' z' h : Hint} (h1 : mkHeader l z = .ok h) (h2 : mkHeader l' z' = .ok h) (ha : h.isAlias = false) :
    l = l' ∧ z = z' := by
  obtain ⟨c, d, rfl, a1, a2⟩ := header_of h1 ha
  obtain ⟨c', d', e, b1, b2⟩ := header_of h2 ha
  injection e with e1 e2
  subst e1 e2
  constructor
  · rcases a1 with ⟨i, rfl, rfl⟩ | ⟨st, hs, rfl⟩ <;> rcases b1 with ⟨j, rfl, e⟩ | ⟨st', hs', e⟩ <;> cases e
    · rfl
    · exact sizeType_inj hs hs'
  · rcases a2 with ⟨rfl, rfl⟩ | ⟨st, hs, rfl⟩ <;> rcases b2 with ⟨rfl, e⟩ | ⟨st', hs', e⟩ <;> cases e
    · rfl
    · exact sizeType_inj hs hs'

theorem not_plain {h : Hint} {st : StructSer} (hs : IsSizeType h st) (n : String) : h ≠ .plain n := by
  obtain ⟨c, _, rfl, _⟩ := hs
  intro e; cases e

theorem header_known {a b : Arg} {h : Hint} (hh : mkHeader a.hint b.hint = .ok h) (ha : h.isAlias = false) : Known a ∧ Known b := by
  obtain ⟨c, d, -, a1, a2⟩ := header_of hh ha
  constructor
  · rcases a1 with ⟨i, e, _⟩ | ⟨st, hs, _⟩
    · intro n hn; rw [e] at hn; cases hn
    · exact not_plain hs
  · rcases a2 with ⟨e, _⟩ | ⟨st, hs, _⟩
    · intro n hn; rw [e] at hn; cases hn
    · exact not_plain hs

/-! ### The caches at any time -/

theorem find_some {eq : κ → κ → Bool} {k : κ} {l : List (κ × α)} {x : α} (h : find eq k l = some x) : ∃ k', (k', x) ∈ l ∧ eq k' k = true := by
  unfold find at h
  cases e : l.find? (fun e => eq e.1 k) with
  | none => rw [e] at h; cases h
  | some p =>
    rw [e] at h
    cases h
    exact ⟨p.1, List.mem_of_find?_eq_some e, by simpa using List.find?_some e⟩

theorem find_none {eq : κ → κ → Bool} {k : κ} {l : List (κ × α)} (h : find eq k l = none) : ∀ k' x, (k', x) ∈ l → eq k' k = false := by
  intro k' x hm
  unfold find at h
  rw [Option.map_eq_none_iff] at h
  have := List.find?_eq_none.1 h _ hm
  simpa using this

/-- What holds of the caches after any uses with exact arguments. -/
structure Inv (w : Setup) (s : Caches) : Prop where
  chars : ∀ a k h, (a, (k, h)) ∈ s.chars → Exact a ∧ k < s.next ∧ mkChar (w.naming [k]) a.hint = .ok h
  once : ∀ a k h b j t, (a, (k, h)) ∈ s.chars → (b, (j, t)) ∈ s.chars → a.hint = b.hint ∨ k = j → a.hint = b.hint ∧ k = j ∧ h = t
  texts : ∀ a e h, ((a, e), h) ∈ s.unicodes → Exact a ∧ e.hashable = true ∧
    (a.hint.isTvar = true ∧ h = .alias .unicode [a.hint, w.encoding e] ∨
     a.hint.isTvar = false ∧ ∃ enc dec b k t, w.codec e = some (enc, dec) ∧ (b, (k, t)) ∈ s.chars ∧ b.hint = a.hint ∧ wrapText w enc dec t = .ok h)
  headers : ∀ l z k h, ((l, z), (k, h)) ∈ s.headers → Exact l ∧ Exact z ∧ k < s.next ∧ mkHeader l.hint z.hint = .ok h
  honce : ∀ l z k h l' z' k' h', ((l, z), (k, h)) ∈ s.headers → ((l', z'), (k', h')) ∈ s.headers →
    h.isAlias = false ∧ l.hint = l'.hint ∧ z.hint = z'.hint ∨ k = k' → k = k' ∧ h = h'
  arrays : ∀ k i t, ((k, i), t) ∈ s.arrays → ∃ l z h, ((l, z), (k, h)) ∈ s.headers ∧ mkArray (w.naming [k, i]) w.limit h (w.items i) = .ok t

/-- Later caches hold the same and more. -/
def Grows (s t : Caches) : Prop := (∀ x ∈ s.chars, x ∈ t.chars) ∧ ∀ x ∈ s.headers, x ∈ t.headers

theorem Grows.refl (s : Caches) : Grows s s := ⟨fun _ h => h, fun _ h => h⟩

theorem Grows.trans {s t u : Caches} (a : Grows s t) (b : Grows t u) : Grows s u :=
  ⟨fun x h => b.1 x (a.1 x h), fun x h => b.2 x (a.2 x h)⟩

/-- Why `char[a]` gave this. -/
def CharBy (w : Setup) (a : Arg) (r : Except Err Hint) (s : Caches) : Prop :=
  (∃ b k h, (b, (k, h)) ∈ s.chars ∧ b.hint = a.hint ∧ r = .ok h) ∨ ∃ e, r = .error e ∧ ∀ id, mkChar (w.naming id) a.hint = .error e

theorem CharBy.later {w : Setup} {a : Arg} {r : Except Err Hint} {s t : Caches} (h : CharBy w a r s) (g : Grows s t) : CharBy w a r t := by
  rcases h with ⟨b, k, h, hm, e⟩ | h
  · exact .inl ⟨b, k, h, g.1 _ hm, e⟩
  · exact .inr h

theorem char_run {w : Setup} {a : Arg} {s : Caches} (hs : Inv w s) (ha : Exact a) :
    Inv w (char w a s).2 ∧ Grows s (char w a s).2 ∧ CharBy w a (char w a s).1 (char w a s).2 := by
  unfold char
  rw [if_neg (by simp [ha.1])]
  split
  · rename_i k h hf
    obtain ⟨b, hm, he⟩ := find_some hf
    exact ⟨hs, Grows.refl s, .inl ⟨b, k, h, hm, eq_hint (hs.chars _ _ _ hm).1 ha he, rfl⟩⟩
  · rename_i hf
    have hn := find_none hf
    split
    · rename_i e he
      exact ⟨hs, Grows.refl s, .inr ⟨e, rfl, fun id => mkChar_error he⟩⟩
    · rename_i h hh
      have hk : Known a := char_known hh
      refine ⟨?_, ⟨fun x hx => List.mem_append_left _ hx, fun x hx => hx⟩, .inl ⟨a, s.next, h, List.mem_append_right _ (List.mem_singleton.2 rfl), rfl, rfl⟩⟩
      have new : ∀ b k t, (b, (k, t)) ∈ s.chars → a.hint ≠ b.hint ∧ k ≠ s.next := by
        intro b k t hm
        refine ⟨fun e => ?_, Nat.ne_of_lt (hs.chars _ _ _ hm).2.1⟩
        have h1 := hn _ _ hm
        have h2 : Known b := by intro n; rw [← e]; exact hk n
        rw [hint_eq h2 e.symm] at h1
        cases h1
      refine ⟨?_, ?_, ?_, ?_, ?_, ?_⟩
      · intro b k t hm
        rcases List.mem_append.1 hm with hm | hm
        · have := hs.chars _ _ _ hm
          exact ⟨this.1, Nat.lt_succ_of_lt this.2.1, this.2.2⟩
        · cases List.mem_singleton.1 hm
          exact ⟨ha, Nat.lt_succ_self _, hh⟩
      · intro b k t b' k' t' h1 h2 hor
        rcases List.mem_append.1 h1 with h1 | h1 <;> rcases List.mem_append.1 h2 with h2 | h2
        · exact hs.once _ _ _ _ _ _ h1 h2 hor
        · cases List.mem_singleton.1 h2
          have := new _ _ _ h1
          rcases hor with e | e
          · exact absurd e.symm this.1
          · exact absurd e this.2
        · cases List.mem_singleton.1 h1
          have := new _ _ _ h2
          rcases hor with e | e
          · exact absurd e this.1
          · exact absurd e.symm this.2
        · cases List.mem_singleton.1 h1
          cases List.mem_singleton.1 h2
          exact ⟨rfl, rfl, rfl⟩
      · intro b e t hm
        have := hs.texts _ _ _ hm
        refine ⟨this.1, this.2.1, this.2.2.imp id ?_⟩
        rintro ⟨h0, enc, dec, c, k, u, h1, h2, h3⟩
        exact ⟨h0, enc, dec, c, k, u, h1, List.mem_append_left _ h2, h3⟩
      · intro l z k t hm
        have := hs.headers _ _ _ _ hm
        exact ⟨this.1, this.2.1, Nat.lt_succ_of_lt this.2.2.1, this.2.2.2⟩
      · exact hs.honce
      · exact hs.arrays

theorem codec_eq {w : Setup} {e e' : Arg} (h : e.eq e' = true) : w.codec e = w.codec e' := by
  cases e <;> cases e' <;> simp only [Arg.eq, Bool.false_eq_true] at h <;> first | rfl | skip
  case val.val v v' =>
    cases v <;> cases v' <;> simp only [Val.keyEq, Bool.false_eq_true] at h <;> first | rfl | (simp only [beq_iff_eq] at h; rw [h])
  case other.other => simp only [beq_iff_eq] at h; rw [h]

/-- Why `unicode[a, e]` gave this. -/
def TextBy (w : Setup) (a e : Arg) (r : Except Err Hint) (s : Caches) : Prop :=
  (a.hint.isTvar = true ∧ r = .ok (.alias .unicode [a.hint, w.encoding e])) ∨
  (a.hint.isTvar = false ∧ w.codec e = none ∧ r = .error .typeError) ∨
  (a.hint.isTvar = false ∧ ∃ enc dec rc, w.codec e = some (enc, dec) ∧ CharBy w a rc s ∧ r = rc >>= wrapText w enc dec)

theorem TextBy.later {w : Setup} {a e : Arg} {r : Except Err Hint} {s t : Caches} (h : TextBy w a e r s) (g : Grows s t) : TextBy w a e r t := by
  rcases h with h | h | ⟨h0, enc, dec, rc, h1, h2, h3⟩
  · exact .inl h
  · exact .inr (.inl h)
  · exact .inr (.inr ⟨h0, enc, dec, rc, h1, h2.later g, h3⟩)

theorem body_run {w : Setup} {a e : Arg} {s : Caches} (hs : Inv w s) (ha : Exact a) :
    Inv w (unicodeBody w a e s).2 ∧ Grows s (unicodeBody w a e s).2 ∧ TextBy w a e (unicodeBody w a e s).1 (unicodeBody w a e s).2 := by
  unfold unicodeBody
  by_cases hv : a.hint.isTvar = true
  · rw [if_pos hv]
    exact ⟨hs, Grows.refl s, .inl ⟨hv, rfl⟩⟩
  · rw [if_neg hv]
    have hv' : a.hint.isTvar = false := by simpa using hv
    cases hc : w.codec e with
    | none => exact ⟨hs, Grows.refl s, .inr (.inl ⟨hv', hc, rfl⟩)⟩
    | some p =>
      obtain ⟨enc, dec⟩ := p
      have h1 := char_run hs ha
      simp only
      cases hr : char w a s with
      | mk r s' =>
        rw [hr] at h1
        cases r with
        | error x => exact ⟨h1.1, h1.2.1, .inr (.inr ⟨hv', enc, dec, _, hc, h1.2.2, rfl⟩)⟩
        | ok h => exact ⟨h1.1, h1.2.1, .inr (.inr ⟨hv', enc, dec, _, hc, h1.2.2, rfl⟩)⟩

theorem unicode_run {w : Setup} {a e : Arg} {s : Caches} (hs : Inv w s) (ha : Exact a) (he : e.hashable = true) :
    Inv w (unicode w a e s).2 ∧ Grows s (unicode w a e s).2 ∧ TextBy w a e (unicode w a e s).1 (unicode w a e s).2 := by
  unfold unicode
  rw [if_neg (by simp [ha.1, he])]
  split
  · rename_i h hf
    obtain ⟨⟨b, f⟩, hm, hq⟩ := find_some hf
    refine ⟨hs, Grows.refl s, ?_⟩
    simp only [eq2, Bool.and_eq_true] at hq
    obtain ⟨h1, h2, h3⟩ := hs.texts _ _ _ hm
    have hh := eq_hint h1 ha hq.1
    have hcd : w.codec f = w.codec e := codec_eq hq.2
    rcases h3 with ⟨hv, h3⟩ | ⟨hv, enc, dec, c, k, t, g1, g2, g3, g4⟩
    · left
      rw [hh] at hv h3
      refine ⟨hv, ?_⟩
      rw [h3]
      unfold Setup.encoding
      rw [hcd]
    · right; right
      rw [hh] at hv g3
      exact ⟨hv, enc, dec, .ok t, hcd ▸ g1, .inl ⟨c, k, t, g2, g3, rfl⟩, g4.symm⟩
  · have h1 := body_run (e := e) hs ha
    cases hr : unicodeBody w a e s with
    | mk r s' =>
      rw [hr] at h1
      cases r with
      | error x => exact h1
      | ok h =>
        obtain ⟨i1, g1, b1⟩ := h1
        refine ⟨⟨i1.chars, i1.once, ?_, i1.headers, i1.honce, i1.arrays⟩, g1, ?_⟩
        · intro b f t hm
          rcases List.mem_append.1 hm with hm | hm
          · exact i1.texts _ _ _ hm
          · cases List.mem_singleton.1 hm
            refine ⟨ha, he, ?_⟩
            rcases b1 with ⟨hv, h3⟩ | ⟨_, _, h3⟩ | ⟨hv, enc, dec, rc, g2, g3, g4⟩
            · cases h3; exact .inl ⟨hv, rfl⟩
            · cases h3
            · right
              rcases g3 with ⟨c, k, t, hm, hh, rfl⟩ | ⟨x, rfl, _⟩
              · exact ⟨hv, enc, dec, c, k, t, g2, hm, hh, g4.symm⟩
              · cases g4
        · exact b1.later ⟨fun _ h => h, fun _ h => h⟩

/-- Why `array[Header[l, z], item]` gave this. -/
def ArrayBy (w : Setup) (l z : Arg) (i : Nat) (r : Except Err Hint) (s : Caches) : Prop :=
  (∃ e, mkHeader l.hint z.hint = .error e ∧ r = .error e) ∨
  ∃ l' z' k h, ((l', z'), (k, h)) ∈ s.headers ∧ l'.hint = l.hint ∧ z'.hint = z.hint ∧ r = mkArray (w.naming [k, i]) w.limit h (w.items i)

theorem header_run {w : Setup} {l z : Arg} {s : Caches} (hs : Inv w s) (hl : Exact l) (hz : Exact z) :
    Inv w (header l z s).2 ∧ Grows s (header l z s).2 ∧
    ((∃ e, mkHeader l.hint z.hint = .error e ∧ (header l z s).1 = .error e) ∨
     ∃ l' z' k h, ((l', z'), (k, h)) ∈ (header l z s).2.headers ∧ l'.hint = l.hint ∧ z'.hint = z.hint ∧ (header l z s).1 = .ok (k, h)) := by
  unfold header
  rw [if_neg (by simp [hl.1, hz.1])]
  split
  · rename_i p hf
    obtain ⟨k, h⟩ := p
    obtain ⟨⟨l', z'⟩, hm, hq⟩ := find_some hf
    simp only [eq2, Bool.and_eq_true] at hq
    have h1 := hs.headers _ _ _ _ hm
    exact ⟨hs, Grows.refl s, .inr ⟨l', z', k, h, hm, eq_hint h1.1 hl hq.1, eq_hint h1.2.1 hz hq.2, rfl⟩⟩
  · rename_i hf
    have hn := find_none hf
    cases hh : mkHeader l.hint z.hint with
    | error e => exact ⟨hs, Grows.refl s, .inl ⟨e, rfl, rfl⟩⟩
    | ok h =>
      refine ⟨?_, ⟨fun x hx => hx, fun x hx => List.mem_append_left _ hx⟩,
        .inr ⟨l, z, s.next, h, List.mem_append_right _ (List.mem_singleton.2 rfl), rfl, rfl, rfl⟩⟩
      have new : ∀ l' z' k t, ((l', z'), (k, t)) ∈ s.headers → k ≠ s.next ∧ (t.isAlias = false ∨ h.isAlias = false → ¬ (l'.hint = l.hint ∧ z'.hint = z.hint)) := by
        intro l' z' k t hm
        have h0 := hs.headers _ _ _ _ hm
        refine ⟨Nat.ne_of_lt h0.2.2.1, fun ht e => ?_⟩
        have h1 := hn _ _ hm
        have e2 : t = h := by
          have := h0.2.2.2
          rw [e.1, e.2, hh] at this
          injection this with this
          exact this.symm
        have ht : t.isAlias = false := by rcases ht with h | h; exact h; rw [e2]; exact h
        have h2 := header_known h0.2.2.2 ht
        simp only [eq2, hint_eq h2.1 e.1, hint_eq h2.2 e.2] at h1
        cases h1
      refine ⟨?_, hs.once, hs.texts, ?_, ?_, ?_⟩
      · intro b k t hm
        have := hs.chars _ _ _ hm
        exact ⟨this.1, Nat.lt_succ_of_lt this.2.1, this.2.2⟩
      · intro l' z' k t hm
        rcases List.mem_append.1 hm with hm | hm
        · have := hs.headers _ _ _ _ hm
          exact ⟨this.1, this.2.1, Nat.lt_succ_of_lt this.2.2.1, this.2.2.2⟩
        · cases List.mem_singleton.1 hm
          exact ⟨hl, hz, Nat.lt_succ_self _, hh⟩
      · intro a b k t a' b' k' t' h1 h2 hor
        rcases List.mem_append.1 h1 with h1 | h1 <;> rcases List.mem_append.1 h2 with h2 | h2
        · exact hs.honce _ _ _ _ _ _ _ _ h1 h2 hor
        · cases List.mem_singleton.1 h2
          have := new _ _ _ _ h1
          rcases hor with e | e
          · exact absurd e.2 (this.2 (.inl e.1))
          · exact absurd e this.1
        · cases List.mem_singleton.1 h1
          have := new _ _ _ _ h2
          rcases hor with e | e
          · exact absurd ⟨e.2.1.symm, e.2.2.symm⟩ (this.2 (.inr e.1))
          · exact absurd e.symm this.1
        · cases List.mem_singleton.1 h1
          cases List.mem_singleton.1 h2
          exact ⟨rfl, rfl⟩
      · intro k i t hm
        obtain ⟨l', z', h', h1, h2⟩ := hs.arrays _ _ _ hm
        exact ⟨l', z', h', List.mem_append_left _ h1, h2⟩

theorem mkArray_alias {c : HintCtx} {n : Nat} {h i : Hint} (ha : h.isAlias = true) : mkArray c n h i = .ok (.alias .array [h, i]) := by
  unfold mkArray
  rw [if_pos (by simp [ha])]

theorem array_run {w : Setup} {l z : Arg} {k i : Nat} {h : Hint} {s : Caches} (hs : Inv w s) (hm : ((l, z), (k, h)) ∈ s.headers) :
    Inv w (array w k h i s).2 ∧ Grows s (array w k h i s).2 ∧ (array w k h i s).1 = mkArray (w.naming [k, i]) w.limit h (w.items i) := by
  unfold array
  split
  · rename_i t hf
    obtain ⟨⟨k', i'⟩, hm', hq⟩ := find_some hf
    simp only [beq_iff_eq] at hq
    cases hq
    obtain ⟨l', z', h', h1, h2⟩ := hs.arrays _ _ _ hm'
    refine ⟨hs, Grows.refl s, ?_⟩
    have : h = h' := (hs.honce _ _ _ _ _ _ _ _ hm h1 (.inr rfl)).2
    rw [this, h2]
  · cases hh : mkArray (w.naming [k, i]) w.limit h (w.items i) with
    | error e => exact ⟨hs, Grows.refl s, rfl⟩
    | ok t =>
      refine ⟨⟨hs.chars, hs.once, hs.texts, hs.headers, hs.honce, ?_⟩, ⟨fun _ h => h, fun _ h => h⟩, rfl⟩
      intro k' i' t' hm'
      rcases List.mem_append.1 hm' with hm' | hm'
      · exact hs.arrays _ _ _ hm'
      · cases List.mem_singleton.1 hm'
        exact ⟨l, z, h, hm, hh⟩

/-- Why a use gave this. -/
def UseBy (w : Setup) (u : Use) (r : Except Err Hint) (s : Caches) : Prop :=
  match u with
  | .char a => CharBy w a r s
  | .unicode a e => TextBy w a e r s
  | .array l z i => ArrayBy w l z i r s

theorem UseBy.later {w : Setup} {u : Use} {r : Except Err Hint} {s t : Caches} (h : UseBy w u r s) (g : Grows s t) : UseBy w u r t := by
  cases u with
  | char a => exact CharBy.later h g
  | unicode a e => exact TextBy.later h g
  | array l z i =>
    rcases h with h | ⟨l', z', k, h, hm, e⟩
    · exact .inl h
    · exact .inr ⟨l', z', k, h, g.2 _ hm, e⟩

theorem use_run {w : Setup} {u : Use} {s : Caches} (hs : Inv w s) (hu : ExactUse u) :
    Inv w (u.run w s).2 ∧ Grows s (u.run w s).2 ∧ UseBy w u (u.run w s).1 (u.run w s).2 := by
  cases u with
  | char a => exact char_run hs hu
  | unicode a e => exact unicode_run hs hu.1 hu.2
  | array l z i =>
    have h1 := header_run hs hu.1 hu.2
    simp only [Use.run]
    cases hr : header l z s with
    | mk r s' =>
      rw [hr] at h1
      obtain ⟨i1, g1, ⟨e, h2, h3⟩ | ⟨l', z', k, h, h2, h3, h4, h5⟩⟩ := h1
      · simp only at h3
        subst h3
        exact ⟨i1, g1, .inl ⟨e, h2, rfl⟩⟩
      · simp only at h5
        subst h5
        have h6 := array_run (i := i) i1 h2
        exact ⟨h6.1, g1.trans h6.2.1, .inr ⟨l', z', k, h, h6.2.1.2 _ h2, h3, h4, h6.2.2⟩⟩

theorem all_run {w : Setup} : ∀ {us : List Use} {s : Caches}, Inv w s → (∀ u ∈ us, ExactUse u) →
    Inv w (runAll w us s).2 ∧ Grows s (runAll w us s).2 ∧
    (runAll w us s).1.length = us.length ∧ ∀ p ∈ us.zip (runAll w us s).1, UseBy w p.1 p.2 (runAll w us s).2
  | [], s, hs, _ => ⟨hs, Grows.refl s, rfl, nofun⟩
  | u :: us, s, hs, hu => by
    have h1 := use_run hs (hu u (List.mem_cons_self ..))
    have h2 := all_run (us := us) h1.1 (fun v hv => hu v (List.mem_cons_of_mem _ hv))
    refine ⟨h2.1, h1.2.1.trans h2.2.1, congrArg (· + 1) h2.2.2.1, ?_⟩
    intro p hp
    rcases List.mem_cons.1 hp with rfl | hp
    · exact h1.2.2.later h2.2.1
    · exact h2.2.2.2 p hp

theorem Inv.empty (w : Setup) : Inv w {} := by
  constructor <;> (intros; contradiction)

/-! ### The identities -/

open Classical in
/-- Which object it is, for the hints that the bodies see. -/
noncomputable def identOf (w : Setup) (s : Caches) : AliasKind → List Hint → SerId
  | .char, [h] => if hx : ∃ k, ∃ a t, (a, (k, t)) ∈ s.chars ∧ a.hint = h then [hx.choose] else []
  | .array, [h, i] => if hx : ∃ p : Nat × Nat, (∃ l z, ((l, z), (p.1, h)) ∈ s.headers) ∧ w.items p.2 = i then [hx.choose.1, hx.choose.2] else []
  | _, _ => []

open Classical in
theorem ident_char {w : Setup} {s : Caches} (hs : Inv w s) {a : Arg} {k : Nat} {t : Hint} (hm : (a, (k, t)) ∈ s.chars) :
    identOf w s .char [a.hint] = [k] := by
  have hx : ∃ k, ∃ b t, (b, (k, t)) ∈ s.chars ∧ b.hint = a.hint := ⟨k, a, t, hm, rfl⟩
  show (if hx : ∃ k, ∃ b t, (b, (k, t)) ∈ s.chars ∧ b.hint = a.hint then [hx.choose] else []) = _
  rw [dif_pos hx]
  obtain ⟨b, t', h1, h2⟩ := hx.choose_spec
  rw [(hs.once _ _ _ _ _ _ h1 hm (.inl h2)).2.1]

open Classical in
theorem ident_array {w : Setup} (hw : ∀ i j, w.items i = w.items j → i = j) {s : Caches} (hs : Inv w s) {l z : Arg} {k i : Nat} {h : Hint}
    (hm : ((l, z), (k, h)) ∈ s.headers) (ha : h.isAlias = false) : identOf w s .array [h, w.items i] = [k, i] := by
  have hx : ∃ p : Nat × Nat, (∃ l z, ((l, z), (p.1, h)) ∈ s.headers) ∧ w.items p.2 = w.items i := ⟨(k, i), ⟨l, z, hm⟩, rfl⟩
  show (if hx : ∃ p : Nat × Nat, (∃ l z, ((l, z), (p.1, h)) ∈ s.headers) ∧ w.items p.2 = w.items i then [hx.choose.1, hx.choose.2] else []) = _
  rw [dif_pos hx]
  obtain ⟨⟨l', z', h1⟩, h2⟩ := hx.choose_spec
  have e1 := mkHeader_inj (hs.headers _ _ _ _ h1).2.2.2 (hs.headers _ _ _ _ hm).2.2.2 ha
  rw [(hs.honce _ _ _ _ _ _ _ _ h1 hm (.inl ⟨ha, e1⟩)).1, hw _ _ h2]

theorem char_means {w : Setup} {s : Caches} (hs : Inv w s) {a : Arg} {r : Except Err Hint} (h : CharBy w a r s) :
    r = mkChar { w.ctx with ident := identOf w s } a.hint := by
  rcases h with ⟨b, k, h, hm, he, rfl⟩ | ⟨e, rfl, h⟩
  · rw [← (hs.chars _ _ _ hm).2.2, he]
    refine mkChar_ident ?_
    show [k] = identOf w s .char [a.hint]
    rw [← he, ident_char hs hm]
  · exact (mkChar_error (h [])).symm

/-- The serializer in `char[...]`. -/
theorem char_typed {c : HintCtx} {h t : Hint} (hv : h.isTvar = false) (hc : mkChar c h = .ok t) : ∃ s, t = typed "bytes" s ∧ s.isUnion = false := by
  unfold mkChar at hc
  simp only at hc
  split at hc
  · cases hc; exact ⟨_, rfl, rfl⟩
  · split at hc
    · obtain ⟨r, h1, h2⟩ := Except.bind_ok' hc
      cases h2
      exact ⟨_, rfl, by cases r <;> rfl⟩
    all_goals first | (cases hc; done) | (cases hc; exact ⟨_, rfl, rfl⟩) | cases hv

theorem transform_typed (c : HintCtx) {s : Ser} (hs : s.isUnion = false) (id : SerId) :
    ∀ n, transform c n id (typed "bytes" s) = if n = 0 then .error .recursionError else .ok (.ser s)
  | 0 => rfl
  | n + 1 => by
    have : unionStep (transform c n) id (.plain "bytes") (.ser s) = .ok (.plain "bytes") := by
      simp only [unionStep, hs]; rfl
    show ((unionStep (transform c n) id (.plain "bytes") (.ser s) >>= fun b => selfStep id b >>= fun b => structuredStep c id b >>=
      fun b => indexingStep b (.ser s) >>= fun b => finalStep b (.ser s)) >>= fun b => .ok b) = _
    rw [this]; rfl

theorem text_means {w : Setup} {s : Caches} (hs : Inv w s) {a e : Arg} {r : Except Err Hint} (h : TextBy w a e r s) :
    r = mkUnicode { w.ctx with ident := identOf w s } w.limit a.hint (w.encoding e) := by
  rcases h with ⟨hv, rfl⟩ | ⟨hv, hc, rfl⟩ | ⟨hv, enc, dec, rc, hc, hb, rfl⟩
  · unfold mkUnicode; rw [if_pos hv]
  · unfold mkUnicode Setup.encoding; rw [if_neg (by simp [hv]), hc]
  · rw [char_means hs hb]
    unfold mkUnicode Setup.encoding
    rw [if_neg (by simp [hv]), hc]
    simp only
    cases hm : mkChar { w.ctx with ident := identOf w s } a.hint with
    | error x => rfl
    | ok t =>
      obtain ⟨sr, rfl, hu⟩ := char_typed hv hm
      show wrapText w enc dec (typed "bytes" sr) = _
      unfold wrapText
      show (transform w.ctx w.limit [] (typed "bytes" sr) >>= fun x => _) = (transform _ w.limit _ (typed "bytes" sr) >>= fun x => _)
      rw [transform_typed _ hu, transform_typed _ hu]
      split <;> rfl

theorem array_means {w : Setup} (hw : ∀ i j, w.items i = w.items j → i = j) {s : Caches} (hs : Inv w s) {l z : Arg} {i : Nat} {r : Except Err Hint}
    (h : ArrayBy w l z i r s) :
    r = mkHeader l.hint z.hint >>= fun h => mkArray { w.ctx with ident := identOf w s } w.limit h (w.items i) := by
  rcases h with ⟨e, h1, rfl⟩ | ⟨l', z', k, h, hm, h1, h2, rfl⟩
  · rw [h1]; rfl
  · have h3 := (hs.headers _ _ _ _ hm).2.2.2
    rw [h1, h2] at h3
    rw [h3]
    show _ = mkArray { w.ctx with ident := identOf w s } w.limit h (w.items i)
    by_cases ha : h.isAlias = true
    · rw [mkArray_alias ha, mkArray_alias ha]
    · refine mkArray_ident w.ctx _ _ ?_
      show [k, i] = _
      rw [ident_array hw hs hm (by simpa using ha)]

theorem use_means {w : Setup} (hw : ∀ i j, w.items i = w.items j → i = j) {s : Caches} (hs : Inv w s) {u : Use} {r : Except Err Hint}
    (h : UseBy w u r s) : r = meaning w (identOf w s) u := by
  cases u with
  | char a => exact char_means hs h
  | unicode a e => exact text_means hs h
  | array l z i => exact array_means hw hs h

open Classical in
theorem ident_inj {w : Setup} {s : Caches} (hs : Inv w s) (k : AliasKind) (args : List Hint) (k' : AliasKind) (args' : List Hint)
    (hn : identOf w s k args ≠ []) (he : identOf w s k args = identOf w s k' args') : k = k' ∧ args = args' := by
  have what : ∀ k args, identOf w s k args ≠ [] →
      (∃ h a j t, k = .char ∧ args = [h] ∧ (a, (j, t)) ∈ s.chars ∧ a.hint = h ∧ identOf w s k args = [j]) ∨
      (∃ h l z j i, k = .array ∧ args = [h, w.items i] ∧ ((l, z), (j, h)) ∈ s.headers ∧ identOf w s k args = [j, i]) := by
    intro k args hn
    unfold identOf at hn ⊢
    split at hn
    · rename_i h
      split at hn
      · rename_i hx
        obtain ⟨a, t, h1, h2⟩ := hx.choose_spec
        exact .inl ⟨h, a, _, t, rfl, rfl, h1, h2, dif_pos hx⟩
      · exact absurd rfl hn
    · rename_i h i
      split at hn
      · rename_i hx
        obtain ⟨⟨l, z, h1⟩, h2⟩ := hx.choose_spec
        exact .inr ⟨h, l, z, _, _, rfl, by rw [h2], h1, dif_pos hx⟩
      · exact absurd rfl hn
    · exact absurd rfl hn
  have hn' := hn
  rw [he] at hn'
  rcases what _ _ hn with ⟨h, a, j, t, rfl, rfl, h1, h2, h3⟩ | ⟨h, l, z, j, i, rfl, rfl, h1, h3⟩ <;>
    rcases what _ _ hn' with ⟨h', a', j', t', rfl, rfl, g1, g2, g3⟩ | ⟨h', l', z', j', i', rfl, rfl, g1, g3⟩ <;>
    rw [h3, g3] at he <;> cases he
  · have := hs.once _ _ _ _ _ _ h1 g1 (.inr rfl)
    rw [← h2, ← g2, this.1]
    exact ⟨rfl, rfl⟩
  · rw [(hs.honce _ _ _ _ _ _ _ _ h1 g1 (.inr rfl)).2]
    exact ⟨rfl, rfl⟩

theorem mkUnicode_error {c : HintCtx} {f g : AliasKind → List Hint → SerId} {n : Nat} {h e : Hint} {x : Err}
    (he : mkUnicode { c with ident := f } n h e = .error x) : mkUnicode { c with ident := g } n h e = .error x := by
  unfold mkUnicode at he ⊢
  by_cases hv : h.isTvar = true
  · rw [if_pos hv] at he; cases he
  · rw [if_neg hv] at he ⊢
    cases e
    case codec enc dec =>
      simp only at he ⊢
      cases hm : mkChar { c with ident := f } h with
      | error y =>
        rw [hm] at he
        rw [mkChar_error hm]
        exact he
      | ok t =>
        obtain ⟨s, rfl, hu⟩ := char_typed (by simpa using hv) hm
        cases hm' : mkChar { c with ident := g } h with
        | error y => rw [mkChar_error hm'] at hm; cases hm
        | ok t' =>
          obtain ⟨s', rfl, hu'⟩ := char_typed (by simpa using hv) hm'
          rw [hm] at he
          replace he : (transform _ n _ (typed "bytes" s) >>= fun t => _) = Except.error x := he
          show (transform _ n _ (typed "bytes" s') >>= fun t => _) = Except.error x
          rw [transform_typed _ hu] at he
          rw [transform_typed _ hu']
          by_cases h0 : n = 0
          · rw [if_pos h0] at he ⊢; exact he
          · rw [if_neg h0] at he; cases he
    all_goals exact he

theorem scaled_inj {c : Prop} [Decidable c] {v i j : Int} {x y : Nat} (hi : (if c then v * 2 ^ x == i else v == i * 2 ^ y) = true)
    (hj : (if c then v * 2 ^ x == j else v == j * 2 ^ y) = true) : i = j := by
  by_cases hc : c
  · rw [if_pos hc, beq_iff_eq] at hi hj
    rw [← hi, ← hj]
  · rw [if_neg hc, beq_iff_eq] at hi hj
    rw [hi] at hj
    exact Int.eq_of_mul_eq_mul_right (Int.ne_of_gt (Int.pow_pos (by decide))) hj

theorem floatEqInt_inj {f : UInt64} {i j : Int} (hi : floatEqInt f i = true) (hj : floatEqInt f j = true) : i = j := by
  unfold floatEqInt at hi hj
  by_cases he : f.toNat / 2 ^ 52 % 2 ^ 11 = 2047
  · simp only [if_pos he] at hi; cases hi
  · simp only [if_neg he] at hi hj
    exact scaled_inj hi hj

theorem float_run {w : Setup} {s : Caches} (hs : Inv w s) {f : UInt64} {i : Int} (hf : floatEqInt f i = true) :
    ((∀ b k h, (b, (k, h)) ∈ s.chars → b.hint ≠ .int i) → (char w (.val (.float f)) s).1 = .error .typeError) ∧
    (∀ b k h, (b, (k, h)) ∈ s.chars → b.hint = .int i → (char w (.val (.float f)) s).1 = .ok h) := by
  have hinf : f ≠ infBits := by rintro rfl; exact absurd hf (by rw [show floatEqInt infBits i = false from rfl]; decide)
  have heq : ∀ b : Arg, Known b → Exact b → b.eq (.val (.float f)) = true → b.hint = .int i := by
    intro b hk hb h
    cases b with
    | val v =>
      cases v <;> simp only [Arg.eq, Val.keyEq, Bool.false_eq_true] at h
      case int j => rw [floatEqInt_inj h hf]; rfl
      case bool c => simp only [Arg.hint]; rw [floatEqInt_inj h hf]
      case float g =>
        exfalso
        refine hk "float" ?_
        simp only [Arg.hint]
        rw [if_neg]
        rintro rfl
        rw [floatEq_comm] at h
        exact hinf (floatEq_inf h)
    | _ => cases h
  have hint : ∀ b : Arg, b.hint = .int i → b.eq (.val (.float f)) = true := by
    intro b h
    cases b with
    | val v =>
      cases v <;> simp only [Arg.hint] at h <;> (repeat' split at h) <;> cases h <;> simp only [Arg.eq, Val.keyEq]
      · exact hf
      all_goals simp_all
    | _ => cases h
  unfold char
  rw [if_neg (by simp [Arg.hashable, Val.hashable])]
  cases he : find Arg.eq (.val (.float f)) s.chars with
  | none =>
    have hn := find_none he
    constructor
    · intro _
      have : (Arg.val (.float f)).hint = .plain "float" := by simp only [Arg.hint]; rw [if_neg hinf]
      rw [this]; rfl
    · intro b k h hm hb
      have := hn _ _ hm
      rw [hint b hb] at this
      cases this
  | some p =>
    obtain ⟨k, h⟩ := p
    obtain ⟨b, hm, hb⟩ := find_some he
    have h1 := hs.chars _ _ _ hm
    have h2 := heq b (char_known h1.2.2) h1.1 hb
    constructor
    · intro hno
      exact absurd h2 (hno _ _ _ hm)
    · intro b' k' h' hm' hb'
      rw [(hs.once _ _ _ _ _ _ hm hm' (.inl (h2.trans hb'.symm))).2.2]

end Verif.Caches
