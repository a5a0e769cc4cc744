import Verif.GenInit
import Verif.Spec.PyText
/-
The text of the generated `__init__` is read as the function it should be (C59).
-/
namespace Verif
open Spec.Py Gen

namespace GenText

/-- The rest of a line does not continue a word. -/
def Ends (r : List Char) : Prop := ∀ c r', r = c :: r' → idChar c = false

theorem ends_nil : Ends [] := nofun
theorem ends_cons {c : Char} {r : List Char} (h : idChar c = false) : Ends (c :: r) := by
  rintro _ _ ⟨⟩
  exact h

theorem lex_run : ∀ (w cur r : List Char), w.all idChar = true → lex cur (w ++ r) = lex (cur ++ w) r
  | [], cur, r, _ => by simp
  | c :: w, cur, r, h => by
    simp only [List.all_cons, Bool.and_eq_true] at h
    rw [List.cons_append, lex, if_pos h.1, lex_run w _ r h.2]
    simp

theorem lex_ends {cur r : List Char} (hc : cur ≠ []) (h : Ends r) : lex cur r = .word cur :: lex [] r := by
  cases r with
  | nil => simp [lex, flush, hc]
  | cons c r => simp [lex, flush, hc, h c r rfl]

theorem ident_chars {w : List Char} (h : ident w = true) : w ≠ [] ∧ w.all idChar = true := by
  simp only [ident, Bool.and_eq_true] at h
  refine ⟨?_, h.1.2⟩
  rintro rfl
  simp at h

/-- A text gives these tokens, whatever follows. -/
def Lexes (t : List Char) (ts : List Token) : Prop := ∀ r, Ends r → lex [] (t ++ r) = ts ++ lex [] r

theorem lexes_word {w : List Char} (h : w ≠ []) (hw : w.all idChar = true) : Lexes w [.word w] := by
  intro r hr
  rw [lex_run w [] r hw, List.nil_append, lex_ends h hr]
  rfl

theorem lexes_ident {w : List Char} (h : ident w = true) : Lexes w [.word w] := lexes_word (ident_chars h).1 (ident_chars h).2

theorem lex_sym {c : Char} (h : idChar c = false) (hs : c ≠ ' ') (r : List Char) : lex [] (c :: r) = .sym c :: lex [] r := by
  simp [lex, flush, h, hs]

theorem lex_space (r : List Char) : lex [] (' ' :: r) = lex [] r := by simp [lex, flush, show idChar ' ' = false from rfl]

def joinToks : List (List Token) → List Token
  | [] => []
  | [x] => x
  | x :: xs => x ++ .sym ',' :: joinToks xs

theorem lexes_join : ∀ (ts : List (List Char)) (us : List (List Token)), ts.length = us.length →
    (∀ i (h1 : i < ts.length) (h2 : i < us.length), Lexes ts[i] us[i]) → Lexes (join ", ".toList ts) (joinToks us)
  | [], [], _, _ => fun r _ => rfl
  | [t], [u], _, h => h 0 (by simp) (by simp)
  | t :: t' :: ts, u :: u' :: us, hl, h => by
    intro r hr
    have h0 := h 0 (by simp) (by simp)
    have h1 := lexes_join (t' :: ts) (u' :: us) (by simpa using hl) (fun i a b => by
      have := h (i + 1) (by simpa using a) (by simpa using b)
      simpa using this) r hr
    simp only [List.getElem_cons_zero] at h0
    show lex [] ((t ++ (',' :: ' ' :: join _ (t' :: ts))) ++ r) = (u ++ .sym ',' :: joinToks (u' :: us)) ++ _
    simp only [List.cons_append, List.append_assoc]
    rw [h0 _ (ends_cons rfl), lex_sym rfl (by decide), lex_space, h1]
  | [_], _ :: _ :: _, h, _ => by simp at h
  | _ :: _ :: _, [_], h, _ => by simp at h
  | [], _ :: _, h, _ => by simp at h
  | _ :: _, [], h, _ => by simp at h

theorem expr_word {s : List Char} (hs : ident s = true) {c : Char} (hc : c ≠ '[') (k : Nat) (ts : List Token) :
    expr (k + 1) (.word s :: .sym c :: ts) = some (.sym c :: ts) := by
  simp [expr, hs, hc]

theorem exprs_names : ∀ (names : List (List Char)) (k : Nat) (rest : List Token), names ≠ [] → (∀ s ∈ names, ident s = true) →
    names.length < k → exprs k (joinToks (names.map fun s => [.word s]) ++ .sym ']' :: rest) = some rest
  | [], _, _, h, _, _ => absurd rfl h
  | [s], k + 1, rest, _, hi, hk => by
    have hs := hi s (by simp)
    cases k with
    | zero => simp at hk
    | succ k => simp [joinToks, exprs, expr, hs]
  | s :: s' :: names, k + 1, rest, _, hi, hk => by
    have ih := exprs_names (s' :: names) k rest (by simp) (fun x hx => hi x (by simp [hx])) (by simp at hk ⊢; omega)
    have hs := hi s (by simp)
    cases k with
    | zero => simp at hk
    | succ k =>
      rw [show joinToks ((s :: s' :: names).map fun s => [Token.word s]) = .word s :: .sym ',' :: joinToks ((s' :: names).map fun s => [Token.word s]) from rfl]
      simp only [List.cons_append]
      rw [exprs, expr_word hs (by decide)]
      exact ih

/-- The annotation is text that is an identifier, or a union of such. -/
def Plain (a : Ann) : Prop :=
  if a.union = [] then ∀ s, orElse a.name a.oldName = some s → ident s = true
  else ∀ x ∈ a.union, ∃ s, x = some s ∧ ident s = true

/-- The tokens of an annotation. -/
def annToks (a : Ann) : List Token :=
  if a.union = [] then
    match orElse a.name a.oldName with
    | some s => [.sym ':', .word s]
    | none => []
  else .sym ':' :: .word "Union".toList :: .sym '[' :: (joinToks ((a.union.map (·.getD [])).map fun s => [.word s]) ++ [.sym ']'])

theorem unionNames_ok : ∀ {l : List (Option (List Char))}, (∀ x ∈ l, ∃ s, x = some s ∧ ident s = true) →
    unionNames l = .ok (l.map (·.getD [])) ∧ ∀ s ∈ l.map (·.getD []), ident s = true
  | [], _ => ⟨rfl, by simp⟩
  | x :: l, h => by
    obtain ⟨s, rfl, hs⟩ := h x (by simp)
    obtain ⟨h1, h2⟩ := unionNames_ok (l := l) fun y hy => h y (by simp [hy])
    refine ⟨by simp [unionNames, h1, bind, Except.bind], ?_⟩
    simp only [List.map_cons, List.mem_cons, Option.getD_some]
    rintro s (rfl | h)
    · exact hs
    · exact h2 _ h

theorem ident_line {w : List Char} (h : ident w = true) : '\n' ∉ w := by
  intro hm
  have := List.all_eq_true.1 (ident_chars h).2 _ hm
  exact absurd this (by decide)

theorem join_line {sep : List Char} (hs : '\n' ∉ sep) : ∀ {ts : List (List Char)}, (∀ t ∈ ts, '\n' ∉ t) → '\n' ∉ join sep ts
  | [], _ => by simp [join]
  | [t], h => h t (by simp)
  | t :: t' :: ts, h => by
    have h1 := h t (by simp)
    have h2 := join_line hs (ts := t' :: ts) fun x hx => h x (by simp [hx])
    simp only [join, List.mem_append, not_or]
    exact ⟨h1, hs, h2⟩

theorem argItem_lexes {n : Name} {a : Ann} (hn : ident n.toList = true) (ha : Plain a) :
    ∃ t, argItem n a = .ok t ∧ Lexes t (.word n.toList :: annToks a) ∧ '\n' ∉ t := by
  unfold Plain at ha
  unfold argItem annToks
  by_cases hu : a.union = []
  · rw [if_pos hu] at ha
    rw [if_pos (by simp [hu]), if_pos hu]
    cases ho : orElse a.name a.oldName with
    | none => exact ⟨_, rfl, lexes_ident hn, ident_line hn⟩
    | some s =>
      have hs := ha s ho
      refine ⟨_, rfl, fun r hr => ?_, ?_⟩
      · rw [List.append_assoc, show (": ".toList ++ s) ++ r = ':' :: ' ' :: (s ++ r) from rfl, lexes_ident hn _ (ends_cons rfl), lex_sym rfl (by decide),
          lex_space, lexes_ident hs r hr]
        rfl
      · simp only [List.mem_append, not_or]
        exact ⟨ident_line hn, by decide, ident_line hs⟩
  · rw [if_neg hu] at ha
    rw [if_neg (by simp [hu]), if_neg hu]
    obtain ⟨h1, h2⟩ := unionNames_ok ha
    rw [h1]
    refine ⟨_, rfl, fun r hr => ?_, ?_⟩
    · have hj := lexes_join (a.union.map (·.getD [])) ((a.union.map (·.getD [])).map fun s => [.word s]) (by simp)
        (fun i g1 g2 => by
          have := lexes_ident (h2 _ (List.getElem_mem g1))
          simpa using this)
      rw [List.append_assoc, List.append_assoc, List.append_assoc,
        show ∀ x : List Char, ": Union[".toList ++ x = ':' :: ' ' :: ("Union".toList ++ '[' :: x) from fun _ => rfl,
        lexes_ident hn _ (ends_cons rfl), lex_sym rfl (by decide), lex_space, lexes_ident (w := "Union".toList) (by decide) _ (ends_cons rfl),
        lex_sym rfl (by decide), show "]".toList ++ r = ']' :: r from rfl, hj _ (ends_cons rfl), lex_sym rfl (by decide)]
      simp
    · simp only [List.mem_append, not_or]
      exact ⟨ident_line hn, by decide, join_line (by decide) fun t ht => ident_line (h2 t ht), by decide⟩

theorem argItems_lexes : ∀ {args : List (Name × Ann)}, (∀ x ∈ args, ident x.1.toList = true ∧ Plain x.2) →
    ∃ ts, argItems args = .ok ts ∧ Lexes (join ", ".toList ts) (joinToks (args.map fun x => .word x.1.toList :: annToks x.2)) ∧ ∀ t ∈ ts, '\n' ∉ t := by
  intro args h
  have : ∃ ts, argItems args = .ok ts ∧ ts.length = args.length ∧
      (∀ i (h1 : i < ts.length) (h2 : i < args.length), Lexes ts[i] (.word args[i].1.toList :: annToks args[i].2)) ∧ ∀ t ∈ ts, '\n' ∉ t := by
    induction args with
    | nil => exact ⟨[], rfl, rfl, by simp, by simp⟩
    | cons x args ih =>
      obtain ⟨ts, h1, h2, h3, h4⟩ := ih fun y hy => h y (by simp [hy])
      obtain ⟨t, g1, g2, g3⟩ := argItem_lexes (h x (by simp)).1 (h x (by simp)).2
      refine ⟨t :: ts, by simp [argItems, g1, h1, bind, Except.bind], by simp [h2], ?_, by simp [g3]; exact h4⟩
      intro i h1 h2
      cases i with
      | zero => exact g2
      | succ i => simpa using h3 i (by simpa using h1) (by simpa using h2)
  obtain ⟨ts, h1, h2, h3, h4⟩ := this
  refine ⟨ts, h1, lexes_join _ _ (by simp [h2]) (fun i g1 g2 => ?_), h4⟩
  rw [List.getElem_map]
  exact h3 i g1 _

/-- The parameters are read with their annotations. -/
theorem params_items : ∀ {args : List (Name × Ann)} (k : Nat) (rest : List Token), args ≠ [] → (∀ x ∈ args, ident x.1.toList = true ∧ Plain x.2) →
    (joinToks (args.map fun x => .word x.1.toList :: annToks x.2)).length < k →
    params k (joinToks (args.map fun x => .word x.1.toList :: annToks x.2) ++ .sym ')' :: rest) = some (args.map (·.1.toList), rest) := by
  have one : ∀ (a : Ann) (k : Nat) (c : Char) (rest : List Token), Plain a → (c = ',' ∨ c = ')') → (annToks a).length < k →
      annotation k (annToks a ++ .sym c :: rest) = some (.sym c :: rest) := by
    intro a k c rest ha hc hk
    unfold Plain at ha
    unfold annToks at hk ⊢
    by_cases hu : a.union = []
    · rw [if_pos hu] at ha hk ⊢
      cases ho : orElse a.name a.oldName with
      | none => rcases hc with rfl | rfl <;> rfl
      | some s =>
        cases k with
        | zero => simp at hk
        | succ k => exact expr_word (ha s ho) (by rcases hc with rfl | rfl <;> decide) _ _
    · rw [if_neg hu] at ha hk ⊢
      obtain ⟨h1, h2⟩ := unionNames_ok ha
      cases k with
      | zero => simp at hk
      | succ k =>
        have := exprs_names (a.union.map (·.getD [])) k (.sym c :: rest) (by simpa using hu) h2 (by
          have hj : ∀ l : List (List Char), l.length ≤ (joinToks (l.map fun s => [Token.word s])).length := by
            intro l
            induction l with
            | nil => simp
            | cons s l ih =>
              cases l with
              | nil => simp [joinToks]
              | cons s' l =>
                rw [show joinToks ((s :: s' :: l).map fun s => [Token.word s]) = .word s :: .sym ',' :: joinToks ((s' :: l).map fun s => [Token.word s]) from rfl]
                simp only [List.length_cons] at ih ⊢
                omega
          have := hj (a.union.map (·.getD []))
          simp only [List.length_cons, List.length_append] at hk
          omega)
        simp only [List.cons_append, List.append_assoc]
        show expr (k + 1) (.word "Union".toList :: .sym '[' :: _) = _
        rw [expr]
        simp only [show ident "Union".toList = true by decide, if_true]
        exact this
  intro args
  induction args with
  | nil => intro k rest h; exact absurd rfl h
  | cons x args ih =>
    intro k rest _ h hk
    obtain ⟨hn, ha⟩ := h x (by simp)
    cases args with
    | nil =>
      cases k with
      | zero => simp at hk
      | succ k =>
        simp only [List.map_cons, List.map_nil, joinToks, List.length_cons] at hk
        have := one x.2 k ')' rest ha (.inr rfl) (by omega)
        show params (k + 1) (.word x.1.toList :: (annToks x.2 ++ .sym ')' :: rest)) = _
        rw [params]
        simp only [hn, if_true, this]
        rfl
    | cons y args =>
      cases k with
      | zero => simp at hk
      | succ k =>
        have e : joinToks ((x :: y :: args).map fun x => .word x.1.toList :: annToks x.2) =
          .word x.1.toList :: (annToks x.2 ++ .sym ',' :: joinToks ((y :: args).map fun x => .word x.1.toList :: annToks x.2)) := rfl
        rw [e] at hk ⊢
        simp only [List.length_cons, List.length_append] at hk
        have h1 := ih k rest (by simp) (fun z hz => h z (by simp [hz])) (by omega)
        have h2 := one x.2 k ',' (joinToks ((y :: args).map fun x => .word x.1.toList :: annToks x.2) ++ .sym ')' :: rest) ha (.inl rfl) (by omega)
        simp only [List.cons_append, List.append_assoc]
        rw [params]
        simp only [hn, if_true, h2, h1, Option.map_some]
        rfl

theorem lines_run : ∀ (a cur r : List Char), '\n' ∉ a → lines cur (a ++ r) = lines (cur ++ a) r
  | [], cur, r, _ => by simp
  | c :: a, cur, r, h => by
    simp only [List.mem_cons, not_or] at h
    rw [List.cons_append, lines, if_neg (fun e => h.1 e.symm), lines_run a _ r h.2]
    simp

theorem lines_line {a : List Char} (h : '\n' ∉ a) (r : List Char) : lines [] (a ++ '\n' :: r) = a :: lines [] r := by
  rw [lines_run a [] _ h, lines]
  simp

theorem lines_last {a : List Char} (h : '\n' ∉ a) : lines [] a = [a] := by
  have := lines_run a [] [] h
  simpa [lines] using this

theorem lines_join : ∀ {ls : List (List Char)} (r : List Char), ls ≠ [] → (∀ l ∈ ls, '\n' ∉ l) →
    lines [] (join ['\n'] ls ++ '\n' :: r) = ls ++ lines [] r
  | [], _, h, _ => absurd rfl h
  | [l], r, _, h => lines_line (h l (by simp)) r
  | l :: l' :: ls, r, _, h => by
    have := lines_join (ls := l' :: ls) r (by simp) fun x hx => h x (by simp [hx])
    show lines [] ((l ++ ('\n' :: join ['\n'] (l' :: ls))) ++ '\n' :: r) = _
    rw [List.append_assoc, List.cons_append, lines_line (h l (by simp)), this]
    rfl

theorem lexes_end {w : List Char} {ts : List Token} (h : Lexes w ts) : lex [] w = ts := by
  have := h [] ends_nil
  simpa [lex, flush] using this

/-- A line of the body. -/
theorem stmt_assign {n : Name} (hn : ident n.toList = true) :
    stmt (lex [] ("  self.".toList ++ (n.toList ++ (" = ".toList ++ n.toList)))) = some (.assign "self" n n) := by
  have hself : ident "self".toList = true := by decide
  rw [show ∀ x : List Char, "  self.".toList ++ x = ' ' :: ' ' :: ("self".toList ++ '.' :: x) from fun _ => rfl,
    show ∀ x : List Char, " = ".toList ++ x = ' ' :: '=' :: ' ' :: x from fun _ => rfl,
    lex_space, lex_space, lexes_ident hself _ (ends_cons rfl), lex_sym rfl (by decide), lexes_ident hn _ (ends_cons rfl), lex_space,
    lex_sym rfl (by decide), lex_space, lexes_end (lexes_ident hn)]
  show (if ident "self".toList = true ∧ ident n.toList = true ∧ ident n.toList = true then _ else _) = _
  rw [if_pos ⟨hself, hn, hn⟩]
  simp

theorem indent_assign (x : List Char) : indent ("  self.".toList ++ x) = 2 := rfl

theorem block_body : ∀ (names : List Name), (∀ n ∈ names, ident n.toList = true) →
    block 2 (names.map (fun n => "  self.".toList ++ (n.toList ++ (" = ".toList ++ n.toList))) ++ ["  self.__post_init__()".toList]) =
      some (names.map (fun n => .assign "self" n n) ++ [.call "self" "__post_init__"])
  | [], _ => by decide
  | n :: names, h => by
    have ih := block_body names fun m hm => h m (by simp [hm])
    simp only [List.map_cons, List.cons_append]
    rw [block, if_pos (indent_assign _), stmt_assign (h n (by simp)), ih]

theorem header_init {args : List (Name × Ann)} {ts : List (List Char)} (ha : args ≠ []) (h : ∀ x ∈ args, ident x.1.toList = true ∧ Plain x.2)
    (hl : Lexes (join ", ".toList ts) (joinToks (args.map fun x => .word x.1.toList :: annToks x.2))) :
    header (lex [] (" def __init__(".toList ++ (join ", ".toList ts ++ ") -> None:".toList))) = some ("__init__".toList, args.map (·.1.toList)) := by
  have e : lex [] (" def __init__(".toList ++ (join ", ".toList ts ++ ") -> None:".toList)) =
      .word "def".toList :: .word "__init__".toList :: .sym '(' :: (joinToks (args.map fun x => .word x.1.toList :: annToks x.2) ++
        .sym ')' :: [.sym '-', .sym '>', .word "None".toList, .sym ':']) := by
    rw [show ∀ x : List Char, " def __init__(".toList ++ x = ' ' :: ("def".toList ++ ' ' :: ("__init__".toList ++ '(' :: x)) from fun _ => rfl,
      lex_space, lexes_word (w := "def".toList) (by decide) (by decide) _ (ends_cons rfl), lex_space,
      lexes_ident (w := "__init__".toList) (by decide) _ (ends_cons rfl), lex_sym rfl (by decide),
      show ") -> None:".toList = ')' :: " -> None:".toList from rfl, hl _ (ends_cons rfl),
      show lex [] (')' :: " -> None:".toList) = .sym ')' :: [.sym '-', .sym '>', .word "None".toList, .sym ':'] by decide]
    rfl
  rw [e]
  unfold header
  simp only
  rw [if_pos ⟨trivial, by decide⟩, params_items _ _ ha h (by simp only [List.length_cons, List.length_append]; omega)]
  simp only
  rw [if_pos (Or.inr trivial)]

/-- The text defines that function. -/
theorem read_init {args : List (Name × Ann)} (ha : args ≠ []) (h : ∀ x ∈ args, ident x.1.toList = true ∧ Plain x.2) (hn : (args.map (·.1)).Nodup) :
    ∃ t, initText args = .ok t ∧ read t = some ("__create_fn__", ⟨args.map (·.1),
      ((args.map (·.1)).filter (· != "self")).map (fun n => .assign "self" n n) ++ [.call "self" "__post_init__"]⟩) := by
  obtain ⟨ts, h1, h2, h3⟩ := argItems_lexes h
  refine ⟨_, by rw [initText, h1]; rfl, ?_⟩
  have hb : bodyLines (args.map (·.1)) ≠ [] := by simp [bodyLines]
  have hid : ∀ n ∈ (args.map (·.1)).filter (· != "self"), ident n.toList = true := by
    intro n hn
    obtain ⟨x, hx, rfl⟩ := List.mem_map.1 (List.mem_filter.1 hn).1
    exact (h x hx).1
  have hbl : ∀ l ∈ bodyLines (args.map (·.1)), '\n' ∉ l := by
    intro l hl
    simp only [bodyLines, List.mem_append, List.mem_map, List.mem_singleton] at hl
    rcases hl with ⟨n, hn, rfl⟩ | rfl
    · have := ident_line (hid n hn)
      simp only [List.mem_append, not_or]
      exact ⟨by decide, this, by decide, this⟩
    · decide
  have hl : lines [] ("def __create_fn__():\n".toList ++ ((" def __init__(".toList ++ (join ", ".toList ts ++ ") -> None:".toList)) ++
      ('\n' :: join ['\n'] (bodyLines (args.map (·.1)))) ++ ('\n' :: " return __init__".toList))) =
      "def __create_fn__():".toList :: (" def __init__(".toList ++ (join ", ".toList ts ++ ") -> None:".toList)) ::
        (bodyLines (args.map (·.1)) ++ [" return __init__".toList]) := by
    rw [show ∀ x : List Char, "def __create_fn__():\n".toList ++ x = "def __create_fn__():".toList ++ '\n' :: x from fun _ => rfl, lines_line (by decide),
      List.append_assoc, List.cons_append, lines_line (by
        simp only [List.mem_append, not_or]
        exact ⟨by decide, join_line (by decide) h3, by decide⟩), lines_join _ hb hbl, lines_last (by decide)]
  unfold Spec.Py.read
  rw [hl]
  simp only
  rw [header_init ha h h2, show header (lex [] "def __create_fn__():".toList) = some ("__create_fn__".toList, []) by decide]
  simp only [bodyLines, List.reverse_append, List.reverse_cons, List.reverse_nil, List.nil_append, List.cons_append]
  have hi : indent (" def __init__(".toList ++ (join ", ".toList ts ++ ") -> None:".toList)) = 1 := rfl
  have hd : (args.map (·.1.toList)).Nodup := by
    simp only [List.Nodup, List.pairwise_map] at hn ⊢
    exact hn.imp fun h e => h (String.toList_inj.1 e)
  rw [hi, if_pos ⟨by decide, by decide, by decide, hd, by decide, by decide⟩]
  have := block_body _ hid
  rw [show indent "  self.__post_init__()".toList = 2 by decide]
  simp only [List.reverse_reverse]
  rw [this]
  simp [Function.comp_def]

end GenText
end Verif
