import Verif.Spec.Deprecate
/-
C54: deprecated functions.
-/
namespace Verif.Depr

theorem join_append (xs : List String) (a : String) : xs.foldl (· ++ ·) a = a ++ String.join xs := by
  have : ∀ (xs : List String) (a b : String), xs.foldl (· ++ ·) (a ++ b) = a ++ xs.foldl (· ++ ·) b := by
    intro xs
    induction xs with
    | nil => intro a b; rfl
    | cons x xs ih => intro a b; simp only [List.foldl_cons, String.append_assoc, ih]
  unfold String.join
  conv => lhs; rw [← String.append_empty (s := a)]
  exact this xs a ""

theorem join_cons (x : String) (xs : List String) : String.join (x :: xs) = x ++ String.join xs := by
  show ([x] ++ xs).foldl (· ++ ·) "" = _
  simp only [List.cons_append, List.nil_append, List.foldl_cons, String.empty_append]
  exact join_append xs x

theorem join_nil : String.join [] = "" := rfl

theorem stringify_named (a : Attrs) : Named a (stringify a) := by
  unfold stringify
  cases hm : a.module with
  | none => cases hq : a.qualname <;> exact .noModule hm
  | some m =>
    cases hq : a.qualname with
    | none => exact .noName hq
    | some q =>
      have := Named.full hm hq
      simpa only [join_cons, join_nil, String.append_empty, String.append_assoc] using this

theorem named_unique {a : Attrs} {x y : String} (h : Named a x) (h' : Named a y) : x = y := by
  cases h <;> cases h' <;> simp_all

theorem message_says (w : World) (o : ObjId) (a : Args) :
    Says issueUrl w o a (message (w.attrs o) a.version a.removal a.issue (a.useInstead.map w.attrs)) := by
  obtain ⟨v, r, x, i, u⟩ := a
  unfold message
  cases u with
  | none =>
    cases i with
    | none =>
      refine ⟨_, _, _, stringify_named _, .none, .none, ?_⟩
      simp only [Option.map_none, join_cons, join_nil, String.append_assoc, String.append_empty]
    | some i =>
      refine ⟨_, _, _, stringify_named _, .none, .link, ?_⟩
      simp only [Option.map_none, join_cons, join_nil, String.append_assoc, String.append_empty]
  | some u =>
    cases i with
    | none =>
      refine ⟨_, _, _, stringify_named _, .use (stringify_named _), .none, ?_⟩
      simp only [Option.map_some, join_cons, join_nil, String.append_assoc, String.append_empty]
    | some i =>
      refine ⟨_, _, _, stringify_named _, .use (stringify_named _), .link, ?_⟩
      simp only [Option.map_some, join_cons, join_nil, String.append_assoc, String.append_empty]

/-- The wrapper `o` of `fn`, made by the decorator `d` with the arguments `a`; `p` is the object named in its warnings. -/
structure Made (w : World) (d : Nat) (a : Args) (fn o p : ObjId) : Prop where
  old : o < w.next
  wraps : w.wraps o = some (d, fn)
  args : w.args d = a
  named : w.x d = some p

theorem made_step {w : World} {d : Nat} {a : Args} {fn o p : ObjId} (h : Made w d a fn o p) {op : Op} (hop : op.makes d = false) :
    Made (w.step op) d a fn o p := by
  obtain ⟨h1, h2, h3, h4⟩ := h
  cases op with
  | make e b =>
    have he : ¬ d = e := by
      intro he
      simp [Op.makes, he] at hop
    exact ⟨h1, h2, by simp only [World.step, makeDecorator, if_neg he, h3], by simp only [World.step, makeDecorator, if_neg he, h4]⟩
  | decorate e f =>
    refine ⟨Nat.lt_succ_of_lt h1, ?_, h3, ?_⟩
    · show (if o = w.next then _ else _) = _
      rw [if_neg (Nat.ne_of_lt h1)]
      exact h2
    · show (if d = e then _ else _) = _
      by_cases he : d = e
      · subst he
        rw [if_pos rfl, h4]
      · rw [if_neg he, h4]
  | set q b => exact ⟨h1, h2, h3, h4⟩
  | warn m => exact ⟨h1, h2, h3, h4⟩

theorem made_steps {d : Nat} {a : Args} {fn o p : ObjId} (ops : List Op) (hops : ∀ op ∈ ops, op.makes d = false) {w : World}
    (h : Made w d a fn o p) : Made (w.steps ops) d a fn o p := by
  induction ops generalizing w with
  | nil => exact h
  | cons op ops ih => exact ih (fun x hx => hops x (by simp [hx])) (made_step h (hops op (by simp)))

/-- Decorating with a decorator whose `x` was not given and that was not used before. -/
theorem made_first {w : World} {d : Nat} {a : Args} (ha : w.args d = a) (hx : w.x d = none) (fn : ObjId) :
    Made (decorate w d fn) d a fn w.next w.next :=
  ⟨Nat.lt_succ_self _, by simp [decorate], ha, by simp [decorate, hx]⟩

theorem made_later {w : World} {d : Nat} {a : Args} {p : ObjId} (ha : w.args d = a) (hx : w.x d = some p) (fn : ObjId) :
    Made (decorate w d fn) d a fn w.next p :=
  ⟨Nat.lt_succ_self _, by simp [decorate], ha, by simp [decorate, hx]⟩

theorem call_made {α β : Type} {w : World} {d : Nat} {a : Args} {fn o p : ObjId} (h : Made w d a fn o p)
    (run : ObjId → α → World → Outcome β × World) (strict : Warning → Bool) (n : Nat) (v : α) :
    ∃ m : Warning, Says issueUrl w p a m.msg ∧ m.stacklevel = 3 ∧
      call run strict (n + 1) o v w = if strict m then (.warned m, w) else call run strict n fn v { w with warnings := w.warnings ++ [m] } := by
  obtain ⟨h1, h2, h3, h4⟩ := h
  refine ⟨warnDeprecated (w.attrs p) a.version a.removal a.issue (a.useInstead.map w.attrs) 2, message_says w p a, rfl, ?_⟩
  simp only [call, h2, h3, h4, Option.map_some, Option.getD_some]

/-- **C54** (calls).  A function decorated with `@deprecated(...)`: whatever happens after that (other decorations, also by the same decorator, new
names for the function, other warnings), a call passes exactly one warning to `warnings.warn`, which names the function as it is called now, and is
attributed to the caller; then it is a call of the function itself, with the same arguments, result and effects.  If the filters make the warning an
exception, the function is not called and nothing is changed. -/
theorem C54_call_partial {α β : Type} {w : World} {d : Nat} {a : Args} (ha : w.args d = a) (hx : w.x d = none) (fn : ObjId)
    (ops : List Op) (hops : ∀ op ∈ ops, op.makes d = false) (run : ObjId → α → World → Outcome β × World) (strict : Warning → Bool)
    (n : Nat) (v : α) :
    let w' := (decorate w d fn).steps ops
    ∃ m : Warning, Says issueUrl w' w.next a m.msg ∧ m.stacklevel = 3 ∧
      (strict m = true → call run strict (n + 1) w.next v w' = (.warned m, w')) ∧
      (strict m = false → call run strict (n + 1) w.next v w' = call run strict n fn v { w' with warnings := w'.warnings ++ [m] }) := by
  intro w'
  obtain ⟨m, h1, h2, h3⟩ := call_made (made_steps ops hops (made_first ha hx fn)) run strict n v
  refine ⟨m, h1, h2, fun hs => ?_, fun hs => ?_⟩
  · rw [h3, if_pos hs]
  · rw [h3, if_neg (by simp [hs])]

/-- **C54** (an object named by the caller).  With `x=...` given, the warnings of all functions decorated are about that object. -/
theorem C54_given {α β : Type} {w : World} {d : Nat} {a : Args} {p : ObjId} (hx : a.x = some p) (fn : ObjId)
    (ops ops' : List Op) (hops : ∀ op ∈ ops ++ ops', op.makes d = false) (run : ObjId → α → World → Outcome β × World)
    (strict : Warning → Bool) (n : Nat) (v : α) :
    let w1 := (makeDecorator w d a).steps ops
    let w' := (decorate w1 d fn).steps ops'
    ∃ m : Warning, Says issueUrl w' p a m.msg ∧ m.stacklevel = 3 ∧
      (strict m = true → call run strict (n + 1) w1.next v w' = (.warned m, w')) ∧
      (strict m = false → call run strict (n + 1) w1.next v w' = call run strict n fn v { w' with warnings := w'.warnings ++ [m] }) := by
  intro w1 w'
  have h0 : w1.args d = a ∧ w1.x d = some p := by
    have key : ∀ (ops : List Op) (w : World), (∀ op ∈ ops, op.makes d = false) → w.args d = a → w.x d = some p →
        (w.steps ops).args d = a ∧ (w.steps ops).x d = some p := by
      intro ops
      induction ops with
      | nil => intro w _ h1 h2; exact ⟨h1, h2⟩
      | cons op ops ih =>
        intro w h h1 h2
        refine ih (w.step op) (fun x hx => h x (by simp [hx])) ?_ ?_
        · cases op with
          | make e b =>
            have he : ¬ d = e := by
              intro he
              have := h (.make e b) (by simp)
              simp [Op.makes, he] at this
            simp only [World.step, makeDecorator, if_neg he, h1]
          | _ => exact h1
        · cases op with
          | make e b =>
            have he : ¬ d = e := by
              intro he
              have := h (.make e b) (by simp)
              simp [Op.makes, he] at this
            simp only [World.step, makeDecorator, if_neg he, h2]
          | decorate e f =>
            show (if d = e then _ else _) = _
            by_cases he : d = e
            · subst he
              rw [if_pos rfl, h2]
            · rw [if_neg he, h2]
          | _ => exact h2
    exact key ops _ (fun op h => hops op (by simp [h])) (by simp [makeDecorator]) (by simp [makeDecorator, hx])
  obtain ⟨m, h1, h2, h3⟩ := call_made (made_steps ops' (fun op h => hops op (by simp [h])) (made_later h0.1 h0.2 fn)) run strict n v
  refine ⟨m, h1, h2, fun hs => ?_, fun hs => ?_⟩
  · rw [h3, if_pos hs]
  · rw [h3, if_neg (by simp [hs])]

/-- **C54** (the decorated function).  It has the module and the name of the function inside, and other objects are not touched. -/
theorem C54_names (w : World) (d : Nat) (fn : ObjId) :
    (∀ m, (w.attrs fn).module = some m → ((decorate w d fn).attrs w.next).module = some m) ∧
    (∀ q, (w.attrs fn).qualname = some q → ((decorate w d fn).attrs w.next).qualname = some q) ∧
    (∀ o, o ≠ w.next → (decorate w d fn).attrs o = w.attrs o) ∧ (decorate w d fn).warnings = w.warnings := by
  refine ⟨fun m h => ?_, fun q h => ?_, fun o h => ?_, rfl⟩
  · simp [decorate, wrapped, h]
  · simp [decorate, wrapped, h]
  · simp [decorate, h]

theorem rstrip_spec (doc : List Char) : ∃ ws, doc = rstrip doc ++ ws ∧ (∀ c ∈ ws, isSpace c = true) ∧
    ∀ c, (rstrip doc).getLast? = some c → isSpace c = false := by
  refine ⟨(doc.reverse.takeWhile isSpace).reverse, ?_, ?_, ?_⟩
  · unfold rstrip
    rw [← List.reverse_append, List.takeWhile_append_dropWhile, List.reverse_reverse]
  · intro c hc
    rw [List.mem_reverse] at hc
    have : ∀ l : List Char, c ∈ l.takeWhile isSpace → isSpace c = true := by
      intro l
      induction l with
      | nil => intro h; cases h
      | cons a l ih =>
        intro h
        simp only [List.takeWhile_cons] at h
        split at h
        · rcases List.mem_cons.1 h with rfl | h
          · assumption
          · exact ih h
        · cases h
    exact this _ hc
  · intro c hc
    unfold rstrip at hc
    rw [List.getLast?_reverse] at hc
    have : ∀ l : List Char, (l.dropWhile isSpace).head? = some c → isSpace c = false := by
      intro l
      induction l with
      | nil => intro h; cases h
      | cons a l ih =>
        intro h
        simp only [List.dropWhile_cons] at h
        split at h
        · exact ih h
        · cases h
          rename_i hn
          simpa using hn
    exact this _ hc

theorem isSpace_iff (c : Char) : isSpace c = true ↔ c.toNat ∈ spaces := by
  unfold isSpace spaces
  simp only [Bool.or_eq_true, Bool.and_eq_true, decide_eq_true_eq, beq_iff_eq, List.mem_cons, List.not_mem_nil, or_false]
  omega

theorem isSpace_not (c : Char) : isSpace c = false ↔ c.toNat ∉ spaces := by
  rw [← isSpace_iff]
  simp

/-- **C54** (documentation).  The documentation of the decorated function is that of the function inside, without the white space at its end,
followed by a notice; a function without documentation stays without. -/
theorem C54_doc (w : World) (d : Nat) (fn : ObjId) :
    ((w.attrs fn).doc = none → ((decorate w d fn).attrs w.next).doc = none) ∧
    (∀ doc, (w.attrs fn).doc = some doc → ∃ text ws lines, doc = text ++ ws ∧ (∀ c ∈ ws, c.toNat ∈ spaces) ∧
      (∀ c, text.getLast? = some c → c.toNat ∉ spaces) ∧ Lines issueUrl w (w.args d) lines ∧
      ((decorate w d fn).attrs w.next).doc = some (text ++
        (String.join ["\n\n .. deprecated:: ", (w.args d).version, "\n", String.join lines.flatten, "\n"]).toList)) := by
  refine ⟨fun h => by simp [decorate, wrapped, h], fun doc h => ?_⟩
  obtain ⟨ws, h1, h2, h3⟩ := rstrip_spec doc
  have h2 := fun c hc => (isSpace_iff c).1 (h2 c hc)
  have h3 := fun c hc => (isSpace_not c).1 (h3 c hc)
  have hd : ((decorate w d fn).attrs w.next).doc =
      some (newDoc doc (w.args d).version (w.args d).issue ((w.args d).useInstead.map w.attrs)) := by
    simp [decorate, wrapped, h]
  have hn : ("\n" : String).toList = ['\n'] := rfl
  rw [hd]
  cases hu : (w.args d).useInstead with
  | none =>
    cases hi : (w.args d).issue with
    | none =>
      refine ⟨_, ws, _, h1, h2, h3, .neither hu hi, ?_⟩
      simp only [newDoc, Option.map_none, List.flatten_nil, join_cons, join_nil, String.toList_append, List.append_assoc, hn,
        String.toList_empty, List.append_nil, List.nil_append]
    | some i =>
      refine ⟨_, ws, _, h1, h2, h3, .issue hu hi, ?_⟩
      simp [newDoc, String.toList_append, List.append_assoc, decimal]
  | some u =>
    cases hi : (w.args d).issue with
    | none =>
      refine ⟨_, ws, _, h1, h2, h3, .use hu (stringify_named _) hi, ?_⟩
      simp [newDoc, String.toList_append, List.append_assoc]
    | some i =>
      refine ⟨_, ws, _, h1, h2, h3, .both hu (stringify_named _) hi, ?_⟩
      simp [newDoc, String.toList_append, List.append_assoc, decimal]

/-- **C54** (later changes).  What becomes of an object is what the program last made of it; others keep their names, so the warnings about an
object are the same as long as nobody renames it. -/
theorem C54_later (ops : List Op) (w : World) (o : ObjId) (ho : o < w.next) :
    (w.steps ops).attrs o = (ops.reverse.findSome? (fun | .set p a => if p = o then some a else none | _ => none)).getD (w.attrs o) := by
  have next : ∀ (ops : List Op) (w : World), o < w.next → o < (w.steps ops).next := by
    intro ops
    induction ops with
    | nil => intro w h; exact h
    | cons op ops ih =>
      intro w h
      refine ih _ ?_
      cases op with
      | decorate d fn => exact Nat.lt_succ_of_lt h
      | make d a => exact h
      | set p a => exact h
      | warn m => exact h
  suffices H : ∀ (r : List Op), (w.steps r.reverse).attrs o =
      (r.findSome? (fun | .set p a => if p = o then some a else none | _ => none)).getD (w.attrs o) by
    have := H ops.reverse
    rwa [List.reverse_reverse] at this
  intro r
  induction r with
  | nil => rfl
  | cons op r ih =>
    have e : w.steps (op :: r).reverse = (w.steps r.reverse).step op := by
      unfold World.steps
      rw [List.reverse_cons, List.foldl_append]
      rfl
    rw [e, List.findSome?_cons]
    cases op with
    | make d a => exact ih
    | warn m => exact ih
    | decorate d fn =>
      have : o ≠ (w.steps r.reverse).next := Nat.ne_of_lt (next _ _ ho)
      show (if o = (w.steps r.reverse).next then _ else _) = _
      rw [if_neg this]
      exact ih
    | set p a =>
      show (if o = p then a else (w.steps r.reverse).attrs o) = _
      by_cases h : p = o
      · subst h
        simp
      · rw [if_neg fun e => h e.symm, ih]
        simp [h]

/-- A world with the functions `m.f` (number 0), `m.g` (number 1) and a callable without a name (number 2). -/
def start : World where
  attrs o := match o with
    | 0 => { module := some "m", qualname := some "f", doc := some "Doc. ".toList, text := "<function f>" }
    | 1 => { module := some "m", qualname := some "g", text := "<function g>" }
    | _ => { text := "partial" }
  next := 3
  args _ := ⟨"3.0", "4.0", none, none, none⟩
  x _ := none
  wraps _ := none
  warnings := []

/-- What functions do in the examples: return their number. -/
def number (o : ObjId) (_ : Unit) (w : World) : Outcome ObjId × World := (.done o, w)

example : (call number (fun _ => false) 5 3 () (decorate start 0 0)).2.warnings =
    [⟨"m.f is deprecated since structured-classes 3.0 and will be removed in structured-classes 4.0 with no replacement", 3⟩] := by decide

example : ((decorate start 0 0).attrs 3).doc = some "Doc.\n\n .. deprecated:: 3.0\n\n".toList := by decide

example : ((decorate start 0 0).steps [.set 1 { text := "new" }, .warn ⟨"", 0⟩]).attrs 0 = start.attrs 0 := C54_later _ _ _ (by decide)

example : (((decorate start 0 0).steps [.set 0 { text := "new" }, .warn ⟨"", 0⟩]).attrs 0).text = "new" := by rfl

/-- **C54** (negation, names): the functions decorated after the first one are named like the first one. -/
theorem C54_shared_is_false :
    ¬ ∀ (w : World) (d : Nat) (f g : ObjId), (w.args d).x = none → w.x d = none → f < w.next → g < w.next →
      let w' := decorate (decorate w d f) d g
      ∀ m ∈ (call number (fun _ => false) 2 (w.next + 1) () w').2.warnings.drop w'.warnings.length,
        Says issueUrl w' (w.next + 1) (w.args d) m.msg := by
  intro h
  have hw : (call number (fun _ => false) 2 (start.next + 1) () (decorate (decorate start 0 0) 0 1)).2.warnings.drop
      (decorate (decorate start 0 0) 0 1).warnings.length =
    [⟨"m.f is deprecated since structured-classes 3.0 and will be removed in structured-classes 4.0 with no replacement", 3⟩] := by decide
  have h := h start 0 0 1 rfl rfl (by decide) (by decide)
  simp only [] at h
  rw [hw] at h
  obtain ⟨name, use, link, h1, h2, h3, h4⟩ := h _ (List.mem_singleton.2 rfl)
  have hm : ((decorate (decorate start 0 0) 0 1).attrs (start.next + 1)).module = some "m" := by decide
  have hq : ((decorate (decorate start 0 0) 0 1).attrs (start.next + 1)).qualname = some "g" := by decide
  have e1 := named_unique h1 (.full hm hq)
  have h2 : Replacement _ none use := h2
  have h3 : Issue _ none link := h3
  cases h2
  cases h3
  subst e1
  revert h4
  decide

/-- **C54** (negation, callables without a name): they are named like a function of the library. -/
theorem C54_unnamed_is_false :
    ¬ ∀ (w : World) (d : Nat) (fn : ObjId) (name : String), Named (w.attrs fn) name → Named ((decorate w d fn).attrs w.next) name := by
  intro h
  have h1 := h start 0 2 "partial" (.noModule rfl)
  have hm : ((decorate start 0 2).attrs start.next).module = some "structured.utils" := by decide
  have hq : ((decorate start 0 2).attrs start.next).qualname = some "deprecated.<locals>.inner.<locals>.wrapper" := by decide
  have := named_unique h1 (.full hm hq)
  revert this
  decide

/-- **C54** (negation, links): the link to an issue is not one to the project's issues. -/
theorem C54_link_is_false (i : Int) : issueUrl i ≠ projectUrl i := by
  intro h
  have e1 : (issueUrl i).toList[44]? = some 'p' := by
    unfold issueUrl
    rw [String.toList_append, List.getElem?_append_left (by decide)]
    decide
  have e2 : (projectUrl i).toList[44]? = some '/' := by
    unfold projectUrl
    rw [join_cons, String.toList_append, List.getElem?_append_left (by decide)]
    decide
  rw [h, e2] at e1
  revert e1
  decide

end Verif.Depr
