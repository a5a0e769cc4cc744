import Verif.Proofs.Text
import Verif.Instances
import Verif.Samples
/-
C51: the texts of objects show their fields.
-/
namespace Verif
open Samples

variable {T : Text} {env : Env}

theorem joinComma_eq : ∀ ss : List PyStr, joinComma ss = (text ", ").intercalate ss
  | [] => rfl
  | [s] => by simp [joinComma, List.intercalate]
  | s :: t :: ss => by
    have ih := joinComma_eq (t :: ss)
    simp only [joinComma, ih, List.intercalate, List.intersperse, List.flatten_cons, List.append_assoc]

theorem showFields_eq {all : List (Name × Val)} {f : Name → PyStr} : ∀ (as : List Name),
    (∀ a ∈ as, ∃ v, getAttr? all a = some v ∧ v.fmt T env = .ok (f a)) →
    showFields (Val.fmtAttrs T env all) as = .ok (as.map (fun a => text a ++ text "=" ++ f a))
  | [], _ => rfl
  | a :: as, h => by
    obtain ⟨v, h1, h2⟩ := h a (by simp)
    simp only [showFields, fmtAttrs_find, h1, Option.map_some, h2]
    rw [showFields_eq as (fun b hb => h b (by simp [hb]))]
    rfl

/-- **C51** (`str`).  The text of an object is its class name and, in parentheses, every field in order as `name=value`. -/
theorem C51_str {cls : ClassId} {ci : ClassInfo} (hci : env.classes cls = some ci) {bo : Option ByteOrder} {attrs : List (Name × Val)} {f : Name → PyStr}
    (h : ∀ a ∈ ci.attrs, ∃ v, getAttr? attrs a = some v ∧ v.fmt T env = .ok (f a)) :
    (Val.obj cls bo attrs).fmt T env =
      .ok (T.className cls ++ text "(" ++ (text ", ").intercalate (ci.attrs.map (fun a => text a ++ text "=" ++ f a)) ++ text ")") := by
  simp only [Val.fmt, hci, showFields_eq ci.attrs h, ← joinComma_eq]
  rfl

/-- **C51** (`repr`).  `repr` is the same in angle brackets, and fails when `str` does. -/
theorem C51_repr (cls : ClassId) (bo : Option ByteOrder) (attrs : List (Name × Val)) :
    (Val.obj cls bo attrs).repr T env = ((Val.obj cls bo attrs).fmt T env).map (fun s => text "<" ++ s ++ text ">") := by
  simp only [Val.fmt, Val.repr]
  cases env.classes cls with
  | none => rfl
  | some ci =>
    simp only
    cases showFields (Val.fmtAttrs T env attrs) ci.attrs <;> rfl

theorem showFields_congr {as bs : List (Name × Val)} : ∀ (names : List Name), (∀ a ∈ names, getAttr? as a = getAttr? bs a) →
    showFields (Val.fmtAttrs T env as) names = showFields (Val.fmtAttrs T env bs) names
  | [], _ => rfl
  | a :: names, h => by
    simp only [showFields, fmtAttrs_find]
    rw [h a (by simp), showFields_congr names (fun b hb => h b (by simp [hb]))]

/-- **C51** (nothing else).  Only the class and its fields are shown: not the byte order of the instance, nor other attributes, nor the
order in which attributes were set. -/
theorem C51_fields_only {cls : ClassId} {ci : ClassInfo} (hci : env.classes cls = some ci) {bo bo' : Option ByteOrder} {as bs : List (Name × Val)}
    (h : ∀ a ∈ ci.attrs, getAttr? as a = getAttr? bs a) :
    (Val.obj cls bo as).fmt T env = (Val.obj cls bo' bs).fmt T env ∧ (Val.obj cls bo as).repr T env = (Val.obj cls bo' bs).repr T env := by
  rw [C51_repr, C51_repr]
  have : (Val.obj cls bo as).fmt T env = (Val.obj cls bo' bs).fmt T env := by
    simp only [Val.fmt, hci, showFields_congr ci.attrs h]
  exact ⟨this, by rw [this]⟩

/-- **C51** (missing fields).  If a field was deleted, and the fields before it can be shown, `str` raises `AttributeError`. -/
theorem C51_missing {cls : ClassId} {ci : ClassInfo} (hci : env.classes cls = some ci) {bo : Option ByteOrder} {attrs : List (Name × Val)}
    {before after : List Name} {a : Name} (hn : ci.attrs = before ++ a :: after) (ha : getAttr? attrs a = Option.none)
    (h : ∀ b ∈ before, ∃ v s, getAttr? attrs b = some v ∧ v.fmt T env = .ok s) :
    (Val.obj cls bo attrs).fmt T env = .error .attributeError := by
  have key : ∀ before : List Name, (∀ b ∈ before, ∃ v s, getAttr? attrs b = some v ∧ v.fmt T env = .ok s) →
      showFields (Val.fmtAttrs T env attrs) (before ++ a :: after) = .error .attributeError := by
    intro before
    induction before with
    | nil => intro _; simp only [List.nil_append, showFields, fmtAttrs_find, ha, Option.map_none]
    | cons b before ih =>
      intro h
      obtain ⟨v, s, h1, h2⟩ := h b (by simp)
      simp only [List.cons_append, showFields, fmtAttrs_find, h1, Option.map_some, h2]
      rw [ih (fun c hc => h c (by simp [hc]))]
      rfl
  simp only [Val.fmt, hci, hn, key before h]
  rfl

/-- **C51** (numbers).  The text of an `int` is its decimal numeral: a minus sign if it is negative, and then digits without leading
zeros that stand for its absolute value; unless the numeral has more digits than the limit, which is a `ValueError`. -/
theorem C51_decimal (i : Int) : ∃ ds : PyStr, ds.all isDigit = true ∧ undec ds = i.natAbs ∧ (ds.head? = some 48 → ds = [48]) ∧ ds ≠ [] ∧
    (Val.int i).fmt T env = if T.maxDigits.any (· < ds.length) then .error .valueError else .ok (if i < 0 then 45 :: ds else ds) :=
  ⟨decDigits (i.natAbs + 1) i.natAbs, decDigits_digits _ _, undec_decDigits _ _ (by omega), decDigits_zero _ _ (by omega), decDigits_ne_nil (by omega), rfl⟩

theorem readBody_body {shown : Nat → Bool} {q : Nat} (hq : q = 39 ∨ q = 34) : ∀ (s r : PyStr) (n : Nat), s.all (· < 2 ^ 32) = true → s.length < n →
    readBody q n (s.flatMap (escape shown q) ++ q :: r) = some (s, r)
  | [], r, n + 1, _, _ => by simp [readBody]
  | c :: s, r, n + 1, h, hn => by
    simp only [List.all_cons, Bool.and_eq_true, decide_eq_true_eq] at h
    obtain ⟨x, y, e, hx⟩ := escape_head (shown := shown) (c := c) hq
    have hh : (escape shown q c ++ (s.flatMap (escape shown q) ++ q :: r)).head? ≠ some q := by
      rw [e]; simpa using hx
    rw [List.flatMap_cons, List.append_assoc]
    unfold readBody
    rw [if_neg hh, unescape_escape hq h.1]
    simp only [Option.bind_eq_bind, Option.bind_some]
    rw [readBody_body hq s r n h.2 (by simpa using hn)]
    rfl

theorem length_flatMap_escape {shown : Nat → Bool} {q : Nat} (hq : q = 39 ∨ q = 34) : ∀ s : PyStr, s.length ≤ (s.flatMap (escape shown q)).length
  | [] => Nat.le_refl _
  | c :: s => by
    obtain ⟨x, y, e, _⟩ := escape_head (shown := shown) (c := c) hq
    have := length_flatMap_escape hq s (shown := shown)
    rw [List.flatMap_cons, e, List.length_append, List.length_cons, List.length_cons]
    omega

/-- **C51** (texts and bytes in lists and tuples).  They are shown as literals: reading the literal gives the value back. -/
theorem C51_literal {shown : Nat → Bool} {s : PyStr} (h : s.all (· < 2 ^ 32) = true) (r : PyStr) : readLiteral (quoted shown s ++ r) = some (s, r) := by
  have hq := quoteFor_cases s
  show (if quoteFor s = 39 ∨ quoteFor s = 34 then readBody (quoteFor s) (((s.flatMap (escape shown (quoteFor s)) ++ [quoteFor s]) ++ r).length + 1)
    ((s.flatMap (escape shown (quoteFor s)) ++ [quoteFor s]) ++ r) else none) = _
  rw [if_pos hq, List.append_assoc]
  refine readBody_body hq s r _ h ?_
  have := length_flatMap_escape hq s (shown := shown)
  rw [List.length_append]
  omega

/-- **C51** (quotes).  A literal is between double quotes if there are single quotes in the text and no double quotes, and else between
single quotes. -/
theorem C51_quotes (shown : Nat → Bool) (s : PyStr) :
    (quoted shown s).head? = some (if 39 ∈ s ∧ 34 ∉ s then 34 else 39) ∧ (quoted shown s).getLast? = (quoted shown s).head? := by
  have : quoteFor s = if 39 ∈ s ∧ 34 ∉ s then 34 else 39 := by simp only [quoteFor, List.contains_iff_mem]
  exact ⟨by rw [← this]; rfl, by
    show (quoteFor s :: (s.flatMap (escape shown (quoteFor s)) ++ [quoteFor s])).getLast? = some (quoteFor s)
    rw [← List.cons_append, List.getLast?_append]; rfl⟩

example : quoted (fun _ => false) (text "it's") = text "\"it's\"" ∧ quoted (fun _ => false) (text "it's #1") = text "\"it's #1\"" ∧
    quoted (fun _ => false) (text "\"it's\"") = text "'\"it\\'s\"'" ∧ quoted (fun _ => false) (text "a") = text "'a'" := ⟨by rfl, by rfl, by rfl, by rfl⟩

theorem C51_bytes (b : Bytes) : ∃ lit, (Val.bytes b).fmt T env = .ok (text "b" ++ lit) ∧ (Val.bytes b).repr T env = .ok (text "b" ++ lit) ∧
    lit.all (fun c => decide (32 ≤ c ∧ c < 127)) = true ∧ readLiteral lit = some (b.map UInt8.toNat, []) := by
  refine ⟨quoted (fun _ => false) (b.map UInt8.toNat), rfl, rfl, ?_, ?_⟩
  · exact quoted_ascii _ (by intro x hx; obtain ⟨y, _, rfl⟩ := List.mem_map.1 hx; exact y.toNat_lt)
  · have := C51_literal (shown := fun _ => false) (s := b.map UInt8.toNat) (by
      simp only [List.all_map, List.all_eq_true, Function.comp, decide_eq_true_eq]
      intro x _; have := x.toNat_lt; omega) []
    rwa [List.append_nil] at this

theorem reprList_eq {f : Val → PyStr} : ∀ (vs : List Val), (∀ v ∈ vs, v.repr T env = .ok (f v)) → Val.reprList T env vs = .ok (vs.map f)
  | [], _ => rfl
  | v :: vs, h => by
    simp only [Val.reprList, h v (by simp), reprList_eq vs (fun w hw => h w (by simp [hw]))]
    rfl

/-- **C51** (sequences).  Lists and tuples show the `repr` of every item, in order. -/
theorem C51_sequence {vs : List Val} {f : Val → PyStr} (h : ∀ v ∈ vs, v.repr T env = .ok (f v)) :
    (Val.list vs).fmt T env = .ok (text "[" ++ (text ", ").intercalate (vs.map f) ++ text "]") ∧
    (Val.tup vs).fmt T env = .ok (text "(" ++ (text ", ").intercalate (vs.map f) ++ text (if vs.length = 1 then ",)" else ")")) ∧
    (Val.list vs).repr T env = (Val.list vs).fmt T env ∧ (Val.tup vs).repr T env = (Val.tup vs).fmt T env := by
  simp only [Val.fmt, Val.repr, reprList_eq vs h, ← joinComma_eq]
  simp only [bind, Except.bind, List.length_map, and_self]

mutual
theorem fmt_total (hd : T.maxDigits = Option.none) : ∀ v : Val, v.legible env = true → (∃ s, v.fmt T env = .ok s) ∧ ∃ s, v.repr T env = .ok s
  | .none, _ => ⟨⟨_, rfl⟩, ⟨_, rfl⟩⟩
  | .int i, _ => by
    have : ∃ s, intStr T i = .ok s := by
      unfold intStr
      rw [hd]
      exact ⟨_, rfl⟩
    exact ⟨this, this⟩
  | .bool b, _ => ⟨⟨_, rfl⟩, ⟨_, rfl⟩⟩
  | .float f, h => by simp [Val.legible] at h
  | .bytes b, _ => ⟨⟨_, rfl⟩, ⟨_, rfl⟩⟩
  | .str x, _ => ⟨⟨_, rfl⟩, ⟨_, rfl⟩⟩
  | .list vs, h => by
    simp only [Val.legible] at h
    obtain ⟨ss, e⟩ := reprList_total hd vs h
    simp only [Val.fmt, Val.repr, e]
    exact ⟨⟨_, rfl⟩, ⟨_, rfl⟩⟩
  | .tup vs, h => by
    simp only [Val.legible] at h
    obtain ⟨ss, e⟩ := reprList_total hd vs h
    simp only [Val.fmt, Val.repr, e]
    exact ⟨⟨_, rfl⟩, ⟨_, rfl⟩⟩
  | .obj c bo as, h => by
    simp only [Val.legible, Bool.and_eq_true] at h
    have ht := attrs_total hd as h.2
    have key : ∃ s, (Val.obj c bo as).fmt T env = .ok s := by
      simp only [Val.fmt]
      cases hc : env.classes c with
      | none => rw [hc] at h; simp at h
      | some ci =>
        rw [hc] at h
        have e := eq_of_beq h.1.2
        simp only
        have : ∀ names : List Name, (∀ a ∈ names, a ∈ as.map Prod.fst) → ∃ ss, showFields (Val.fmtAttrs T env as) names = .ok ss := by
          intro names
          induction names with
          | nil => intro _; exact ⟨_, rfl⟩
          | cons a names ih =>
            intro hn
            obtain ⟨ss, e1⟩ := ih (fun b hb => hn b (by simp [hb]))
            obtain ⟨v, s, e2, e3⟩ := ht a (hn a (by simp))
            simp only [showFields, fmtAttrs_find, e2, Option.map_some, e3, e1]
            exact ⟨_, rfl⟩
        obtain ⟨ss, e1⟩ := this ci.attrs (by rw [e]; exact fun _ h => h)
        rw [e1]
        exact ⟨_, rfl⟩
    refine ⟨key, ?_⟩
    obtain ⟨s, e⟩ := key
    rw [C51_repr, e]
    exact ⟨_, rfl⟩
  | .custom t v, h => by simp [Val.legible] at h
  | .gen, h => by simp [Val.legible] at h
theorem reprList_total (hd : T.maxDigits = Option.none) : ∀ vs : List Val, Val.legibleList env vs = true → ∃ ss, Val.reprList T env vs = .ok ss
  | [], _ => ⟨_, rfl⟩
  | v :: vs, h => by
    simp only [Val.legibleList, Bool.and_eq_true] at h
    obtain ⟨_, s, e1⟩ := fmt_total hd v h.1
    obtain ⟨ss, e2⟩ := reprList_total hd vs h.2
    simp only [Val.reprList, e1, e2]
    exact ⟨_, rfl⟩
theorem attrs_total (hd : T.maxDigits = Option.none) : ∀ as : List (Name × Val), Val.legibleAttrs env as = true →
    ∀ a ∈ as.map Prod.fst, ∃ v s, getAttr? as a = some v ∧ v.fmt T env = .ok s
  | [], _ => by intro a ha; simp at ha
  | (b, w) :: as, h => by
    simp only [Val.legibleAttrs, Bool.and_eq_true] at h
    obtain ⟨⟨s, e1⟩, _⟩ := fmt_total hd w h.1.1
    have ih := attrs_total hd as h.2
    intro a ha
    by_cases hab : b == a
    · refine ⟨w, s, ?_, e1⟩
      simp [getAttr?, hab]
    · have ha' : a ∈ as.map Prod.fst := by
        simp only [List.map_cons, List.mem_cons] at ha
        rcases ha with rfl | ha
        · simp at hab
        · exact ha
      obtain ⟨v, t, e2, e3⟩ := ih a ha'
      refine ⟨v, t, ?_, e3⟩
      simpa [getAttr?, List.find?_cons, hab] using e2
end

/-- **C51** (never fails, partial).  Without a limit of digits (`sys.set_int_max_str_digits(0)`) `str` and `repr` succeed for all objects that
have their fields, as long as there are no values of user types. -/
theorem C51_total_partial (hd : T.maxDigits = Option.none) {v : Val} (h : v.legible env = true) :
    (∃ s, v.fmt T env = .ok s) ∧ ∃ s, v.repr T env = .ok s := fmt_total hd v h

/-- **C51** (telling apart, partial).  Two objects with the same text are the same: the same class and the same values of the same types in all
fields, at every depth.  Excluded are fields that hold texts (`C51_full_is_false`; texts inside lists and tuples are fine), floats, values
of user types, and other byte orders of instances (which are not shown).  Class names must be different. -/
theorem C51_injective_partial (hT : T.named) (hn : ∀ c ci, env.classes c = some ci → ci.attrs.Nodup) {v w : Val} (hv : v.legible env = true)
    (hw : w.legible env = true) (h1 : ∀ x, v ≠ .str x) (h2 : ∀ x, w ≠ .str x) {s : PyStr} (hs : v.fmt T env = .ok s) (ht : w.fmt T env = .ok s) : v = w :=
  (fmt_inj hT hn v w s s [] [] hv hw h1 h2 hs ht (by simp [Delim]) (by simp [Delim]) rfl).1

theorem C51_repr_injective_partial (hT : T.named) (hn : ∀ c ci, env.classes c = some ci → ci.attrs.Nodup) {v w : Val} (hv : v.legible env = true)
    (hw : w.legible env = true) {s : PyStr} (hs : v.repr T env = .ok s) (ht : w.repr T env = .ok s) : v = w :=
  (repr_inj hT hn v w s s [] [] hv hw hs ht (by simp [Delim]) (by simp [Delim]) rfl).1

/-! ### Concrete cases -/

/-- CPython's defaults, and the class names of the samples. -/
def sampleText : Text where
  className c := text (match c with
    | 0 => "Point" | 1 => "Msg" | 2 => "Tree" | 3 => "Blob" | 4 => "Opt" | 5 => "Names" | _ => "Alt")
  printable _ := true
  floatRepr _ := text "0.0"
  userStr _ := .error .typeError
  userRepr _ := .error .typeError
  maxDigits := some 4300

example : (msg 7 [104, 105, 39, 0, 255] [point 1 (-2), point 300 4]).fmt sampleText Samples.env =
    .ok (text "Msg(tag=7, name=b\"hi'\\x00\\xff\", points=[<Point(x=1, y=-2)>, <Point(x=300, y=4)>])") := by rfl
example : (tree 1 [tree 2 []]).repr sampleText Samples.env = .ok (text "<Tree(val=1, kids=[<Tree(val=2, kids=[])>])>") := by rfl
example : (Val.tup [.int 1]).repr sampleText Samples.env = .ok (text "(1,)") := by rfl
example : (Val.list [.str (text "it's"), .str (text "a\n\"b"), .bool true, .none]).fmt sampleText Samples.env =
    .ok (text "[\"it's\", 'a\\n\"b', True, None]") := by rfl
example : (opt (.str (text "a"))).fmt sampleText Samples.env = .ok (text "Opt(x=a)") := by rfl
example : (Val.obj 0 Option.none [("x", .int 1)]).fmt sampleText Samples.env = .error .attributeError := by rfl
example : ¬ (point 1 2).fmt sampleText Samples.env = (point 1 3).fmt sampleText Samples.env := by
  intro h
  have : text "Point(x=1, y=2)" = text "Point(x=1, y=3)" := Except.ok.inj h
  revert this; decide
example : (msg 7 [1] [point 1 2]).legible Samples.env = true := by rfl
/-- The conditions of `C51_injective_partial` can be met. -/
example : ∃ T : Text, T.named ∧ T.maxDigits = Option.none :=
  ⟨{ sampleText with className := fun c => 67 :: List.replicate c 67, maxDigits := Option.none },
    ⟨fun c => ⟨by simp, by simp [identChar, List.all_replicate], by simp⟩, fun c d h => by simpa using congrArg List.length h⟩, rfl⟩

/-- **C51** is false for fields that hold texts: `Point('1', '2, y=3')` and `Point('1, y=2', '3')` look the same, and so does `Point(1, ..)`. -/
theorem C51_full_is_false : ∃ (v w : Val) (s : PyStr), v ≠ w ∧ v.fmt sampleText Samples.env = .ok s ∧ w.fmt sampleText Samples.env = .ok s ∧
    (∃ a b, v = .obj 0 Option.none [("x", a), ("y", b)]) ∧ ∃ a b, w = .obj 0 Option.none [("x", a), ("y", b)] :=
  ⟨.obj 0 Option.none [("x", .str (text "1")), ("y", .str (text "2, y=3"))], .obj 0 Option.none [("x", .str (text "1, y=2")), ("y", .str (text "3"))],
    text "Point(x=1, y=2, y=3)", by intro h; injection h with _ _ h; injection h with h _; injection h with _ h; injection h with h; revert h; decide,
    rfl, rfl, ⟨_, _, rfl⟩, ⟨_, _, rfl⟩⟩

/-- A number and its numeral look the same. -/
theorem C51_type_is_false : ∃ (v w : Val) (s : PyStr), v ≠ w ∧ v.fmt sampleText Samples.env = .ok s ∧ w.fmt sampleText Samples.env = .ok s :=
  ⟨opt (.int 1), opt (.str (text "1")), text "Opt(x=1)", (fun h => by injection h with _ _ h; injection h with h _; injection h with _ h; cases h), rfl, rfl⟩

/-- Equal objects can have different texts: `Opt(True) == Opt(1)`. -/
theorem C51_equal_is_false : ∃ v w : Val, pyEq Samples.env (fun _ _ => .ok false) 5 v w = .ok true ∧
    v.fmt sampleText Samples.env = .ok (text "Opt(x=True)") ∧ w.fmt sampleText Samples.env = .ok (text "Opt(x=1)") :=
  ⟨opt (.bool true), opt (.int 1), rfl, rfl, rfl⟩

/-- Objects can have values for which there is no text. -/
theorem C51_total_is_false : ∃ (T : Text) (v : Val), v.legible Samples.env = true ∧ v.fmt T Samples.env = .error .valueError :=
  ⟨{ sampleText with maxDigits := some 640 }, opt (.int (10 ^ 640)), rfl, by
    have h : (opt (.int (10 ^ 640))).fmt { sampleText with maxDigits := some 640 } Samples.env =
      (do let s ← intStr { sampleText with maxDigits := some 640 } (10 ^ 640)
          .ok (text "Opt" ++ text "(" ++ joinComma [text "x" ++ text "=" ++ s] ++ text ")")) := by
      simp only [opt, Val.fmt, Samples.env, classes, Val.fmtAttrs, showFields]
      cases intStr { sampleText with maxDigits := some 640 } (10 ^ 640) <;> rfl
    rw [h, intStr_long (m := 640) (by rw [Int.natAbs_pow]; exact Nat.le_refl _) rfl]
    rfl⟩

end Verif
