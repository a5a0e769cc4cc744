import Verif.Proofs.GenInit
import Verif.Proofs.InstanceLemmas
import Verif.Spec.PlainAnn
import Verif.Samples
/-
The source of the generated `__init__` is Python for the function that assigns its arguments, positional or by keyword (C59).
-/
namespace Verif
open Spec Spec.Py Gen Samples

theorem plain_of {a : Ann} (h : PlainAnn a) : GenText.Plain a := by
  unfold GenText.Plain
  split
  · rename_i hu
    intro s hs
    have := h.2 hu s
    unfold orElse at hs
    split at hs
    · cases hs; exact (this (.inl (by assumption))).resolve_left (by simp)
    · split at hs
      · cases hs; exact (this (.inr (by assumption))).resolve_left (by simp)
      · cases hs
  · exact h.1

/-- **C59** (the text).  For fields whose names are identifiers, and types whose names are, the text that `gen_init` executes is a Python
function that returns `__init__`, with the fields as parameters after `self`, assigning each and calling `__post_init__` at the end. -/
theorem C59_source {fields : List (Name × Ann)} (hi : ∀ f ∈ fields, ident f.1.toList = true) (hn : (fields.map (·.1)).Nodup)
    (hs : "self" ∉ fields.map (·.1)) (ha : ∀ f ∈ fields, PlainAnn f.2) :
    ∃ t, initText (initArgs fields) = .ok t ∧ Py.read t = some ("__create_fn__", initFn (fields.map (·.1))) := by
  have hns : ∀ f ∈ fields, (f.1 != "self") = true := by
    intro f hf
    simp only [bne_iff_ne]
    rintro e
    exact hs (List.mem_map.2 ⟨f, hf, e⟩)
  have e1 : fields.filter (fun f => f.1 != "self") = fields := List.filter_eq_self.2 hns
  have e2 : fields.find? (fun f => f.1 == "self") = Option.none := by
    rw [List.find?_eq_none]
    intro f hf
    have := hns f hf
    simpa using this
  have e3 : initArgs fields = ("self", { name := some "Self".toList }) :: fields := by simp [initArgs, e1, e2]
  have e4 : ((initArgs fields).map (·.1)).filter (· != "self") = fields.map (·.1) := by
    rw [e3]
    simp only [List.map_cons, bne_self_eq_false, Bool.false_eq_true, not_false_eq_true, List.filter_cons_of_neg]
    refine List.filter_eq_self.2 fun n hn => ?_
    obtain ⟨f, hf, rfl⟩ := List.mem_map.1 hn
    exact hns f hf
  obtain ⟨t, h1, h2⟩ := GenText.read_init (args := initArgs fields) (by rw [e3]; simp) (by
    rw [e3]
    simp only [List.mem_cons]
    rintro x (rfl | hx)
    · exact ⟨by decide, plain_of ⟨by simp, by
        rintro _ s (h | h)
        · cases h; exact .inr (by decide)
        · cases h⟩⟩
    · exact ⟨hi x hx, plain_of (ha x hx)⟩) (by rw [e3]; simpa using ⟨by simpa using hs, hn⟩)
  refine ⟨t, h1, ?_⟩
  rw [h2, e4, e3]
  rfl

/-- **C59** (a union with an argument without a name).  `gen_init` raises `AttributeError`, so the class cannot be defined. -/
theorem C59_union_unnamed {n : Name} {a : Ann} {rest : List (Name × Ann)} (h : none ∈ a.union) : initText ((n, a) :: rest) = .error .attributeError := by
  have : ∀ l : List (Option (List Char)), none ∈ l → unionNames l = .error .attributeError := by
    intro l
    induction l with
    | nil => simp
    | cons x l ih =>
      intro hm
      cases x with
      | none => rfl
      | some s => simp [unionNames, ih (by simpa using hm), bind, Except.bind]
  have hu : a.union.isEmpty = false := by
    cases hl : a.union with
    | nil => rw [hl] at h; cases h
    | cons => rfl
  simp [initText, argItems, argItem, hu, this _ h, bind, Except.bind]

theorem runAll_assigns {post : List (Name × Val) → Except Err (List (Name × Val))} {ls : List (Name × Var)} (hself : local? ls "self" = some .self) :
    ∀ (nvs : List (Name × Val)) (attrs : List (Name × Val)) (ss : List Stmt), (∀ x ∈ nvs, local? ls x.1 = some (.val x.2)) →
      runAll post ls attrs ((nvs.map (·.1)).map (fun n => .assign "self" n n) ++ ss) = runAll post ls (setAll attrs nvs) ss
  | [], _, _, _ => rfl
  | x :: nvs, attrs, ss, h => by
    simp only [List.map_cons, List.cons_append, runAll, Stmt.run, hself, h x (by simp), bind, Except.bind]
    exact runAll_assigns hself nvs _ ss fun y hy => h y (by simp [hy])

theorem local_zip {names : List Name} {vals : List Val} (hn : names.Nodup) (hs : "self" ∉ names) :
    ∀ x ∈ names.zip vals, local? (("self", .self) :: names.zip (vals.map .val)) x.1 = some (.val x.2) := by
  induction names generalizing vals with
  | nil => simp
  | cons n names ih =>
    cases vals with
    | nil => simp
    | cons v vals =>
      simp only [List.nodup_cons, List.mem_cons, not_or] at hn hs
      intro x hx
      simp only [List.zip_cons_cons, List.mem_cons] at hx
      rcases hx with rfl | hx
      · simp [local?, hs.1]
      · have h1 := ih hn.2 hs.2 x hx
        have hm : x.1 ∈ names := (List.of_mem_zip hx).1
        have h2 : n ≠ x.1 := fun e => hn.1 (e ▸ hm)
        have h3 : "self" ≠ x.1 := fun e => hs.2 (e ▸ hm)
        simp only [local?, List.map_cons, List.zip_cons_cons, List.find?_cons, beq_eq_false_iff_ne.2 h2, beq_eq_false_iff_ne.2 h3] at h1 ⊢
        exact h1

theorem find_key {α : Type} {p : Name} {x : α} : ∀ {kw : List (Name × α)}, (kw.map (·.1)).Nodup → (p, x) ∈ kw → kw.find? (·.1 == p) = some (p, x)
  | k :: kw, hn, hm => by
    simp only [List.map_cons, List.nodup_cons, List.mem_cons] at hn hm
    rcases hm with rfl | hm
    · simp
    · have : k.1 ≠ p := fun e => hn.1 (e ▸ List.mem_map.2 ⟨_, hm, rfl⟩)
      rw [List.find?_cons, beq_eq_false_iff_ne.2 this]
      exact find_key hn.2 hm

theorem bindKw_zip {kw : List (Name × Var)} (hn : (kw.map (·.1)).Nodup) : ∀ {ps : List Name} {xs : List Var}, ps.length = xs.length →
    (∀ y ∈ ps.zip xs, y ∈ kw) → bindKw kw ps = .ok (ps.zip xs)
  | [], [], _, _ => rfl
  | p :: ps, x :: xs, hl, h => by
    have h1 := bindKw_zip hn (ps := ps) (xs := xs) (by simpa using hl) fun y hy => h y (by simp [hy])
    simp [bindKw, find_key hn (h (p, x) (by simp)), h1, bind, Except.bind]

private theorem zip_drop {α β : Type} (as : List α) (bs : List β) (k : Nat) : (as.zip bs).drop k = (as.drop k).zip (bs.drop k) := by
  simp [List.zip, List.drop_zipWith]

/-- **C59** (calling).  However the values are divided among positional and keyword arguments, and in whatever order the keywords are,
`__init__` assigns every value to the field of its name: the same as with positional arguments only, which is `callClass` (C29). -/
theorem C59_call (cls : ClassId) (ci : ClassInfo) (hn : ci.attrs.Nodup) (hs : "self" ∉ ci.attrs) (hp : "__post_init__" ∉ ci.attrs)
    (vals : List Val) (hl : vals.length = ci.attrs.length) (k : Nat) (kw : List (Name × Val)) (hk : kw.Perm ((ci.attrs.zip vals).drop k)) :
    (initFn ci.attrs).create cls ci.postInit (vals.take k) kw = callClass cls ci vals := by
  have hkn : (kw.map (·.1)).Nodup := by
    refine (hk.map (·.1)).nodup_iff.2 ?_
    rw [List.map_drop, List.map_fst_zip (by omega)]
    exact (List.drop_sublist _ _).nodup hn
  have hb : (initFn ci.attrs).bind (.self :: (vals.take k).map .val) (kw.map fun x => (x.1, .val x.2)) =
      .ok (("self", .self) :: ci.attrs.zip (vals.map .val)) := by
    unfold Fn.bind
    rw [if_neg (by simp [initFn]; omega), if_neg]
    · rw [bindKw_zip (xs := (vals.drop k).map .val) (by simpa [Function.comp_def] using hkn)]
      · simp only [initFn, List.length_cons, List.length_map, List.drop_succ_cons, List.zip_cons_cons, bind, Except.bind, List.cons_append, Except.ok.injEq,
          List.cons.injEq, true_and, List.length_take]
        by_cases hkl : k ≤ vals.length
        · rw [Nat.min_eq_left hkl]
          conv => rhs; rw [← List.take_append_drop k ci.attrs, ← List.take_append_drop k vals, List.map_append]
          rw [List.zip_append (by simp; omega)]
          congr 1
          conv => lhs; rw [← List.take_append_drop k ci.attrs]
          have : (List.take k ci.attrs ++ List.drop k ci.attrs).zip ((vals.take k).map Var.val) =
              (List.take k ci.attrs ++ List.drop k ci.attrs).zip ((vals.take k).map Var.val ++ []) := by rw [List.append_nil]
          rw [this, List.zip_append (by simp; omega)]
          simp
        · rw [Nat.min_eq_right (by omega), List.take_of_length_le (by omega), List.drop_of_length_le (by omega)]
          simp
      · simp only [initFn, List.length_cons, List.length_map, List.drop_succ_cons, List.length_drop, List.length_take]
        omega
      · intro y hy
        have e : (initFn ci.attrs).params.drop (Var.self :: (vals.take k).map Var.val).length = ci.attrs.drop (min k vals.length) := by
          simp [initFn]
        rw [e, List.zip_map_right] at hy
        obtain ⟨z, hz, rfl⟩ := List.mem_map.1 hy
        refine List.mem_map.2 ⟨z, hk.mem_iff.2 ?_, rfl⟩
        rw [zip_drop]
        by_cases hkl : k ≤ vals.length
        · rwa [Nat.min_eq_left hkl] at hz
        · rw [List.drop_of_length_le (l := vals) (by omega)] at hz
          simp at hz
    · simp only [List.any_map, Function.comp_def, Bool.not_eq_true, List.any_eq_false, Bool.not_eq_true', Bool.not_eq_false]
      intro x hx
      have hx' := hk.mem_iff.1 hx
      rw [zip_drop] at hx'
      have hm := (List.of_mem_zip hx').1
      by_cases hkl : k ≤ vals.length
      · simpa [initFn, Nat.min_eq_left hkl] using hm
      · rw [List.drop_of_length_le (by omega)] at hm
        cases hm
  have hfst : (ci.attrs.zip vals).map (·.1) = ci.attrs := List.map_fst_zip (by omega)
  have hrun := runAll_assigns (post := ci.postInit) (ls := ("self", .self) :: ci.attrs.zip (vals.map .val)) (by simp [local?]) (ci.attrs.zip vals) []
    [.call "self" "__post_init__"] (local_zip hn hs)
  rw [hfst] at hrun
  unfold Fn.create
  rw [hb, callClass, if_neg (by simp [hl])]
  show (do .ok (.obj cls Option.none (← runAll ci.postInit _ [] (ci.attrs.map (fun n => Stmt.assign "self" n n) ++ _))) : Except Err Val) = _
  rw [hrun]
  have hno : getAttr? (setAll [] (ci.attrs.zip vals)) "__post_init__" = Option.none := by
    rw [getAttr_setAll_other _ _ (by rw [hfst]; exact hp)]
    rfl
  have e5 : runAll ci.postInit (("self", .self) :: ci.attrs.zip (vals.map .val)) (setAll [] (ci.attrs.zip vals)) [.call "self" "__post_init__"] =
      ci.postInit (setAll [] (ci.attrs.zip vals)) := by
    simp only [runAll, Stmt.run, show local? (("self", Var.self) :: ci.attrs.zip (vals.map .val)) "self" = some .self by simp [local?], hno, if_true, bind, Except.bind]
    cases ci.postInit (setAll [] (ci.attrs.zip vals)) <;> rfl
  rw [e5]
  rfl

/-- **C59** (wrong arguments).  Too many, unknown, repeated and missing arguments are a `TypeError`. -/
theorem C59_wrong_arguments (cls : ClassId) (names : List Name) (post : List (Name × Val) → Except Err (List (Name × Val))) (pos : List Val) (kw : List (Name × Val))
    (h : names.length < pos.length ∨ (∃ k ∈ kw, k.1 ∉ names.drop pos.length) ∨ ∃ n ∈ names.drop pos.length, n ∉ kw.map (·.1)) :
    (initFn names).create cls post pos kw = .error .typeError := by
  have hmiss : ∀ (kw : List (Name × Var)) (ps : List Name), (∃ n ∈ ps, n ∉ kw.map (·.1)) → bindKw kw ps = .error .typeError := by
    intro kw ps
    induction ps with
    | nil => simp
    | cons p ps ih =>
      rintro ⟨n, hn, hk⟩
      unfold bindKw
      split
      · rfl
      · rename_i a ha
        rcases List.mem_cons.1 hn with rfl | hn
        · have := List.find?_some ha
          exact absurd (List.mem_map.2 ⟨a, List.mem_of_find?_eq_some ha, by simpa using this⟩) hk
        · rw [ih ⟨n, hn, hk⟩]
          rfl
  have : (initFn names).bind (.self :: pos.map .val) (kw.map fun k => (k.1, .val k.2)) = .error .typeError := by
    have e : (initFn names).params.drop (Var.self :: pos.map Var.val).length = names.drop pos.length := by simp [initFn]
    unfold Fn.bind
    by_cases h1 : (initFn names).params.length < (Var.self :: pos.map Var.val).length
    · rw [if_pos h1]
    · rw [if_neg h1]
      by_cases h2 : ∃ k ∈ kw, k.1 ∉ names.drop pos.length
      · rw [if_pos]
        obtain ⟨k, hk, hd⟩ := h2
        rw [e, List.any_eq_true]
        exact ⟨(k.1, .val k.2), List.mem_map.2 ⟨k, hk, rfl⟩, by simpa using hd⟩
      · have h3 := (h.resolve_left (by simpa [initFn] using h1)).resolve_left h2
        rw [e, hmiss _ _ (by simpa [Function.comp_def] using h3)]
        split <;> rfl
  unfold Fn.create
  rw [this]
  rfl

set_option maxRecDepth 4000 in
/-- The text for fields `x: int`, `y: Union[int, list]` and `z_2` with an annotation without a name. -/
example : initText (initArgs [("x", { name := some "int".toList }), ("y", { union := [some "int".toList, some "list".toList] }), ("z_2", {})]) =
    .ok ("def __create_fn__():\n def __init__(self: Self, x: int, y: Union[int, list], z_2) -> None:\n" ++
      "  self.x = x\n  self.y = y\n  self.z_2 = z_2\n  self.__post_init__()\n return __init__").toList := by rfl

/-- `C59_source` applies to it. -/
example : ∃ t, initText (initArgs [("x", { name := some "int".toList }), ("y", { union := [some "int".toList, some "list".toList] })]) = .ok t ∧
    Py.read t = some ("__create_fn__", ⟨["self", "x", "y"], [.assign "self" "x" "x", .assign "self" "y" "y", .call "self" "__post_init__"]⟩) := by
  refine C59_source (by decide) (by decide) (by decide) ?_
  simp only [List.mem_cons, List.not_mem_nil, or_false]
  rintro f (rfl | rfl)
  · exact ⟨by simp, by rintro _ s (h | h) <;> cases h; exact .inr (by decide)⟩
  · refine ⟨?_, by simp⟩
    simp only [List.mem_cons, List.not_mem_nil, or_false]
    rintro x (rfl | rfl)
    · exact ⟨_, rfl, by decide⟩
    · exact ⟨_, rfl, by decide⟩

/-- `Point(3, y=4)`, `Point(y=4, x=3)`, `Point(3, x=4)` and `Point(3)`. -/
example : (initFn ["x", "y"]).create 0 .ok [.int 3] [("y", .int 4)] = .ok (point 3 4) ∧
    (initFn ["x", "y"]).create 0 .ok [] [("y", .int 4), ("x", .int 3)] = .ok (point 3 4) ∧
    (initFn ["x", "y"]).create 0 .ok [.int 3] [("x", .int 4)] = .error .typeError ∧
    (initFn ["x", "y"]).create 0 .ok [.int 3] [] = .error .typeError := ⟨by rfl, by rfl, by rfl, by rfl⟩

set_option maxRecDepth 4000 in
/-- **C59** is false for types whose names are not identifiers: the text for a field of a class made by `type('2D point', ...)` is no
Python, so a class with such a field cannot be defined. -/
theorem C59_name_is_false :
    initText (initArgs [("p", { name := some "2D point".toList })]) =
      .ok "def __create_fn__():\n def __init__(self: Self, p: 2D point) -> None:\n  self.p = p\n  self.__post_init__()\n return __init__".toList ∧
    Py.read "def __create_fn__():\n def __init__(self: Self, p: 2D point) -> None:\n  self.p = p\n  self.__post_init__()\n return __init__".toList =
      Option.none := ⟨by rfl, by decide +kernel⟩

set_option maxRecDepth 4000 in
/-- **C59** is false for a field `self`: it is no parameter of its own, and never assigned. -/
theorem C59_self_is_false :
    initText (initArgs [("x", {}), ("self", { name := some "int".toList })]) =
      .ok "def __create_fn__():\n def __init__(self: int, x) -> None:\n  self.x = x\n  self.__post_init__()\n return __init__".toList ∧
    Py.read "def __create_fn__():\n def __init__(self: int, x) -> None:\n  self.x = x\n  self.__post_init__()\n return __init__".toList =
      some ("__create_fn__", initFn ["x"]) := ⟨by rfl, by decide +kernel⟩

/-- **C59** is false for a field `__post_init__`: its value is called instead of the method. -/
theorem C59_post_init_is_false : (initFn ["__post_init__"]).create 0 .ok [.int 3] [] = .error .typeError := by rfl

end Verif
