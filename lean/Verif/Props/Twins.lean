import Verif.Proofs.Twins
import Verif.Props.Patch
import Verif.Props.Instances
/-
**C77** Equal objects are packed to the same bytes.
-/
namespace Verif
open Spec Sem Samples Twinned

variable {ctx : HintCtx} {M : Nat} {env : Env} {docs : ClassId → Option ClassDoc}

/-- **C77** (the same values, partial).  Two values that are the same but that some numbers are booleans in the one and integers in the other, and but for
attributes that are no fields: packing them gives the same bytes or raises the same exception.  Missing, and false: deciders and encoders that tell such values
apart; and what is missing in C62. -/
theorem C77_twins_partial (h : Describes env ctx M docs) (hall : ∀ c, (env.classes c).isSome = true → (docs c).isSome = true)
    (hi : ∀ c d, docs c = some d → ∀ f ∈ d.fields, f.impartial docs d.attrs) {v w : Val} (ht : Spec.Twin docs v w) (hc : Calm env v.nodes) (hc' : Calm env w.nodes) :
    ∃ K, ∀ n ≥ K, ∀ st st', result (Obj.pack env n v st) = result (Obj.pack env n w st') := by
  let k := max v.nodes.length w.nodes.length
  obtain ⟨K1, h1⟩ := C62_partial h hall hc (k := k + 1) (by omega)
  obtain ⟨K2, h2⟩ := C62_partial h hall hc' (k := k + 1) (by omega)
  refine ⟨max K1 K2, fun n hn st st' => ?_⟩
  have h1 := h1 n (by omega) st
  have h2 := h2 n (by omega) st'
  rw [putObj_twin hi (k + 1) v w ht] at h1
  revert h1 h2
  cases putObj env.plat docs (k + 1) w with
  | ok b => intro h1 h2; exact Eq.trans h1 h2.symm
  | err e => intro h1 h2; exact Eq.trans h1 h2.symm
  | deep | odd => intro h1; exact h1.elim

/-- **C77** (equal objects, partial).  Two objects for which `==` gives `True`, with the same byte order: packing them gives the same bytes or raises the same
exception.  Missing, and false: floats that are whole numbers, instances of other classes with an `==` of their own, objects inside with a byte order of
their own; deciders and encoders that tell equal values apart; and what is missing in C62. -/
theorem C77_equal_partial (h : Describes env ctx M docs) (hall : ∀ c, (env.classes c).isSome = true → (docs c).isSome = true)
    (hi : ∀ c d, docs c = some d → ∀ f ∈ d.fields, f.impartial docs d.attrs) {ue : Val → Val → Except Err Bool} {m : Nat} {c c' : ClassId} {own : Option ByteOrder}
    {as bs : List (Name × Val)} (ha : attrsDefinite as) (hb : attrsDefinite bs) (he : pyEq env ue m (.obj c own as) (.obj c' own bs) = .ok true)
    (hc : Calm env (Val.obj c own as).nodes) (hc' : Calm env (Val.obj c' own bs).nodes) :
    ∃ K, ∀ n ≥ K, ∀ st st', result (Obj.pack env n (.obj c own as) st) = result (Obj.pack env n (.obj c' own bs) st') := by
  refine C77_twins_partial h hall hi ?_ hc hc'
  have hd : ∀ c ci, env.classes c = some ci → ∃ d, docs c = some d ∧ ci.attrs = d.attrs := by
    intro c ci hci
    have := hall c (by rw [hci]; rfl)
    obtain ⟨d, hd⟩ := Option.isSome_iff_exists.1 this
    obtain ⟨h1, o, h2, h3⟩ := h c d hd
    rw [hci] at h2
    cases h2
    exact ⟨d, hd, (documented_own h3 h1).1⟩
  cases m with
  | zero => simp only [pyEq] at he; cases he
  | succ m =>
    have he' : pyEq env ue (m + 1) (.obj c Option.none as) (.obj c' Option.none bs) = .ok true := by
      simpa only [pyEq, Val.isCustom, Bool.or_self, Bool.false_eq_true, if_false] using he
    have := eq_twin hd (m + 1) _ _ (by simp only [definite]; exact ⟨trivial, ha⟩) (by simp only [definite]; exact ⟨trivial, hb⟩) he'
    cases this with
    | same => exact .same _
    | number h => exact h.elim
    | obj h1 h2 h3 h4 => exact .obj h1 h2 h3 h4

/-- `Node` and `Item`. -/
def kinDocs : ClassId → Option ClassDoc
  | 60 => some itemDoc
  | 65 => some nodeDoc
  | _ => Option.none
def kinEnv : Env := ⟨plat, fun
  | 60 => some (madeBy [60] itemDecl).info
  | 65 => some (madeBy [65] (stmt nodeDoc)).info
  | _ => Option.none⟩

theorem kin_describes : Describes kinEnv hctx 4 kinDocs := by
  intro c d h
  unfold kinDocs at h
  split at h
  · cases h; exact ⟨by rfl, _, rfl, itemDocumented⟩
  · cases h; exact ⟨by rfl, _, rfl, nodeDocumented⟩
  · cases h

theorem kin_all : ∀ c, (kinEnv.classes c).isSome = true → (kinDocs c).isSome = true := by
  intro c h
  simp only [kinEnv] at h
  split at h
  · rfl
  · rfl
  · cases h

theorem kin_plain : Plain kinEnv := by
  intro c bo ci ser h
  by_cases h1 : c = 60
  · subst h1
    cases bo with
    | none => cases h; exact ⟨rfl, rfl⟩
    | some b => cases b <;> cases h <;> exact ⟨rfl, rfl⟩
  · by_cases h2 : c = 65
    · subst h2
      cases bo with
      | none => cases h; exact ⟨rfl, rfl⟩
      | some b => cases b <;> cases h <;> exact ⟨rfl, rfl⟩
    · simp only [objSer, kinEnv] at h
      cases h

theorem byKind_impartial {names : List Name} (h : "kind" ∈ names) : Impartial kinDocs names byKind := by
  intro o o' _ _ ha
  obtain ⟨v, w, h1, h2, h3⟩ := ha "kind" h
  simp only [byKind, getAttr_lookup, h1, h2]
  exact .inr ⟨v, w, rfl, rfl, h3⟩

theorem isTwo_impartial {names : List Name} (h : "kind" ∈ names) : Impartial kinDocs names isTwo := by
  intro o o' _ _ ha
  obtain ⟨v, w, h1, h2, h3⟩ := ha "kind" h
  simp only [isTwo, getAttr_lookup, h1, h2]
  left
  cases h3 with
  | same => rfl
  | number h3 => rcases sameNumber_cases h3 with ⟨b, rfl, rfl⟩ | ⟨b, rfl, rfl⟩ <;> cases b <;> rfl
  | list | tup | obj => rfl

theorem kin_impartial : ∀ c d, kinDocs c = some d → ∀ f ∈ d.fields, f.impartial kinDocs d.attrs := by
  intro c d h
  unfold kinDocs at h
  split at h
  · cases h; simp [itemDoc, Field.impartial, Fmt.impartial]
  · cases h
    intro f hf
    simp only [nodeDoc, List.mem_cons, List.not_mem_nil, or_false] at hf
    rcases hf with rfl | rfl | rfl | rfl | rfl
    · simp only [Field.impartial, Fmt.impartial]
    · simp only [Field.impartial]
    · simp only [Field.impartial, bodyFmt, Fmt.impartial, Fmt.allImpartial, and_true]
      exact byKind_impartial (by decide)
    · simp only [Field.impartial, Fmt.impartial, and_true]
      exact isTwo_impartial (by decide)
    · simp only [Field.impartial, Fmt.impartial]
  · cases h

/-- `Node(kind=1, body=1, more=9, kids=[Node(0, Item(...), 9, [])])`, with numbers of either kind and with attributes that are no fields. -/
def oneNode (a b c : Val) (extra : List (Name × Val)) : List (Name × Val) :=
  [("kind", a), ("body", b), ("more", .int 9), ("kids", .list [.obj 65 Option.none ([("kind", c),
    ("body", .obj 60 Option.none [("id", .int 5), ("level", b), ("name", .bytes [97])]), ("more", .int 9), ("kids", .list [])] ++ extra)])] ++ extra

/-- `C77_equal_partial` applies to them. -/
example : ∃ K, ∀ n ≥ K, ∀ st st', result (Obj.pack kinEnv n (.obj 65 Option.none (oneNode (.int 1) (.int 1) (.int 0) [])) st) =
    result (Obj.pack kinEnv n (.obj 65 Option.none (oneNode (.bool true) (.bool true) (.bool false) [("seen", .float 0x3FF8000000000000)])) st') :=
  C77_equal_partial kin_describes kin_all kin_impartial (ue := noUser) (m := 9)
    (by simp [oneNode, attrsDefinite, allDefinite, definite])
    (by
      have : ∀ i, floatEqInt 0x3FF8000000000000 i = false := by
        intro i
        simp [floatEqInt]
        omega
      simp [oneNode, attrsDefinite, allDefinite, definite, this])
    (by rfl) (calm_of_plain kin_plain _) (calm_of_plain kin_plain _)

/-- The bytes are these. -/
example : ∀ st, result (Obj.pack kinEnv 12 (.obj 65 Option.none (oneNode (.bool true) (.int 1) (.bool false) [])) st) =
      .ok [1, 0, 0, 1, 0, 1, 0, 0, 0, 5, 0, 1, 1, 97, 0] ∧
    result (Obj.pack kinEnv 12 (.obj 65 Option.none (oneNode (.int 1) (.bool true) (.int 0) [("seen", .none)])) st) =
      .ok [1, 0, 0, 1, 0, 1, 0, 0, 0, 5, 0, 1, 1, 97, 0] := fun st => ⟨by rfl, by rfl⟩

/-- **C77** is false for floats that are whole numbers: 1.0 is equal to 1 but no value for an integer field. -/
theorem C77_whole_is_false : ∃ p q : Val, pyEq kinEnv noUser 9 p q = .ok true ∧ ∀ st,
    result (Obj.pack kinEnv 12 p st) = .ok [5, 0, 1, 1, 97] ∧ result (Obj.pack kinEnv 12 q st) = .error .structError :=
  ⟨.obj 60 Option.none [("id", .int 5), ("level", .int 1), ("name", .bytes [97])],
    .obj 60 Option.none [("id", .int 5), ("level", .float 0x3FF0000000000000), ("name", .bytes [97])], by rfl, fun st => ⟨by rfl, by rfl⟩⟩

/-- **C77** is false for the two zeros: they are equal and have different bytes. -/
theorem C77_zeros_is_false : ∃ p q : Val, pyEq turnEnv noUser 9 p q = .ok true ∧ ∀ st,
    result (Obj.pack turnEnv 12 p st) = .ok [0, 0, 0, 0, 0, 0, 0, 0, 0, 0, 0, 0, 0, 0, 0, 0, 0, 0, 97, 98, 99] ∧
    result (Obj.pack turnEnv 12 q st) = .ok [0, 0, 0, 0, 0, 0, 0, 0, 0, 128, 0, 0, 0, 0, 0, 0, 0, 0, 97, 98, 99] :=
  ⟨.obj 70 Option.none [("kind", .int 0), ("ratio", .float 0), ("marks", .list [.int 0, .int 0]), ("name", .bytes [97, 98, 99])],
    .obj 70 Option.none [("kind", .int 0), ("ratio", .float 0x8000000000000000), ("marks", .list [.int 0, .int 0]), ("name", .bytes [97, 98, 99])],
    by rfl, fun st => ⟨by rfl, by rfl⟩⟩

/-- **C77** is false for objects with different byte orders of their own: they are equal. -/
theorem C77_byte_order_is_false : ∃ p q : Val, pyEq turnEnv noUser 9 p q = .ok true ∧ ∀ st, ∃ b b', result (Obj.pack turnEnv 12 p st) = .ok b ∧
    result (Obj.pack turnEnv 12 q st) = .ok b' ∧ b ≠ b' :=
  ⟨.obj 70 (some .le) turnAttrs, .obj 70 (some .be) turnAttrs, by rfl, fun st => ⟨_, _, by rfl, by rfl, by decide⟩⟩

/-- **C77** is false for instances of other classes, whose `==` may say what it likes. -/
theorem C77_user_is_false : ∃ p q : Val, pyEq kinEnv (fun _ _ => .ok true) 9 p q = .ok true ∧ ∀ st,
    result (Obj.pack kinEnv 12 p st) = .ok [5, 0, 1, 1, 97] ∧ result (Obj.pack kinEnv 12 q st) = .ok [5, 0, 2, 1, 97] :=
  ⟨.obj 60 Option.none [("id", .int 5), ("level", .custom 1 (.int 1)), ("name", .bytes [97])],
    .obj 60 Option.none [("id", .int 5), ("level", .custom 1 (.int 2)), ("name", .bytes [97])], by rfl, fun st => ⟨by rfl, by rfl⟩⟩

end Verif
