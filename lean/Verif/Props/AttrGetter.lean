import Verif.Proofs.AttrGetter
/-
C83: the getter of a class returns the attributes of an object as a tuple, whatever their number.
-/
namespace Verif
open AttrGetter

/-- **C83** (what the getter is).  For every list of names without dots, of every length, there is a getter, and on every object it
returns a tuple with what the rest of the model uses, or raises what that raises. -/
theorem C83_getter (names : List Name) (h : ∀ a ∈ names, '.' ∉ a.toList) :
    ∃ g, attrgetter names = .ok g ∧ ∀ cls bo attrs, g (.obj cls bo attrs) = (getAttrs attrs names).map Got.tuple := by
  match names, h with
  | [], _ => exact ⟨_, rfl, fun _ _ _ => rfl⟩
  | [a], h =>
    refine ⟨_, rfl, fun cls bo attrs => ?_⟩
    have := followAll_plain cls bo attrs [a] h
    rw [← this]
    simp only [wrap, followAll, bind, Except.bind]
    cases follow a (.obj cls bo attrs) <;> rfl
  | a :: b :: as, h =>
    refine ⟨_, rfl, fun cls bo attrs => ?_⟩
    rw [← followAll_plain cls bo attrs _ h]
    simp only [bind, Except.bind]
    cases followAll (.obj cls bo attrs) (a :: b :: as) <;> rfl

/-- **C83** (values).  A call succeeds exactly if the object has all the attributes; then the tuple has one value for each name, in
the order of the names; otherwise AttributeError is raised. -/
theorem C83_values (names : List Name) (h : ∀ a ∈ names, '.' ∉ a.toList) (g : Val → Except Err Got) (hg : attrgetter names = .ok g)
    (cls : ClassId) (bo : Option ByteOrder) (attrs : List (Name × Val)) :
    ((∀ a ∈ names, (getAttr? attrs a).isSome) ∧ g (.obj cls bo attrs) = .ok (.tuple (names.filterMap (getAttr? attrs))) ∧
      (names.filterMap (getAttr? attrs)).length = names.length) ∨
    ((∃ a ∈ names, getAttr? attrs a = none) ∧ g (.obj cls bo attrs) = .error .attributeError) := by
  obtain ⟨g', hg', hv⟩ := C83_getter names h
  rw [hg] at hg'
  cases hg'
  rw [hv]
  clear hv hg h
  induction names with
  | nil => exact .inl ⟨by simp, rfl, rfl⟩
  | cons a as ih =>
    cases ha : getAttr? attrs a with
    | none => exact .inr ⟨⟨a, List.mem_cons_self, ha⟩, by simp [getAttrs, ha, Except.map]⟩
    | some v =>
      have e : getAttrs attrs (a :: as) = (getAttrs attrs as).map (v :: ·) := by
        rw [getAttrs, ha]
        show (getAttrs attrs as >>= fun vs => .ok (v :: vs)) = _
        cases getAttrs attrs as <;> rfl
      rw [e]
      rcases ih with ⟨h1, h2, h3⟩ | ⟨⟨b, hb, h1⟩, h2⟩
      · refine .inl ⟨?_, ?_, ?_⟩
        · intro b hb
          rcases List.mem_cons.1 hb with rfl | hb
          · simp [ha]
          · exact h1 b hb
        · cases hh : getAttrs attrs as with
          | error _ => rw [hh] at h2; cases h2
          | ok vs =>
            rw [hh] at h2
            simp only [Except.map, Except.ok.injEq, Got.tuple.injEq] at h2
            simp [Except.map, List.filterMap_cons, ha, h2]
        · simp [List.filterMap_cons, ha, h3]
      · refine .inr ⟨⟨b, List.mem_cons_of_mem _ hb, h1⟩, ?_⟩
        cases hh : getAttrs attrs as with
        | error _ => rw [hh] at h2; cases h2; rfl
        | ok vs => rw [hh] at h2; cases h2

/-- None, one and two names. -/
example : ∀ g0 g1 g2, attrgetter [] = .ok g0 → attrgetter ["x"] = .ok g1 → attrgetter ["x", "y"] = .ok g2 →
    g0 (.obj 1 none [("y", .int 2), ("x", .int 1)]) = .ok (.tuple []) ∧
    g1 (.obj 1 none [("y", .int 2), ("x", .int 1)]) = .ok (.tuple [.int 1]) ∧
    g2 (.obj 1 none [("y", .int 2), ("x", .int 1)]) = .ok (.tuple [.int 1, .int 2]) := by
  intro g0 g1 g2 h0 h1 h2
  cases h0; cases h1; cases h2
  exact ⟨by rfl, by rfl, by rfl⟩

/-- The names must be without dots: `operator.attrgetter` follows these, so a name with a dot is not looked up as it is. -/
theorem C83_dots_is_false : ∃ g, attrgetter ["p.x"] = .ok g ∧
    g (.obj 1 none [("p.x", .int 1), ("p", .obj 2 none [("x", .int 2)])]) = .ok (.tuple [.int 2]) ∧
    getAttrs [("p.x", .int 1), ("p", .obj 2 none [("x", .int 2)])] ["p.x"] = .ok [.int 1] :=
  ⟨_, rfl, by rfl, by rfl⟩

end Verif
