import Verif.Ops
/-
The recursion limit: a larger one changes nothing but `RecursionError`.
-/
namespace Verif

/-- `x` stops with `RecursionError`, or does exactly what `y` does. -/
structure FuelLe (x y : M α) : Prop where
  run : ∀ st, (∃ st', x st = .err .recursionError st') ∨ x st = y st

theorem FuelLe.refl (x : M α) : FuelLe x x := ⟨fun _ => .inr rfl⟩

theorem FuelLe.bind {x y : M α} {f g : α → M β} (h : FuelLe x y) (k : ∀ a, FuelLe (f a) (g a)) :
    FuelLe (x >>= f) (y >>= g) := by
  constructor; intro st
  show (∃ st', M.bind x f st = _) ∨ M.bind x f st = M.bind y g st
  rcases h.run st with ⟨st', e⟩ | e
  · left; exact ⟨st', by simp [M.bind, e]⟩
  · simp only [M.bind, ← e]
    cases x st with
    | err e' s => right; rfl
    | ok a s => exact (k a).run s

theorem FuelLe.then {x : M α} {f g : α → M β} (k : ∀ a, FuelLe (f a) (g a)) : FuelLe (x >>= f) (x >>= g) :=
  FuelLe.bind (FuelLe.refl x) k

theorem FuelLe.bot {y : M α} : FuelLe (M.throw .recursionError) y := ⟨fun st => .inl ⟨st, rfl⟩⟩

/-- Compare two operations step by step. -/
macro "fuelle" : tactic => `(tactic| repeat' (first
  | intro _
  | with_reducible exact FuelLe.refl _
  | with_reducible assumption
  | with_reducible refine FuelLe.bind ?_ ?_))

theorem packLoop_fuel {p q : Ser → List Val → M Bytes} (h : ∀ s vs, FuelLe (p s vs) (q s vs)) (pre : Ser → M Ser) :
    ∀ ss vals, FuelLe (packLoop p pre ss vals) (packLoop q pre ss vals) := by
  intro ss
  induction ss with
  | nil => intro vals; exact FuelLe.refl _
  | cons s ss ih =>
    intro vals
    rw [packLoop, packLoop]
    exact FuelLe.then fun _ => FuelLe.bind (h _ _) fun _ => FuelLe.then fun _ =>
      FuelLe.bind (ih _) fun _ => FuelLe.refl _

theorem packItems_fuel {p q : Ser → List Val → M Bytes} (h : ∀ s vs, FuelLe (p s vs) (q s vs)) (item : Ser) :
    ∀ vals, FuelLe (packItems p item vals) (packItems q item vals) := by
  intro vals
  induction vals with
  | nil => exact FuelLe.refl _
  | cons v vs ih =>
    rw [packItems, packItems]
    exact FuelLe.bind (h _ _) fun _ => FuelLe.then fun _ => FuelLe.bind ih fun _ => FuelLe.refl _

theorem objPack_fuel (env : Env) {p q : Ser → List Val → M Bytes} (h : ∀ s vs, FuelLe (p s vs) (q s vs)) (v : Val) :
    FuelLe (objPack env p v) (objPack env q v) := by
  cases v with
  | obj cls bo attrs =>
    exact FuelLe.then fun _ => FuelLe.then fun _ => FuelLe.then fun _ => FuelLe.bind (h _ _) fun _ => FuelLe.refl _
  | _ => exact FuelLe.refl _

theorem pack_fuel (env : Env) : ∀ n s vs, FuelLe (pack env n s vs) (pack env (n + 1) s vs) := by
  intro n
  induction n with
  | zero => intro s vs; exact FuelLe.bot
  | succ n ih =>
    intro s vs
    cases s with
    | tuple id inner =>
      rcases vs with _ | ⟨v, _ | ⟨w, ws⟩⟩ <;> (rw [pack, pack] <;> try (intro _ h; cases h)) <;> fuelle
      exact ih _ _
    | structured id cls =>
      rcases vs with _ | ⟨v, _ | ⟨w, ws⟩⟩ <;> (rw [pack, pack] <;> try (intro _ h; cases h)) <;> fuelle
      exact objPack_fuel env ih _
    | _ =>
      rw [pack, pack]
      try simp only
      fuelle
      all_goals first
        | exact ih _ _
        | exact packItems_fuel ih _ _
        | exact packLoop_fuel ih _ _ _

theorem packIntoLoop_fuel {p q : Ser → Nat → List Val → M Unit} (h : ∀ s off vs, FuelLe (p s off vs) (q s off vs))
    (pre : Ser → M Ser) (off : Nat) :
    ∀ ss size vals, FuelLe (packIntoLoop p pre off size ss vals) (packIntoLoop q pre off size ss vals) := by
  intro ss
  induction ss with
  | nil => intro size vals; exact FuelLe.refl _
  | cons s ss ih =>
    intro size vals
    rw [packIntoLoop, packIntoLoop]
    exact FuelLe.then fun _ => FuelLe.bind (h _ _ _) fun _ => FuelLe.then fun _ => ih _ _

theorem packIntoItems_fuel {p q : Ser → Nat → List Val → M Unit} (h : ∀ s off vs, FuelLe (p s off vs) (q s off vs))
    (item : Ser) (off : Nat) :
    ∀ vals size, FuelLe (packIntoItems p item off size vals) (packIntoItems q item off size vals) := by
  intro vals
  induction vals with
  | nil => intro size; exact FuelLe.refl _
  | cons v vs ih =>
    intro size
    rw [packIntoItems, packIntoItems]
    exact FuelLe.bind (h _ _ _) fun _ => FuelLe.then fun _ => ih _

theorem objPackInto_fuel (env : Env) {p q : Ser → Nat → List Val → M Unit}
    (h : ∀ s off vs, FuelLe (p s off vs) (q s off vs)) (off : Nat) (v : Val) :
    FuelLe (objPackInto env p off v) (objPackInto env q off v) := by
  cases v with
  | obj cls bo attrs =>
    exact FuelLe.then fun _ => FuelLe.then fun _ => FuelLe.then fun _ => FuelLe.bind (h _ _ _) fun _ => FuelLe.refl _
  | _ => exact FuelLe.refl _

theorem packInto_fuel (env : Env) : ∀ n s off vs, FuelLe (packInto env n s off vs) (packInto env (n + 1) s off vs) := by
  intro n
  induction n with
  | zero => intro s off vs; exact FuelLe.bot
  | succ n ih =>
    intro s off vs
    cases s with
    | tuple id inner =>
      rcases vs with _ | ⟨v, _ | ⟨w, ws⟩⟩ <;> (rw [packInto, packInto] <;> try (intro _ h; cases h)) <;> fuelle
      exact ih _ _ _
    | structured id cls =>
      rcases vs with _ | ⟨v, _ | ⟨w, ws⟩⟩ <;> (rw [packInto, packInto] <;> try (intro _ h; cases h)) <;> fuelle
      exact objPackInto_fuel env ih _ _
    | _ =>
      rw [packInto, packInto]
      try simp only
      fuelle
      all_goals first
        | exact ih _ _ _
        | exact packIntoItems_fuel ih _ _ _ _
        | exact packIntoLoop_fuel ih _ _ _ _ _

theorem packWriteLoop_fuel {p q : Ser → List Val → M Unit} (h : ∀ s vs, FuelLe (p s vs) (q s vs)) (pre : Ser → M Ser) :
    ∀ ss size vals, FuelLe (packWriteLoop p pre size ss vals) (packWriteLoop q pre size ss vals) := by
  intro ss
  induction ss with
  | nil => intro size vals; exact FuelLe.refl _
  | cons s ss ih =>
    intro size vals
    rw [packWriteLoop, packWriteLoop]
    exact FuelLe.then fun _ => FuelLe.bind (h _ _) fun _ => FuelLe.then fun _ => ih _ _

theorem objPackWrite_fuel (env : Env) {p q : Ser → List Val → M Unit} (h : ∀ s vs, FuelLe (p s vs) (q s vs)) (v : Val) :
    FuelLe (objPackWrite env p v) (objPackWrite env q v) := by
  cases v with
  | obj cls bo attrs =>
    exact FuelLe.then fun _ => FuelLe.then fun _ => FuelLe.then fun _ => FuelLe.bind (h _ _) fun _ => FuelLe.refl _
  | _ => exact FuelLe.refl _

theorem packWrite_fuel (env : Env) : ∀ n s vs, FuelLe (packWrite env n s vs) (packWrite env (n + 1) s vs) := by
  intro n
  induction n with
  | zero => intro s vs; exact FuelLe.bot
  | succ n ih =>
    intro s vs
    cases s with
    | tuple id inner =>
      rcases vs with _ | ⟨v, _ | ⟨w, ws⟩⟩ <;> (rw [packWrite, packWrite] <;> try (intro _ h; cases h)) <;> fuelle
      exact ih _ _
    | structured id cls =>
      rcases vs with _ | ⟨v, _ | ⟨w, ws⟩⟩ <;> (rw [packWrite, packWrite] <;> try (intro _ h; cases h)) <;> fuelle
      exact objPackWrite_fuel env ih _
    | array id hdr item sl =>
      rw [packWrite, packWrite]
      exact FuelLe.bind (pack_fuel env (n + 1) _ _) fun _ => FuelLe.refl _
    | _ =>
      rw [packWrite, packWrite]
      try simp only
      fuelle
      all_goals first
        | exact ih _ _
        | exact packWriteLoop_fuel ih _ _ _ _

theorem unpackLoop_fuel {p q : Ser → Src → M (List Val)} (h : ∀ s src, FuelLe (p s src) (q s src)) (src : Src) :
    ∀ ss size, FuelLe (unpackLoop p src size ss) (unpackLoop q src size ss) := by
  intro ss
  induction ss with
  | nil => intro size; exact FuelLe.refl _
  | cons s ss ih =>
    intro size
    rw [unpackLoop, unpackLoop]
    exact FuelLe.bind (h _ _) fun _ => FuelLe.then fun _ => FuelLe.bind (ih _) fun _ => FuelLe.refl _

theorem unpackLoopSpec_fuel {p q : Ser → Src → M (List Val)} (h : ∀ s src, FuelLe (p s src) (q s src)) (upd : Upd)
    (src : Src) : ∀ ss pt done size, FuelLe (unpackLoopSpec p upd src pt done size ss)
      (unpackLoopSpec q upd src pt done size ss) := by
  intro ss
  induction ss with
  | nil => intro pt done size; exact FuelLe.refl _
  | cons s ss ih =>
    intro pt done size
    rw [unpackLoopSpec, unpackLoopSpec]
    exact FuelLe.then fun _ => FuelLe.bind (h _ _) fun _ => FuelLe.then fun _ => FuelLe.then fun _ =>
      FuelLe.bind (ih _ _ _) fun _ => FuelLe.refl _

theorem unpackItems_fuel {p q : Ser → Src → M (List Val)} (h : ∀ s src, FuelLe (p s src) (q s src)) (item : Ser)
    (src : Src) : ∀ k size, FuelLe (unpackItems p item src size k) (unpackItems q item src size k) := by
  intro k
  induction k with
  | zero => intro size; exact FuelLe.refl _
  | succ k ih =>
    intro size
    rw [unpackItems, unpackItems]
    exact FuelLe.bind (h _ _) fun _ => FuelLe.then fun _ => FuelLe.bind (ih _) fun _ => FuelLe.refl _

theorem createUnpackWith_fuel (env : Env) {p q : Upd → Ser → Src → M (List Val)}
    (h : ∀ u s src, FuelLe (p u s src) (q u s src)) (cls : ClassId) (src : Src) :
    FuelLe (createUnpackWith env p cls src) (createUnpackWith env q cls src) := by
  simp only [createUnpackWith]
  cases env.classes cls with
  | none => exact FuelLe.refl _
  | some ci => exact FuelLe.then fun _ => FuelLe.bind (h _ _ _) fun _ => FuelLe.refl _

theorem unionUnpack_fuel {p q : Ser → Src → M (List Val)} (h : ∀ s src, FuelLe (p s src) (q s src)) (id : SerId)
    (s : Ser) (src : Src) : FuelLe (unionUnpack p id s src) (unionUnpack q id s src) := by
  simp only [unionUnpack]
  split
  · exact FuelLe.then fun _ => FuelLe.then fun _ => h _ _
  · exact FuelLe.bind (h _ _) fun _ => FuelLe.refl _

theorem unpack_fuel (env : Env) : ∀ n upd s src, FuelLe (unpack env n upd s src) (unpack env (n + 1) upd s src) := by
  intro n
  induction n with
  | zero => intro upd s src; exact FuelLe.bot
  | succ n ih =>
    intro upd s src
    cases s with
    | tuple id inner =>
      rw [unpack, unpack]
      refine FuelLe.then fun p => FuelLe.then fun inner' => ?_
      split
      · exact FuelLe.refl _
      · exact FuelLe.bind (ih _ _ _) fun _ => FuelLe.refl _
    | _ =>
      rw [unpack, unpack]
      try simp only
      fuelle
      all_goals first
        | exact ih _ _ _
        | exact unpackItems_fuel (ih _) _ _ _ _
        | exact unpackLoop_fuel (ih _) _ _ _
        | exact unpackLoopSpec_fuel (ih _) _ _ _ _ _ _
        | exact createUnpackWith_fuel env ih _ _
        | exact unionUnpack_fuel (ih _) _ _ _

theorem FuelLe.trans {x y z : M α} (h : FuelLe x y) (k : FuelLe y z) : FuelLe x z := by
  constructor; intro st
  rcases h.run st with h | h
  · exact .inl h
  · rw [h]; exact k.run st

theorem fuel_le {f : Nat → M α} (h : ∀ n, FuelLe (f n) (f (n + 1))) {n m : Nat} (hnm : n ≤ m) : FuelLe (f n) (f m) := by
  induction hnm with
  | refl => exact FuelLe.refl _
  | step _ ih => exact ih.trans (h _)

end Verif
