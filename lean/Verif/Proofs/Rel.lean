import Verif.Spec.Sem
import Verif.Proofs.StructLemmas
/-
Relating stateful operations to the functional reading.
-/
namespace Verif

/-- The operation started in `st` gives what the functional result says: the same exception (ending
in a state satisfying `F`), or a success related by `Φ`. -/
def Rel (F : St → Prop) (x : M α) (o : Out β) (st : St) (Φ : α → β → St → Prop) : Prop :=
  match o with
  | .stuck => True
  | .err e => ∃ st', x st = .err e st' ∧ F st'
  | .ok b => ∃ a st', x st = .ok a st' ∧ Φ a b st'

theorem Rel.bind {F : St → Prop} {x : M α} {o : Out β} {st : St} {Φ : α → β → St → Prop}
    {f : α → M γ} {g : β → Out δ} {Ψ : γ → δ → St → Prop}
    (h : Rel F x o st Φ) (hk : ∀ a b st', Φ a b st' → Rel F (f a) (g b) st' Ψ) :
    Rel F (x >>= f) (o >>= g) st Ψ := by
  cases o with
  | stuck => trivial
  | err e =>
    obtain ⟨st', h1, h2⟩ := h
    refine ⟨st', ?_, h2⟩
    show M.bind x f st = _
    simp [M.bind, h1]
  | ok b =>
    obtain ⟨a, st', h1, h2⟩ := h
    have := hk a b st' h2
    show Rel F (M.bind x f) (g b) st Ψ
    have e : M.bind x f st = f a st' := by simp [M.bind, h1]
    unfold Rel at this ⊢
    rw [e]
    exact this

theorem Rel.mono {F F' : St → Prop} {x : M α} {o : Out β} {st : St} {Φ Φ' : α → β → St → Prop}
    (h : Rel F x o st Φ) (hF : ∀ st', F st' → F' st') (hΦ : ∀ a b st', Φ a b st' → Φ' a b st') :
    Rel F' x o st Φ' := by
  cases o with
  | stuck => trivial
  | err e => obtain ⟨st', h1, h2⟩ := h; exact ⟨st', h1, hF _ h2⟩
  | ok b => obtain ⟨a, st', h1, h2⟩ := h; exact ⟨a, st', h1, hΦ _ _ _ h2⟩

/-- Like `mono`, remembering the functional result. -/
theorem Rel.conv {F F' : St → Prop} {x : M α} {o : Out β} {st : St} {Φ Φ' : α → β → St → Prop}
    (h : Rel F x o st Φ) (hF : ∀ e st', o = .err e → F st' → F' st')
    (hΦ : ∀ a b st', o = .ok b → Φ a b st' → Φ' a b st') : Rel F' x o st Φ' := by
  cases o with
  | stuck => trivial
  | err e => obtain ⟨st', h1, h2⟩ := h; exact ⟨st', h1, hF _ _ rfl h2⟩
  | ok b => obtain ⟨a, st', h1, h2⟩ := h; exact ⟨a, st', h1, hΦ _ _ _ rfl h2⟩

theorem ofE_err {x : Except Err α} {e : Err} (h : Out.ofE x = .err e) : x = .error e := by
  cases x with
  | error e' => cases h; rfl
  | ok a => cases h

theorem ofE_ok {x : Except Err α} {a : α} (h : Out.ofE x = .ok a) : x = .ok a := by
  cases x with
  | error e' => cases h
  | ok a => cases h; rfl

theorem Rel.lift {F : St → Prop} {e : Except Err α} {st : St} {Φ : α → α → St → Prop}
    (hF : F st) (hΦ : ∀ a, e = .ok a → Φ a a st) : Rel F (M.lift e) (.ofE e) st Φ := by
  cases e with
  | error e => exact ⟨st, rfl, hF⟩
  | ok a => exact ⟨a, st, rfl, hΦ a rfl⟩

theorem Rel.pure {F : St → Prop} {a : α} {b : β} {st : St} {Φ : α → β → St → Prop}
    (h : Φ a b st) : Rel F (Pure.pure a) (.ok b) st Φ := ⟨a, st, rfl, h⟩

theorem Rel.throw {F : St → Prop} {e : Err} {st : St} {Φ : α → β → St → Prop}
    (h : F st) : Rel F (M.throw e) (.err e) st Φ := ⟨st, rfl, h⟩

/-- A step of the operation alone that succeeds. -/
theorem Rel.step {F : St → Prop} {x : M α} {a : α} {st st' : St} {f : α → M γ} {o : Out δ}
    {Ψ : γ → δ → St → Prop} (hx : x st = .ok a st') (h : Rel F (f a) o st' Ψ) :
    Rel F (x >>= f) o st Ψ := by
  have e : (x >>= f) st = f a st' := by
    show M.bind x f st = _
    simp [M.bind, hx]
  unfold Rel at h ⊢
  rw [e]
  exact h

/-- A step of the functional reading alone that succeeds. -/
theorem Rel.stepR {F : St → Prop} {x : M α} {st : St} {o : Out β} {b : β} {g : β → Out δ}
    {Ψ : α → δ → St → Prop} (ho : o = .ok b) (h : Rel F x (g b) st Ψ) :
    Rel F x (o >>= g) st Ψ := by
  subst ho; exact h

/-- Nothing but serializer cells changed. -/
def Fr (st st' : St) : Prop := st'.buf = st.buf ∧ st'.io = st.io

theorem Fr.refl (st : St) : Fr st st := ⟨rfl, rfl⟩
theorem Fr.trans {a b c : St} (h : Fr a b) (k : Fr b c) : Fr a c :=
  ⟨k.1.trans h.1, k.2.trans h.2⟩

/-- Only the listed objects got another partial object. -/
def Keeps (touched : List SerId) (st st' : St) : Prop :=
  ∀ id, id ∉ touched → (st'.cells id).part = (st.cells id).part

theorem Keeps.refl (l : List SerId) (st : St) : Keeps l st st := fun _ _ => rfl
theorem Keeps.trans {l m : List SerId} {a b c : St} (h : Keeps l a b) (k : Keeps m b c) :
    Keeps (l ++ m) a c := by
  intro id hid
  simp only [List.mem_append, not_or] at hid
  rw [k id hid.2, h id hid.1]

/-- The state after `self.size = n`. -/
def St.withSize (st : St) (i : SerId) (n : Nat) : St :=
  { st with cells := fun j => if j = i then { st.cells j with size := n } else st.cells j }

/-- The state after `self._partial_object = p`. -/
def St.withPart (st : St) (i : SerId) (p : PObj) : St :=
  { st with cells := fun j => if j = i then { st.cells j with part := some p } else st.cells j }

theorem setSize_run (i : SerId) (n : Nat) (st : St) : setSize i n st = .ok () (st.withSize i n) := rfl
theorem setPart_run (i : SerId) (p : PObj) (st : St) : setPart i p st = .ok () (st.withPart i p) := rfl

theorem Fr.withSize (st : St) (i : SerId) (n : Nat) : Fr st (st.withSize i n) := ⟨rfl, rfl⟩
theorem Fr.withPart (st : St) (i : SerId) (p : PObj) : Fr st (st.withPart i p) := ⟨rfl, rfl⟩

theorem Keeps.withSize (st : St) (i : SerId) (n : Nat) : Keeps [] st (st.withSize i n) := by
  intro id _
  simp only [St.withSize]
  split <;> rfl

theorem Keeps.withPart (st : St) (i : SerId) (p : PObj) : Keeps [i] st (st.withPart i p) := by
  intro id hid
  simp only [List.mem_singleton] at hid
  simp [St.withPart, hid]

@[simp] theorem withSize_cell (st : St) (i : SerId) (n : Nat) : ((st.withSize i n).cells i).size = n := by
  simp [St.withSize]

@[simp] theorem withSize_part (st : St) (i j : SerId) (n : Nat) :
    ((st.withSize i n).cells j).part = (st.cells j).part := by
  simp only [St.withSize]; split <;> rfl

@[simp] theorem withPart_cell (st : St) (i : SerId) (p : PObj) : ((st.withPart i p).cells i).part = some p := by
  simp [St.withPart]

/-- `q` is the partial object that `s` remembers in `st` (no claim when `q` is not given). -/
def Primed (s : Ser) (q : Option PObj) (st : St) : Prop :=
  ∀ p, q = some p → ∃ id, s.keeper = some id ∧ (st.cells id).part = some p

theorem Primed.none (s : Ser) (st : St) : Primed s none st := by intro p h; cases h

theorem Primed.getPart {s : Ser} {p : PObj} {st : St} (h : Primed s (some p) st) {id : SerId}
    (hs : s.keeper = some id) : Verif.getPart id st = .ok p st := by
  obtain ⟨id', h1, h2⟩ := h p rfl
  rw [hs] at h1; cases h1
  simp [Verif.getPart, h2]

theorem Primed.keep {s : Ser} {q : Option PObj} {st st' : St} {l : List SerId} (h : Primed s q st)
    (hk : Keeps l st st') (hd : ∀ id, s.keeper = some id → id ∉ l) : Primed s q st' := by
  intro p hp
  obtain ⟨id, h1, h2⟩ := h p hp
  exact ⟨id, h1, (hk id (hd id h1)).trans h2⟩

/-- Reading `size` succeeds with this value. -/
def SizeIs (s : Ser) (n : Nat) (st : St) : Prop := s.sized = true → s.readSize st = .ok n st

theorem readSize_unsized : (s : Ser) → s.sized = false → (st : St) →
    s.readSize st = .err .attributeError st
  | .unicode inner _ _, h, st => by
    simp only [Ser.sized] at h; simpa [Ser.readSize] using readSize_unsized inner h st
  | .tuple _ inner, h, st => by
    simp only [Ser.sized] at h; simpa [Ser.readSize] using readSize_unsized inner h st
  | .cond .., _, _ => rfl
  | .selfT _, _, _ => rfl
  | .null, h, _ | .struct _, h, _ | .dynChar .., h, _ | .consuming _, h, _ | .terminated .., h, _
  | .net _, h, _ | .array .., h, _ | .staticArr .., h, _ | .dynArr .., h, _ | .lookback .., h, _
  | .lookahead .., h, _ | .skip _, h, _ | .structured .., h, _ | .compound .., h, _
  | .specialized .., h, _ => by simp [Ser.sized] at h

theorem preU_cases (s : Ser) (p : PObj) : (∃ id, s = .selfT id) ∨
    (s.preunpack p = s.prepack p ∧ Sem.preU s p = Sem.pre s p) := by
  cases s <;> first | exact .inl ⟨_, rfl⟩ | exact .inr ⟨rfl, rfl⟩

/-- `pre` does not change which cell the size is read from. -/
theorem pre_readSize {s s' : Ser} {p : PObj} {q : Option PObj} (h : Sem.pre s p = .ok (s', q))
    (hs : s.sized = true) : s.readSize = s'.readSize ∧ s'.sized = true := by
  cases s with
  | cond => simp [Ser.sized] at hs
  | selfT => simp [Ser.sized] at hs
  | compound id ss =>
    simp only [Sem.pre, Except.ok.injEq, Prod.mk.injEq] at h
    rw [← h.1]
    split <;> exact ⟨rfl, rfl⟩
  | _ =>
    simp only [Sem.pre, Except.ok.injEq, Prod.mk.injEq] at h
    rw [← h.1]
    exact ⟨rfl, hs⟩

theorem preU_readSize {s s' : Ser} {p : PObj} {q : Option PObj} (h : Sem.preU s p = .ok (s', q))
    (hs : s.sized = true) : s.readSize = s'.readSize ∧ s'.sized = true := by
  rcases preU_cases s p with ⟨id, rfl⟩ | ⟨_, h2⟩
  · simp [Ser.sized] at hs
  · exact pre_readSize (h2 ▸ h) hs

/-- `prepack` is `pre`, remembering the partial object. -/
theorem prepack_rel (s : Ser) (p : PObj) (st : St) :
    Rel (Fr st) (s.prepack p) (.ofE (Sem.pre s p)) st
      (fun s' r st' => s' = r.1 ∧ Sem.pre s p = .ok r ∧ Primed r.1 r.2 st' ∧ Fr st st' ∧
        Keeps (Sem.touch s) st st') := by
  have keeps : ∀ id, s.keeper = some id → s.prepack p = (do setPart id p; pure s) →
      Sem.pre s p = .ok (s, some p) →
      Rel (Fr st) (s.prepack p) (.ofE (Sem.pre s p)) st
      (fun s' r st' => s' = r.1 ∧ Sem.pre s p = .ok r ∧ Primed r.1 r.2 st' ∧ Fr st st' ∧
        Keeps (Sem.touch s) st st') := by
    intro id hk h1 h2
    rw [h1, h2]
    refine Rel.step (setPart_run id p st) (Rel.pure ⟨rfl, rfl, ?_, Fr.withPart .., ?_⟩)
    · intro p' hp'
      cases hp'
      exact ⟨id, hk, by simp⟩
    · simpa [Sem.touch, hk] using Keeps.withPart st id p
  cases s with
  | array id hdr item sl => exact keeps id rfl rfl rfl
  | tuple id inner => exact keeps id rfl rfl rfl
  | lookback id d k o df => exact keeps id rfl rfl rfl
  | lookahead id ra d k o df => exact keeps id rfl rfl rfl
  | cond ser c defs =>
    simp only [Ser.prepack, Sem.pre, bind, Except.bind]
    cases c p with
    | error e => exact ⟨st, rfl, Fr.refl _⟩
    | ok r =>
      simp only []
      cases condPick ser defs r with
      | error e => exact ⟨st, rfl, Fr.refl _⟩
      | ok s' => exact ⟨s', st, rfl, rfl, rfl, Primed.none _ _, Fr.refl _, Keeps.refl _ _⟩
  | selfT id => exact ⟨_, st, rfl, rfl, rfl, Primed.none _ _, Fr.refl _, Keeps.refl _ _⟩
  | compound id ss => exact ⟨_, st, rfl, rfl, rfl, Primed.none _ _, Fr.refl _, Keeps.refl _ _⟩
  | _ => exact ⟨_, st, rfl, rfl, rfl, Primed.none _ _, Fr.refl _, Keeps.refl _ _⟩

theorem preunpack_rel (s : Ser) (p : PObj) (st : St) :
    Rel (Fr st) (s.preunpack p) (.ofE (Sem.preU s p)) st
      (fun s' r st' => s' = r.1 ∧ Sem.preU s p = .ok r ∧ Primed r.1 r.2 st' ∧ Fr st st' ∧
        Keeps (Sem.touch s) st st') := by
  rcases preU_cases s p with ⟨id, rfl⟩ | ⟨h1, h2⟩
  · simp only [Ser.preunpack, Sem.preU, bind, Except.bind]
    cases clsOfPartial p with
    | error e => exact ⟨st, rfl, Fr.refl _⟩
    | ok c => exact ⟨_, st, rfl, rfl, rfl, Primed.none _ _, Fr.refl _, Keeps.refl _ _⟩
  · rw [h1, h2]
    exact prepack_rel s p st

end Verif
