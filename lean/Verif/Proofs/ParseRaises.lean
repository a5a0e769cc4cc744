import Verif.Spec.FormatRaises
import Verif.Proofs.ParseFormats
/-
The parser raises only what the type hints say.
-/
namespace Verif
open Spec

variable {α β : Type} {P : Platform} {bo : ByteOrder} {R : ClassId → Bytes → Parsed (Val × Nat)} {C : ClassId → Err → Prop}

/-- Only these exceptions. -/
def Only (E : Err → Prop) (r : Parsed α) : Prop := ∀ e, r = .err e → E e

variable {E E' : Err → Prop}

theorem Only.ok {a : α} : Only E (.ok a) := nofun
theorem Only.odd : Only E (.odd : Parsed α) := nofun
theorem Only.deep : Only E (.deep : Parsed α) := nofun
theorem Only.err {e : Err} (h : E e) : Only E (.err e : Parsed α) := fun e' h' => by cases h'; exact h
theorem Only.imp {r : Parsed α} (h : Only E r) (hi : ∀ e, E e → E' e) : Only E' r := fun e he => hi e (h e he)

theorem Only.bind {r : Parsed α} {f : α → Parsed β} (h : Only E r) (hf : ∀ a, r = .ok a → Only E (f a)) : Only E (r >>= f) := by
  cases r with
  | ok a => exact hf a rfl
  | err e => exact .err (h e rfl)
  | deep => exact .deep
  | odd => exact .odd

theorem Only.ofE {x : Except Err α} (h : ∀ e, x = .error e → E e) : Only E (Parsed.ofE x) := by
  cases x with
  | ok => exact .ok
  | error e => exact .err (h e rfl)

theorem only_takes {n : Nat} {b : Bytes} {f : Bytes → Val} (h : E .structError) : Only E (takes n b f) := by
  unfold takes
  split
  · exact .ok
  · exact .err h

theorem only_many {f : Bytes → Parsed (Val × Nat)} (h : ∀ b, Only E (f b)) : ∀ (n : Nat) (b : Bytes), Only E (readMany f n b)
  | 0, _ => .ok
  | n + 1, b => by
    unfold readMany
    exact (h b).bind fun _ _ => (only_many h n _).bind fun _ _ => .ok

mutual
theorem only_read (hR : ∀ c b, Only (C c) (R c b)) (o : PObj) : ∀ (f : Fmt) (bo : ByteOrder) (b : Bytes), f.good bo = true → Only (f.Raises C o.cls) (f.read P bo R o b)
  | .int _ _, bo, b, _ => only_takes rfl
  | .bool, bo, b, _ => only_takes rfl
  | .half, bo, b, _ => only_takes rfl
  | .single, bo, b, _ => only_takes rfl
  | .double, bo, b, _ => only_takes rfl
  | .chars _, bo, b, _ => only_takes rfl
  | .pascal _, bo, b, _ => only_takes rfl
  | .via _ f _ _ _, bo, b, hg => by
    simp only [Fmt.good, Bool.and_eq_true] at hg
    simp only [Fmt.read]
    exact (only_read hR o f bo b hg.2).bind fun _ _ => .ok
  | .counted w, bo, b, _ => by
    simp only [Fmt.read]
    split
    · exact .ok
    · exact .err rfl
  | .until t, bo, b, _ => by
    simp only [Fmt.read]
    split
    · exact .ok
    · exact .err rfl
  | .rest, bo, b, _ => .ok
  | .net, bo, b, _ => by
    simp only [Fmt.read]
    split
    · exact .err rfl
    · split
      · exact .ok
      · split
        · exact .err rfl
        · split
          · exact .ok
          · exact .odd
  | .text f en de, bo, b, hg => by
    simp only [Fmt.good, Bool.and_eq_true, decide_eq_true_eq] at hg
    obtain ⟨⟨rfl, _⟩, hg⟩ := hg
    simp only [Fmt.read]
    refine ((only_read hR o f _ b hg).imp fun e h => .inl h).bind fun x _ => ?_
    split
    · exact (Only.ofE fun e h => .inr ⟨_, h⟩).bind fun _ _ => .ok
    · exact .odd
  | .fixed n item, bo, b, hg => by
    simp only [Fmt.good] at hg
    simp only [Fmt.read]
    exact (only_many (fun b => only_read hR o item bo b hg) n b).bind fun _ _ => .ok
  | .list w item, bo, b, hg => by
    simp only [Fmt.good, Bool.and_eq_true] at hg
    simp only [Fmt.read]
    split
    · exact (only_many (fun b => (only_read hR o item bo b hg.1).imp fun e h => .inr h) _ _).bind fun _ _ => .ok
    · exact .err (.inl rfl)
  | .sized w w2 item, bo, b, hg => by
    simp only [Fmt.good, Bool.and_eq_true] at hg
    simp only [Fmt.read]
    split
    · refine (only_many (fun b => (only_read hR o item bo b hg.1).imp fun e h => .inr (.inr h)) _ _).bind fun _ _ => ?_
      split
      · exact .ok
      · exact .err (.inr (.inl rfl))
    · exact .err (.inl rfl)
  | .tup items, bo, b, hg => by
    simp only [Fmt.good, Bool.and_eq_true, decide_eq_true_eq] at hg
    obtain ⟨⟨⟨rfl, hg⟩, _⟩, _⟩ := hg
    simp only [Fmt.read]
    split
    · exact (only_reads hR o items _ 0 b hg).bind fun _ _ => .ok
    · exact .odd
  | .obj c, bo, b, _ => hR c b
  | .me, bo, b, _ => hR o.cls b
  | .choice cid args ahead decider keys opts other, bo, b, hg => by
    simp only [Fmt.good, Bool.and_eq_true, decide_eq_true_eq] at hg
    obtain ⟨⟨⟨⟨rfl, hg1⟩, hg2⟩, hl⟩, _⟩ := hg
    have h1 : ∀ {e}, Fmt.RaisesAny C o.cls opts e → (Fmt.choice cid args ahead decider keys opts other).Raises C o.cls e := fun h => .inr (.inr (.inl h))
    have h2 : ∀ {e}, Fmt.RaisesAny C o.cls other e → (Fmt.choice cid args ahead decider keys opts other).Raises C o.cls e := fun h => .inr (.inr (.inr h))
    have pick : ∀ r : Val, Only ((Fmt.choice cid args ahead decider keys opts other).Raises C o.cls) (match keyAt keys r with
        | some k => Fmt.readAt P .default R o opts k b
        | none => Fmt.readAt P .default R o other 0 b) := by
      intro r
      split
      · rename_i k hk
        have := keyAt_lt hk
        refine (only_readAt hR o opts _ k b hg1).imp fun e h => ?_
        rcases h with h | ⟨h, _⟩
        · exact h1 h
        · omega
      · refine (only_readAt hR o other _ 0 b hg2).imp fun e h => ?_
        rcases h with h | ⟨h, he⟩
        · exact h2 h
        · exact .inr (.inl ⟨List.eq_nil_of_length_eq_zero (by omega), he⟩)
    simp only [Fmt.read]
    cases ahead with
    | none =>
      refine (Only.ofE fun e h => .inl ⟨o, .inl h⟩).bind fun r hr => ?_
      split
      · rename_i hh
        refine .err (.inl ⟨o, .inr ⟨r, ?_, hh, rfl⟩⟩)
        cases hd : decider o with
        | ok x => rw [hd] at hr; cases hr; rfl
        | error => rw [hd] at hr; cases hr
      · exact pick r
    | some a =>
      simp only
      split
      · have hh : (a.key P .default (b.take a.bytes)).hashable = true := by cases a <;> rfl
        simp only [Bind.bind, Parsed.bind, hh, not_true, if_false]
        exact pick _
      · exact .err (.inl rfl)
theorem only_reads (hR : ∀ c b, Only (C c) (R c b)) (o : PObj) : ∀ (fs : List Fmt) (bo : ByteOrder) (k : Nat) (b : Bytes), Fmt.goods bo fs = true →
    Only (Fmt.RaisesAny C o.cls fs) (Fmt.reads P bo R o k fs b)
  | [], bo, k, b, _ => .ok
  | f :: fs, bo, k, b, hg => by
    simp only [Fmt.goods, Bool.and_eq_true] at hg
    simp only [Fmt.reads]
    exact ((only_read hR o f bo _ hg.1).imp fun e h => .inl h).bind fun _ _ => ((only_reads hR o fs bo _ _ hg.2).imp fun e h => .inr h).bind fun _ _ => .ok
theorem only_readAt (hR : ∀ c b, Only (C c) (R c b)) (o : PObj) : ∀ (fs : List Fmt) (bo : ByteOrder) (k : Nat) (b : Bytes), Fmt.goods bo fs = true →
    Only (fun e => Fmt.RaisesAny C o.cls fs e ∨ (fs.length ≤ k ∧ e = .valueError)) (Fmt.readAt P bo R o fs k b)
  | [], bo, k, b, _ => .err (.inr ⟨Nat.zero_le _, rfl⟩)
  | f :: fs, bo, 0, b, hg => by
    simp only [Fmt.goods, Bool.and_eq_true] at hg
    exact (only_read hR o f bo _ hg.1).imp fun e h => .inl (.inl h)
  | f :: fs, bo, k + 1, b, hg => by
    simp only [Fmt.goods, Bool.and_eq_true] at hg
    refine (only_readAt hR o fs bo k b hg.2).imp fun e h => ?_
    rcases h with h | ⟨h, he⟩
    · exact .inl (.inr h)
    · exact .inr ⟨by simpa using h, he⟩
end

theorem only_fields (hR : ∀ c b, Only (C c) (R c b)) {c : ClassId} : ∀ (fs : List Field) (o : PObj) (k : Nat) (b : Bytes), o.cls = c → (∀ f ∈ fs, f.good bo = true) →
    Only (fun e => ∃ f ∈ fs, f.Raises C c e) (readFields P bo R o k fs b)
  | [], o, k, b, _, _ => .ok
  | f :: fs, o, k, b, ho, hg => by
    have hgf := hg f (by simp)
    have ih := fun o k b ho => (only_fields hR fs o k b ho fun g h => hg g (by simp [h])).imp
      (E' := fun e => ∃ f' ∈ f :: fs, f'.Raises C c e) fun e ⟨g, h1, h2⟩ => ⟨g, by simp [h1], h2⟩
    have here : ∀ {e}, f.Raises C c e → ∃ f' ∈ f :: fs, f'.Raises C c e := fun h => ⟨f, by simp, h⟩
    cases f with
    | value a f =>
      simp only [readFields]
      refine Only.bind ((only_read hR o f bo _ hgf).imp fun e h => here ?_) fun x _ => (ih (o.with a x.1) _ _ ho).bind fun _ _ => .ok
      rw [← ho]
      exact h
    | pad a n =>
      simp only [readFields]
      split
      · exact (ih _ _ _ ho).bind fun _ _ => .ok
      · exact .err (here rfl)
    | «when» a cond f d =>
      simp only [Field.good, Bool.and_eq_true] at hgf
      simp only [readFields]
      refine (Only.ofE fun e h => here (.inr ⟨o, .inl h⟩)).bind fun r hr => ?_
      have hr : cond o = .ok r := by
        cases hd : cond o with
        | ok x => rw [hd] at hr; cases hr; rfl
        | error => rw [hd] at hr; cases hr
      split
      · rename_i hh
        exact .err (here (.inr ⟨o, .inr ⟨r, hr, .inl ⟨hh, rfl⟩⟩⟩))
      · split
        · refine Only.bind ((only_read hR o f bo _ hgf.1).imp fun e h => here (.inl ?_)) fun x _ => (ih (o.with a x.1) _ _ ho).bind fun _ _ => .ok
          rw [← ho]
          exact h
        · exact (ih (o.with a d) _ _ ho).bind fun _ _ => .ok
        · rename_i hk
          exact .err (here (.inr ⟨o, .inr ⟨r, hr, .inr ⟨hk, rfl⟩⟩⟩))

theorem only_obj {docs : ClassId → Option ClassDoc} (hg : ∀ c d, docs c = some d → d.good = true) : ∀ (k : Nat) (c : ClassId) (b : Bytes),
    Only (ClassRaises docs k c) (readObj P docs k c b)
  | 0, _, _ => .deep
  | k + 1, c, b => by
    intro e he
    unfold readObj at he
    unfold ClassRaises
    cases hd : docs c with
    | none => simp only [hd] at he ⊢; cases he; rfl
    | some d =>
      simp only [hd] at he ⊢
      have hg' := hg c d hd
      simp only [ClassDoc.good, Bool.and_eq_true, List.all_eq_true] at hg'
      split at he
      · cases he
      · exact (Only.bind (only_fields (only_obj hg k) d.fields ⟨c, true, []⟩ 0 b rfl hg'.1.1) fun _ _ => Only.ok) e he

/-! ### Kinds of exceptions -/

/-- The basic types raise only `struct.error`. -/
theorem basic_raises {c : ClassId} {e : Err} : ∀ (g : Fmt), g.basic.isSome = true → g.Raises C c e → e = .structError
  | .int _ _, _, h | .bool, _, h | .half, _, h | .single, _, h | .double, _, h | .chars _, _, h | .pascal _, _, h => h
  | .via _ f _ _ _, hg, h => by
    rw [Fmt.basic] at hg
    exact basic_raises f hg h
  | .counted _, hg, _ | .until _, hg, _ | .rest, hg, _ | .net, hg, _ | .text .., hg, _ | .fixed .., hg, _ | .list .., hg, _ | .sized .., hg, _
  | .tup _, hg, _ | .obj _, hg, _ | .me, hg, _ | .choice .., hg, _ => by cases hg

/-- The exceptions of the library itself. -/
def Usual (e : Err) : Prop := e = .structError ∨ e = .valueError ∨ e = .typeError ∨ e = .keyError ∨ e = .attributeError

mutual
theorem raises_kinds {K : Err → Prop} (hK : ∀ e, Usual e → K e) (hC : ∀ c e, C c e → K e) {c : ClassId} : ∀ (f : Fmt) {e : Err}, f.Raises C c e → K e ∨ f.CallRaises e
  | .int _ _, e, h | .bool, e, h | .half, e, h | .single, e, h | .double, e, h | .chars _, e, h | .pascal _, e, h | .counted _, e, h | .net, e, h =>
    .inl (hK e (.inl h))
  | .until _, e, h => .inl (hK e (.inr (.inl h)))
  | .rest, e, h => h.elim
  | .text f _ de, e, h => by
    rcases h with h | h
    · exact (raises_kinds hK hC f h).imp id .inl
    · exact .inr (.inr h)
  | .fixed _ item, e, h => raises_kinds hK hC item h
  | .via _ f _ _ _, e, h => raises_kinds hK hC f h
  | .list _ item, e, h => by
    rcases h with h | h
    · exact .inl (hK e (.inl h))
    · exact raises_kinds hK hC item h
  | .sized _ _ item, e, h => by
    rcases h with h | h | h
    · exact .inl (hK e (.inl h))
    · exact .inl (hK e (.inr (.inl h)))
    · exact raises_kinds hK hC item h
  | .tup items, e, h => raisesAny_kinds hK hC items h
  | .obj c', e, h => .inl (hC c' e h)
  | .me, e, h => .inl (hC c e h)
  | .choice _ _ ahead decider _ opts other, e, h => by
    rcases h with h | ⟨_, h⟩ | h | h
    · cases ahead with
      | none =>
        obtain ⟨o, h | ⟨r, _, _, h⟩⟩ := h
        · exact .inr (.inl ⟨o, h⟩)
        · exact .inl (hK e (.inr (.inr (.inl h))))
      | some => exact .inl (hK e (.inl h))
    · exact .inl (hK e (.inr (.inl h)))
    · exact (raisesAny_kinds hK hC opts h).imp id fun h => .inr (.inl h)
    · exact (raisesAny_kinds hK hC other h).imp id fun h => .inr (.inr h)
theorem raisesAny_kinds {K : Err → Prop} (hK : ∀ e, Usual e → K e) (hC : ∀ c e, C c e → K e) {c : ClassId} : ∀ (fs : List Fmt) {e : Err}, Fmt.RaisesAny C c fs e →
    K e ∨ Fmt.CallRaisesAny fs e
  | [], e, h => h.elim
  | f :: fs, e, h => by
    rcases h with h | h
    · exact (raises_kinds hK hC f h).imp id .inl
    · exact (raisesAny_kinds hK hC fs h).imp id .inr
end

theorem classRaises_kinds {docs : ClassId → Option ClassDoc} : ∀ (k : Nat) {c : ClassId} {e : Err}, ClassRaises docs k c e →
    Usual e ∨ ∃ c' d f, docs c' = some d ∧ f ∈ d.fields ∧ f.CallRaises e
  | 0, _, _, h => h.elim
  | k + 1, c, e, h => by
    unfold ClassRaises at h
    cases hd : docs c with
    | none => rw [hd] at h; exact .inl (.inr (.inr (.inr (.inr h))))
    | some d =>
      rw [hd] at h
      obtain ⟨f, hf, h⟩ := h
      have key : ∀ {g : Fmt}, g.Raises (ClassRaises docs k) c e →
          (Usual e ∨ ∃ c' d f, docs c' = some d ∧ f ∈ d.fields ∧ f.CallRaises e) ∨ g.CallRaises e := fun {g} h =>
        raises_kinds (K := fun e => Usual e ∨ ∃ c' d f, docs c' = some d ∧ f ∈ d.fields ∧ f.CallRaises e) (fun e h => .inl h)
          (fun c e h => classRaises_kinds k h) g h
      cases f with
      | value a g =>
        rcases key h with h | h
        · exact h
        · exact .inr ⟨c, d, _, hd, hf, h⟩
      | pad => exact .inl (.inl h)
      | «when» a cond g dv =>
        rcases h with h | ⟨o, h | ⟨r, _, ⟨_, h⟩ | ⟨_, h⟩⟩⟩
        · rcases key h with h | h
          · exact h
          · exact .inr ⟨c, d, _, hd, hf, .inl h⟩
        · exact .inr ⟨c, d, _, hd, hf, .inr ⟨o, h⟩⟩
        · exact .inl (.inr (.inr (.inl h)))
        · exact .inl (.inr (.inr (.inr (.inl h))))

/-! ### Formats that are read as documented -/

/-- The parser does not give up. -/
def Clear (r : Parsed α) : Prop := r ≠ .odd

theorem Clear.bind {r : Parsed α} {f : α → Parsed β} (h : Clear r) (hf : ∀ a, r = .ok a → Clear (f a)) : Clear (r >>= f) := by
  cases r with
  | ok a => exact hf a rfl
  | err e => nofun
  | deep => nofun
  | odd => exact absurd rfl h

theorem Clear.ofE {x : Except Err α} : Clear (Parsed.ofE x) := by cases x <;> nofun

theorem clear_takes {n : Nat} {b : Bytes} {f : Bytes → Val} : Clear (takes n b f) := by unfold takes; split <;> nofun

theorem clear_many {f : Bytes → Parsed (Val × Nat)} (h : ∀ b, Clear (f b)) : ∀ (n : Nat) (b : Bytes), Clear (readMany f n b)
  | 0, _ => nofun
  | n + 1, b => by
    unfold readMany
    exact (h b).bind fun _ _ => (clear_many h n _).bind fun _ _ => nofun

theorem bracket_bytes {f : Fmt} {o : PObj} {b : Bytes} {v : Val} {n : Nat} (hb : f.bracket.isSome = true) (h : f.read P bo R o b = .ok (v, n)) : ∃ d, v = .bytes d := by
  cases f with
  | chars m =>
    simp only [Fmt.read, takes] at h
    split at h
    · cases h; exact ⟨_, rfl⟩
    · cases h
  | counted w =>
    simp only [Fmt.read] at h
    split at h
    · cases h; exact ⟨_, rfl⟩
    · cases h
  | «until» t =>
    simp only [Fmt.read] at h
    split at h
    · cases h; exact ⟨_, rfl⟩
    · cases h
  | rest => cases h; exact ⟨_, rfl⟩
  | net =>
    simp only [Fmt.read] at h
    split at h
    · cases h
    · split at h
      · cases h; exact ⟨_, rfl⟩
      · split at h
        · cases h
        · split at h
          · cases h; exact ⟨_, rfl⟩
          · cases h
  | _ => cases hb

mutual
theorem clear_read (hR : ∀ c b, Clear (R c b)) (o : PObj) : ∀ (f : Fmt) (bo : ByteOrder) (b : Bytes), f.good bo = true → f.regular P = true → Clear (f.read P bo R o b)
  | .int _ _, bo, b, _, _ | .bool, bo, b, _, _ | .half, bo, b, _, _ | .single, bo, b, _, _ | .double, bo, b, _, _ | .chars _, bo, b, _, _ | .pascal _, bo, b, _, _ =>
    clear_takes
  | .via _ f _ _ _, bo, b, hg, hr => by
    simp only [Fmt.good, Bool.and_eq_true] at hg
    simp only [Fmt.regular] at hr
    simp only [Fmt.read]
    have := clear_read hR o f bo b hg.2 hr
    cases hx : Fmt.read P bo R o f b <;> rw [hx] at this <;> first | exact this | nofun
  | .counted w, bo, b, _, _ => by simp only [Fmt.read]; split <;> nofun
  | .until t, bo, b, _, _ => by simp only [Fmt.read]; split <;> nofun
  | .rest, bo, b, _, _ => nofun
  | .net, bo, b, _, hr => by
    simp only [Fmt.regular] at hr
    simp only [Fmt.read, hr, if_true]
    split
    · nofun
    · split
      · nofun
      · split <;> nofun
  | .text f en de, bo, b, hg, hr => by
    simp only [Fmt.good, Bool.and_eq_true, decide_eq_true_eq] at hg
    obtain ⟨⟨rfl, hb⟩, hg⟩ := hg
    simp only [Fmt.read]
    refine (clear_read hR o f _ b hg hr).bind fun x hx => ?_
    obtain ⟨v, n⟩ := x
    obtain ⟨d, rfl⟩ := bracket_bytes hb hx
    exact Clear.ofE.bind fun _ _ => nofun
  | .fixed n item, bo, b, hg, hr => by
    simp only [Fmt.good] at hg
    simp only [Fmt.read]
    exact (clear_many (fun b => clear_read hR o item bo b hg hr) n b).bind fun _ _ => nofun
  | .list w item, bo, b, hg, hr => by
    simp only [Fmt.good, Bool.and_eq_true] at hg
    simp only [Fmt.read]
    split
    · exact (clear_many (fun b => clear_read hR o item bo b hg.1 hr) _ _).bind fun _ _ => nofun
    · nofun
  | .sized w w2 item, bo, b, hg, hr => by
    simp only [Fmt.good, Bool.and_eq_true] at hg
    simp only [Fmt.read]
    split
    · refine (clear_many (fun b => clear_read hR o item bo b hg.1 hr) _ _).bind fun _ _ => ?_
      split <;> nofun
    · nofun
  | .tup items, bo, b, hg, hr => by
    simp only [Fmt.good, Bool.and_eq_true, decide_eq_true_eq] at hg
    obtain ⟨⟨⟨rfl, hg⟩, _⟩, _⟩ := hg
    rw [Fmt.regular, Bool.and_eq_true] at hr
    simp only [Fmt.read]
    rw [if_pos hr.1]
    exact (clear_reads hR o items _ 0 b hg hr.2).bind fun _ _ => nofun
  | .obj c, bo, b, _, _ => hR c b
  | .me, bo, b, _, _ => hR o.cls b
  | .choice cid args ahead decider keys opts other, bo, b, hg, hr => by
    simp only [Fmt.good, Bool.and_eq_true, decide_eq_true_eq] at hg
    obtain ⟨⟨⟨⟨rfl, hg1⟩, hg2⟩, hl⟩, _⟩ := hg
    simp only [Fmt.regular, Bool.and_eq_true] at hr
    have pick : ∀ r : Val, Clear (match keyAt keys r with
        | some k => Fmt.readAt P .default R o opts k b
        | none => Fmt.readAt P .default R o other 0 b) := by
      intro r
      split
      · exact clear_readAt hR o opts _ _ b hg1 hr.1
      · exact clear_readAt hR o other _ 0 b hg2 hr.2
    simp only [Fmt.read]
    cases ahead with
    | none =>
      refine Clear.ofE.bind fun r _ => ?_
      split
      · nofun
      · exact pick r
    | some a =>
      simp only
      split
      · have hh : (a.key P .default (b.take a.bytes)).hashable = true := by cases a <;> rfl
        simp only [Bind.bind, Parsed.bind, hh, not_true, if_false]
        exact pick _
      · nofun
theorem clear_reads (hR : ∀ c b, Clear (R c b)) (o : PObj) : ∀ (fs : List Fmt) (bo : ByteOrder) (k : Nat) (b : Bytes), Fmt.goods bo fs = true →
    Fmt.regulars P fs = true → Clear (Fmt.reads P bo R o k fs b)
  | [], bo, k, b, _, _ => nofun
  | f :: fs, bo, k, b, hg, hr => by
    simp only [Fmt.goods, Bool.and_eq_true] at hg
    simp only [Fmt.regulars, Bool.and_eq_true] at hr
    simp only [Fmt.reads]
    exact (clear_read hR o f bo _ hg.1 hr.1).bind fun _ _ => (clear_reads hR o fs bo _ _ hg.2 hr.2).bind fun _ _ => nofun
theorem clear_readAt (hR : ∀ c b, Clear (R c b)) (o : PObj) : ∀ (fs : List Fmt) (bo : ByteOrder) (k : Nat) (b : Bytes), Fmt.goods bo fs = true →
    Fmt.regulars P fs = true → Clear (Fmt.readAt P bo R o fs k b)
  | [], bo, k, b, _, _ => nofun
  | f :: fs, bo, 0, b, hg, hr => by
    simp only [Fmt.goods, Bool.and_eq_true] at hg
    simp only [Fmt.regulars, Bool.and_eq_true] at hr
    exact clear_read hR o f bo _ hg.1 hr.1
  | f :: fs, bo, k + 1, b, hg, hr => by
    simp only [Fmt.goods, Bool.and_eq_true] at hg
    simp only [Fmt.regulars, Bool.and_eq_true] at hr
    exact clear_readAt hR o fs bo k b hg.2 hr.2
end

theorem clear_fields (hR : ∀ c b, Clear (R c b)) : ∀ (fs : List Field) (o : PObj) (k : Nat) (b : Bytes), (∀ f ∈ fs, f.good bo = true) →
    (∀ f ∈ fs, f.regular P = true) → Clear (readFields P bo R o k fs b)
  | [], o, k, b, _, _ => nofun
  | f :: fs, o, k, b, hg, hr => by
    have hgf := hg f (by simp)
    have hrf := hr f (by simp)
    have ih := fun o k b => clear_fields hR fs o k b (fun g h => hg g (by simp [h])) (fun g h => hr g (by simp [h]))
    cases f with
    | value a f =>
      simp only [readFields]
      exact (clear_read hR o f bo _ hgf hrf).bind fun x _ => (ih _ _ _).bind fun _ _ => nofun
    | pad a n =>
      simp only [readFields]
      split
      · exact (ih _ _ _).bind fun _ _ => nofun
      · nofun
    | «when» a cond f d =>
      simp only [Field.good, Bool.and_eq_true] at hgf
      simp only [readFields]
      refine Clear.ofE.bind fun r hr => ?_
      split
      · nofun
      · split
        · exact (clear_read hR o f bo _ hgf.1 hrf).bind fun x _ => (ih _ _ _).bind fun _ _ => nofun
        · exact (ih _ _ _).bind fun _ _ => nofun
        · nofun

theorem clear_obj {docs : ClassId → Option ClassDoc} (hg : ∀ c d, docs c = some d → d.good = true ∧ d.regular P = true) : ∀ (k : Nat) (c : ClassId) (b : Bytes),
    Clear (readObj P docs k c b)
  | 0, _, _ => nofun
  | k + 1, c, b => by
    unfold readObj
    cases hd : docs c with
    | none => nofun
    | some d =>
      obtain ⟨hg', hr⟩ := hg c d hd
      simp only [ClassDoc.good, Bool.and_eq_true, List.all_eq_true] at hg'
      simp only [ClassDoc.regular, Bool.and_eq_true, List.all_eq_true, Bool.not_eq_true', Bool.and_eq_false_iff] at hr
      simp only
      rw [if_neg]
      · exact (clear_fields (clear_obj hg k) d.fields _ 0 b hg'.1.1 hr.1).bind fun _ _ => nofun
      · rintro ⟨h1, h2⟩
        rcases hr.2 with h | h
        · rw [h1] at h; cases h
        · rw [List.contains_iff_mem.2 h2] at h; cases h

end Verif
