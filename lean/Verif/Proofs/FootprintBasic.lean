import Verif.Spec.Footprint
import Verif.Proofs.HistoryUnpack
import Verif.Proofs.ThreadTasks
/-
Operations that use only some of the serializer objects.
-/
namespace Verif

variable {α β : Type} {I : SerId → Prop} {C D : ClassId → Prop}

mutual
/-- All objects in a serializer are in `I`, all classes named in `C`; partial objects are of classes in `D`, which are all
in `C` if there is a `Self`. -/
def Ser.Within (I : SerId → Prop) (C D : ClassId → Prop) : Ser → Prop
  | .null | .struct _ | .staticArr .. | .skip _ => True
  | .dynChar id _ | .consuming id | .terminated id _ | .net id | .dynArr id _ _ => I id
  | .selfT id => I id ∧ ∀ c, D c → C c
  | .structured id c => I id ∧ C c
  | .unicode inner _ _ => inner.Within I C D
  | .array id _ item _ => I id ∧ item.Within I C D
  | .tuple id inner => I id ∧ inner.Within I C D
  | .lookback id _ _ opts dflt => I id ∧ Ser.WithinList I C D opts ∧ dflt.Within I C D
  | .lookahead id ra _ _ opts dflt => I id ∧ ra.Within I C D ∧ Ser.WithinList I C D opts ∧ dflt.Within I C D
  | .cond s _ _ => s.Within I C D
  | .compound id ss => I id ∧ Ser.WithinList I C D ss
  | .specialized id p ss => I id ∧ D p.cls ∧ Ser.WithinList I C D ss
def Ser.WithinList (I : SerId → Prop) (C D : ClassId → Prop) : List Ser → Prop
  | [] => True
  | s :: ss => s.Within I C D ∧ Ser.WithinList I C D ss
end

theorem withinList_mem {ss : List Ser} : Ser.WithinList I C D ss ↔ ∀ s ∈ ss, s.Within I C D := by
  induction ss with
  | nil => simp [Ser.WithinList]
  | cons s ss ih => simp [Ser.WithinList, ih]

mutual
theorem within_of (hCD : ∀ c, C c → D c) : ∀ s : Ser, (∀ i ∈ s.ids, I i) → (∀ d ∈ s.names, C d) → (s.hasSelf = true → ∀ c, D c → C c) →
    s.Within I C D
  | .null, _, _, _ => trivial
  | .struct _, _, _, _ => trivial
  | .staticArr .., _, _, _ => trivial
  | .skip _, _, _, _ => trivial
  | .dynChar .., hi, _, _ => hi _ (by simp [Ser.ids])
  | .consuming .., hi, _, _ => hi _ (by simp [Ser.ids])
  | .terminated .., hi, _, _ => hi _ (by simp [Ser.ids])
  | .net .., hi, _, _ => hi _ (by simp [Ser.ids])
  | .dynArr .., hi, _, _ => hi _ (by simp [Ser.ids])
  | .selfT .., hi, _, hs => ⟨hi _ (by simp [Ser.ids]), hs rfl⟩
  | .structured .., hi, hc, _ => ⟨hi _ (by simp [Ser.ids]), hc _ (by simp [Ser.names])⟩
  | .unicode inner _ _, hi, hc, hs => within_of hCD inner hi hc hs
  | .array _ _ item _, hi, hc, hs =>
    ⟨hi _ (by simp [Ser.ids]), within_of hCD item (fun i h => hi i (by simp [Ser.ids, h])) hc hs⟩
  | .tuple _ inner, hi, hc, hs =>
    ⟨hi _ (by simp [Ser.ids]), within_of hCD inner (fun i h => hi i (by simp [Ser.ids, h])) hc hs⟩
  | .lookback _ _ _ opts dflt, hi, hc, hs => ⟨hi _ (by simp [Ser.ids]),
      withinList_of hCD opts (fun i h => hi i (by simp [Ser.ids, h])) (fun d h => hc d (by simp [Ser.names, h]))
        (fun h => hs (by simp [Ser.hasSelf, h])),
      within_of hCD dflt (fun i h => hi i (by simp [Ser.ids, h])) (fun d h => hc d (by simp [Ser.names, h]))
        (fun h => hs (by simp [Ser.hasSelf, h]))⟩
  | .lookahead _ ra _ _ opts dflt, hi, hc, hs => ⟨hi _ (by simp [Ser.ids]),
      within_of hCD ra (fun i h => hi i (by simp [Ser.ids, h])) (fun d h => hc d (by simp [Ser.names, h]))
        (fun h => hs (by simp [Ser.hasSelf, h])),
      withinList_of hCD opts (fun i h => hi i (by simp [Ser.ids, h])) (fun d h => hc d (by simp [Ser.names, h]))
        (fun h => hs (by simp [Ser.hasSelf, h])),
      within_of hCD dflt (fun i h => hi i (by simp [Ser.ids, h])) (fun d h => hc d (by simp [Ser.names, h]))
        (fun h => hs (by simp [Ser.hasSelf, h]))⟩
  | .cond s _ _, hi, hc, hs => within_of hCD s hi hc hs
  | .compound _ ss, hi, hc, hs =>
    ⟨hi _ (by simp [Ser.ids]), withinList_of hCD ss (fun i h => hi i (by simp [Ser.ids, h])) hc hs⟩
  | .specialized _ _ ss, hi, hc, hs => ⟨hi _ (by simp [Ser.ids]), hCD _ (hc _ (by simp [Ser.names])),
      withinList_of hCD ss (fun i h => hi i (by simp [Ser.ids, h])) (fun d h => hc d (by simp [Ser.names, h])) hs⟩
theorem withinList_of (hCD : ∀ c, C c → D c) : ∀ ss : List Ser, (∀ i ∈ Ser.idsList ss, I i) → (∀ d ∈ Ser.namesList ss, C d) →
    (Ser.hasSelfList ss = true → ∀ c, D c → C c) → Ser.WithinList I C D ss
  | [], _, _, _ => trivial
  | s :: ss, hi, hc, hs =>
    ⟨within_of hCD s (fun i h => hi i (by simp [Ser.idsList, h])) (fun d h => hc d (by simp [Ser.namesList, h]))
        (fun h => hs (by simp [Ser.hasSelfList, h])),
     withinList_of hCD ss (fun i h => hi i (by simp [Ser.idsList, h])) (fun d h => hc d (by simp [Ser.namesList, h]))
        (fun h => hs (by simp [Ser.hasSelfList, h]))⟩
end

/-! ### Local operations -/

namespace Threads

/-- The program reads and writes attributes of objects in `I` only, and its result satisfies `Q`.  A partial object read is
of a class in `D`, as are those written. -/
def Prog.inside (I : SerId → Prop) (D : ClassId → Prop) (Q : α → Prop) : Prog α → Prop
  | .ret a => Q a
  | .getSize id k => I id ∧ ∀ n, (k n).inside I D Q
  | .getPart id k => I id ∧ ∀ o : Option PObj, (∀ p, o = some p → D p.cls) → (k o).inside I D Q
  | .setSize id _ k => I id ∧ k.inside I D Q
  | .setPart id p k => I id ∧ D p.cls ∧ k.inside I D Q

theorem inside_bind {Q : α → Prop} {R : β → Prop} {f : α → Prog β} (x : Prog α) :
    x.inside I D Q → (∀ a, Q a → (f a).inside I D R) → (x.bind f).inside I D R := by
  induction x with
  | ret a => intro hx hf; exact hf a hx
  | getSize id k ih => intro hx hf; exact ⟨hx.1, fun n => ih n (hx.2 n) hf⟩
  | getPart id k ih => intro hx hf; exact ⟨hx.1, fun o ho => ih o (hx.2 o ho) hf⟩
  | setSize id n k ih => intro hx hf; exact ⟨hx.1, ih hx.2 hf⟩
  | setPart id p k ih => intro hx hf; exact ⟨hx.1, hx.2.1, ih hx.2.2 hf⟩

/-- The operation uses objects in `I` only; replies satisfy `P`. -/
structure Local (I : SerId → Prop) (D : ClassId → Prop) (P : α → Prop) (x : T α) : Prop where
  run : ∀ l, (x l).inside I D fun y => ∀ a, y.1 = .ok a → P a

variable {P : α → Prop} {Q : β → Prop}

theorem Local.bind {x : T α} {f : α → T β} (h : Local I D P x) (k : ∀ a, P a → Local I D Q (f a)) : Local I D Q (x >>= f) := by
  constructor
  intro l
  refine inside_bind _ (h.run l) fun y hy => ?_
  obtain ⟨r, l'⟩ := y
  cases r with
  | ok a => exact (k a (hy a rfl)).run l'
  | error e => intro a h; cases h

theorem Local.pure (a : α) (h : P a) : Local I D P (Pure.pure a) := ⟨fun _ b e => by cases e; exact h⟩
theorem Local.throw (e : Err) : Local I D P (T.throw e : T α) := ⟨fun _ b e => by cases e⟩
theorem Local.lift {e : Except Err α} (h : ∀ a, e = .ok a → P a) : Local I D P (T.lift e) := ⟨fun _ b k => h b k⟩

/-- An operation on the thread's own buffer and stream. -/
theorem Local.free {x : T α} (h : ∀ l, ∃ y, x l = .ret y) : Local I D (fun _ => True) x := by
  constructor
  intro l
  obtain ⟨y, hy⟩ := h l
  rw [hy]
  exact fun _ _ => trivial

theorem Local.setSize {i : SerId} (hi : I i) (n : Nat) : Local I D (fun _ => True) (setSize i n) :=
  ⟨fun _ => ⟨hi, fun _ _ => trivial⟩⟩

theorem Local.setPart {i : SerId} (hi : I i) {p : PObj} (hc : D p.cls) : Local I D (fun _ => True) (setPart i p) :=
  ⟨fun _ => ⟨hi, hc, fun _ _ => trivial⟩⟩

theorem Local.getPart {i : SerId} (hi : I i) : Local I D (fun p => D p.cls) (getPart i) := by
  constructor
  intro l
  refine ⟨hi, fun o ho => ?_⟩
  cases o with
  | none => intro a h; cases h
  | some p => intro a h; cases h; exact ho p rfl

theorem Local.cellSize {i : SerId} (hi : I i) : Local I D (fun _ => True) (getCellSize i) :=
  ⟨fun _ => ⟨hi, fun _ _ _ => trivial⟩⟩

theorem Local.readSize : ∀ s : Ser, s.Within I C D → Local I D (fun _ => True) (readSize s)
  | .unicode inner _ _, h => Local.readSize inner h
  | .tuple _ inner, h => Local.readSize inner h.2
  | .cond .., _ => Local.throw _
  | .selfT _, _ => Local.throw _
  | .null, _ => Local.pure _ trivial
  | .struct _, _ => Local.pure _ trivial
  | .staticArr .., _ => Local.pure _ trivial
  | .skip _, _ => Local.pure _ trivial
  | .dynChar .., h => Local.cellSize h
  | .consuming _, h => Local.cellSize h
  | .terminated .., h => Local.cellSize h
  | .net _, h => Local.cellSize h
  | .array .., h => Local.cellSize h.1
  | .dynArr .., h => Local.cellSize h
  | .lookback .., h => Local.cellSize h.1
  | .lookahead .., h => Local.cellSize h.1
  | .structured .., h => Local.cellSize h.1
  | .compound .., h => Local.cellSize h.1
  | .specialized .., h => Local.cellSize h.1

theorem Local.prepack {s : Ser} {p : PObj} (h : s.Within I C D) (hp : D p.cls) : Local I D (Ser.Within I C D) (prepack s p) := by
  cases s <;> simp only [Threads.prepack]
  case cond ser c defs =>
    refine Local.lift fun s' e => ?_
    obtain ⟨r, _, e2⟩ := Except.bind_ok' e
    rcases condPick_cases e2 with rfl | rfl
    · exact h
    · trivial
  case selfT id => exact Local.pure _ ⟨h.1, h.2 _ hp⟩
  case compound id ss =>
    refine Local.pure _ ?_
    split
    · exact ⟨h.1, hp, h.2⟩
    · exact h
  case array => exact Local.bind (Local.setPart h.1 hp) fun _ _ => Local.pure _ h
  case tuple => exact Local.bind (Local.setPart h.1 hp) fun _ _ => Local.pure _ h
  case lookback => exact Local.bind (Local.setPart h.1 hp) fun _ _ => Local.pure _ h
  case lookahead => exact Local.bind (Local.setPart h.1 hp) fun _ _ => Local.pure _ h
  all_goals exact Local.pure _ h

theorem Local.preunpack {s : Ser} {p : PObj} (h : s.Within I C D) (hp : D p.cls) : Local I D (Ser.Within I C D) (preunpack s p) := by
  cases s <;> simp only [Threads.preunpack]
  case selfT id =>
    refine Local.lift fun s' e => ?_
    obtain ⟨r, e1, e2⟩ := Except.bind_ok' e
    cases e2
    refine ⟨h.1, h.2 _ ?_⟩
    unfold clsOfPartial at e1
    split at e1
    · cases e1
    · split at e1
      · cases e1; exact hp
      · cases e1
  all_goals exact Local.prepack h hp

theorem Local.getSerializer (b : Bool) {id : SerId} (hi : I id) (keys : List Val) {opts : List Ser} {dflt : Ser} (r : Val)
    (ho : Ser.WithinList I C D opts) (hd : dflt.Within I C D) :
    Local I D (Ser.Within I C D) (getSerializer b id keys opts dflt r) := by
  refine Local.bind (P := Ser.Within I C D) (Local.lift fun s e => ?_) fun s hs => Local.bind (Local.getPart hi) fun p hp => ?_
  · rcases unionPick_mem e with h | rfl
    · exact withinList_mem.1 ho _ h
    · exact hd
  · cases b
    · exact Local.preunpack hs hp
    · exact Local.prepack hs hp

end Threads

end Verif
