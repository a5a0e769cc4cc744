import Verif.Spec.Supplied
import Verif.Proofs.FootprintTasks
/-
Operations that read only attributes they have set themselves.
-/
namespace Verif.Threads

variable {α β : Type} {C : ClassId → Prop}

/-- Attributes set so far. -/
structure Know where
  part : SerId → Prop
  size : SerId → Prop

def Know.le (K L : Know) : Prop := (∀ i, K.part i → L.part i) ∧ ∀ i, K.size i → L.size i
def Know.none : Know := ⟨fun _ => False, fun _ => False⟩
def Know.addPart (K : Know) (i : SerId) : Know := ⟨fun j => j = i ∨ K.part j, K.size⟩
def Know.addSize (K : Know) (i : SerId) : Know := ⟨K.part, fun j => j = i ∨ K.size j⟩

theorem Know.le.refl (K : Know) : K.le K := ⟨fun _ h => h, fun _ h => h⟩
theorem Know.le.trans {K L M : Know} (h : K.le L) (k : L.le M) : K.le M := ⟨fun i hi => k.1 i (h.1 i hi), fun i hi => k.2 i (h.2 i hi)⟩
theorem Know.le.addPart (K : Know) (i : SerId) : K.le (K.addPart i) := ⟨fun _ h => .inr h, fun _ h => h⟩
theorem Know.le.addSize (K : Know) (i : SerId) : K.le (K.addSize i) := ⟨fun _ h => h, fun _ h => .inr h⟩

/-- Starting with the attributes in `K` set, the program reads only attributes that are set; partial objects are of classes
in `C`. -/
def Prog.sure (C : ClassId → Prop) : Prog α → Know → (α → Know → Prop) → Prop
  | .ret a, K, Q => Q a K
  | .getSize id k, K, Q => K.size id ∧ ∀ n, (k n).sure C K Q
  | .getPart id k, K, Q => K.part id ∧ ∀ p : PObj, C p.cls → (k (some p)).sure C K Q
  | .setSize id _ k, K, Q => k.sure C (K.addSize id) Q
  | .setPart id p k, K, Q => C p.cls ∧ k.sure C (K.addPart id) Q

theorem sure_bind {Q : α → Know → Prop} {R : β → Know → Prop} {f : α → Prog β} (x : Prog α) :
    ∀ K, x.sure C K Q → (∀ a L, K.le L → Q a L → (f a).sure C L R) → (x.bind f).sure C K R := by
  induction x with
  | ret a => intro K hx hf; exact hf a K (.refl K) hx
  | getSize id k ih => intro K hx hf; exact ⟨hx.1, fun n => ih n K (hx.2 n) hf⟩
  | getPart id k ih => intro K hx hf; exact ⟨hx.1, fun p hp => ih (some p) K (hx.2 p hp) hf⟩
  | setSize id n k ih => intro K hx hf; exact ih _ hx fun a L hl => hf a L ((Know.le.addSize K id).trans hl)
  | setPart id p k ih => intro K hx hf; exact ⟨hx.1, ih _ hx.2 fun a L hl => hf a L ((Know.le.addPart K id).trans hl)⟩

theorem sure_mono {Q R : α → Know → Prop} (x : Prog α) : ∀ K, x.sure C K Q → (∀ a L, Q a L → R a L) → x.sure C K R := by
  induction x with
  | ret a => intro K hx hf; exact hf a K hx
  | getSize id k ih => intro K hx hf; exact ⟨hx.1, fun n => ih n K (hx.2 n) hf⟩
  | getPart id k ih => intro K hx hf; exact ⟨hx.1, fun p hp => ih (some p) K (hx.2 p hp) hf⟩
  | setSize id n k ih => intro K hx hf; exact ih _ hx hf
  | setPart id p k ih => intro K hx hf; exact ⟨hx.1, ih _ hx.2 hf⟩

/-- The attributes in `K` are the same, and partial objects among them are of classes in `C`. -/
def Know.Same (C : ClassId → Prop) (K : Know) (c d : Cells) : Prop :=
  (∀ i, K.part i → ∃ p, C p.cls ∧ (c i).part = some p ∧ (d i).part = some p) ∧ ∀ i, K.size i → (c i).size = (d i).size

theorem Know.Same.none (c d : Cells) : Know.none.Same C c d := ⟨fun _ h => h.elim, fun _ h => h.elim⟩

theorem exec_sure {Q : α → Know → Prop} (x : Prog α) : ∀ {K : Know} {c d : Cells}, x.sure C K Q → K.Same C c d →
    (x.exec d).1 = (x.exec c).1 ∧ ∃ L, K.le L ∧ Q (x.exec c).1 L ∧ L.Same C (x.exec c).2 (x.exec d).2 := by
  induction x with
  | ret a => intro K c d hx hs; exact ⟨rfl, K, .refl K, hx, hs⟩
  | getSize id k ih =>
    intro K c d hx hs
    simp only [Prog.exec, ← hs.2 id hx.1]
    exact ih _ (hx.2 _) hs
  | getPart id k ih =>
    intro K c d hx hs
    obtain ⟨p, hp, e1, e2⟩ := hs.1 id hx.1
    simp only [Prog.exec, e1, e2]
    exact ih _ (hx.2 _ hp) hs
  | setSize id n k ih =>
    intro K c d hx hs
    have hs' : (K.addSize id).Same C (c.setSize id n) (d.setSize id n) := by
      refine ⟨fun i hi => ?_, fun i hi => ?_⟩
      · obtain ⟨p, hp, e1, e2⟩ := hs.1 i hi
        refine ⟨p, hp, ?_, ?_⟩
        · show (if i = id then _ else _ : Cell).part = _
          split
          · next h => subst h; exact e1
          · exact e1
        · show (if i = id then _ else _ : Cell).part = _
          split
          · next h => subst h; exact e2
          · exact e2
      · show (if i = id then _ else _ : Cell).size = (if i = id then _ else _ : Cell).size
        by_cases h : i = id
        · rw [if_pos h, if_pos h]
        · rw [if_neg h, if_neg h]; exact hs.2 i (hi.resolve_left h)
    obtain ⟨h1, L, h2, h3⟩ := ih hx hs'
    exact ⟨h1, L, (Know.le.addSize K id).trans h2, h3⟩
  | setPart id p k ih =>
    intro K c d hx hs
    have hs' : (K.addPart id).Same C (c.setPart id p) (d.setPart id p) := by
      refine ⟨fun i hi => ?_, fun i hi => ?_⟩
      · by_cases h : i = id
        · refine ⟨p, hx.1, ?_, ?_⟩
          · show (if i = id then _ else _ : Cell).part = _
            rw [if_pos h]
          · show (if i = id then _ else _ : Cell).part = _
            rw [if_pos h]
        · obtain ⟨q, hq, e1, e2⟩ := hs.1 i (hi.resolve_left h)
          refine ⟨q, hq, ?_, ?_⟩
          · show (if i = id then _ else _ : Cell).part = _
            rw [if_neg h]; exact e1
          · show (if i = id then _ else _ : Cell).part = _
            rw [if_neg h]; exact e2
      · show (if i = id then _ else _ : Cell).size = (if i = id then _ else _ : Cell).size
        by_cases h : i = id
        · rw [if_pos h, if_pos h]; subst h; exact hs.2 i hi
        · rw [if_neg h, if_neg h]; exact hs.2 i hi
    obtain ⟨h1, L, h2, h3⟩ := ih hx.2 hs'
    exact ⟨h1, L, (Know.le.addPart K id).trans h2, h3⟩

/-- The operation reads only attributes that are set; replies satisfy `Q`, which may speak of the attributes set then. -/
structure Sure (C : ClassId → Prop) (K : Know) (Q : α → Know → Prop) (x : T α) : Prop where
  run : ∀ l, (x l).sure C K fun y L => ∀ a, y.1 = .ok a → Q a L

variable {K : Know} {P : α → Know → Prop} {Q : β → Know → Prop}

theorem Sure.bind {x : T α} {f : α → T β} (h : Sure C K P x) (k : ∀ a L, K.le L → P a L → Sure C L Q (f a)) : Sure C K Q (x >>= f) := by
  constructor
  intro l
  refine sure_bind _ K (h.run l) fun y L hl hy => ?_
  obtain ⟨r, l'⟩ := y
  cases r with
  | ok a => exact (k a L hl (hy a rfl)).run l'
  | error e => intro a h; cases h

theorem Sure.pure (a : α) (h : P a K) : Sure C K P (Pure.pure a) := ⟨fun _ b e => by cases e; exact h⟩
theorem Sure.throw (e : Err) : Sure C K P (T.throw e : T α) := ⟨fun _ b e => by cases e⟩
theorem Sure.lift {e : Except Err α} (h : ∀ a, e = .ok a → P a K) : Sure C K P (T.lift e) := ⟨fun _ b k => h b k⟩

/-- A result of which nothing is needed afterwards. -/
theorem Sure.lift' (e : Except Err α) : Sure C K (fun a _ => e = .ok a) (T.lift e) := Sure.lift fun _ h => h

/-- An operation on the thread's own buffer and stream. -/
theorem Sure.free {x : T α} (h : ∀ l, ∃ y, x l = .ret y) {P : Know → Prop} (hp : P K) : Sure C K (fun _ => P) x := by
  constructor
  intro l
  obtain ⟨y, hy⟩ := h l
  rw [hy]
  exact fun _ _ => hp

theorem Sure.setSize (i : SerId) (n : Nat) : Sure C K (fun _ L => L.size i) (setSize i n) :=
  ⟨fun _ _ _ => .inl rfl⟩

theorem Sure.setPart (i : SerId) {p : PObj} (hc : C p.cls) : Sure C K (fun _ L => L.part i) (setPart i p) :=
  ⟨fun _ => ⟨hc, fun _ _ => .inl rfl⟩⟩

theorem Sure.getPart {i : SerId} (hi : K.part i) : Sure C K (fun p _ => C p.cls) (getPart i) :=
  ⟨fun _ => ⟨hi, fun p hp a e => by cases e; exact hp⟩⟩

theorem Sure.cellSize {i : SerId} (hi : K.size i) : Sure C K (fun _ _ => True) (getCellSize i) :=
  ⟨fun _ => ⟨hi, fun _ _ _ => trivial⟩⟩

/-! ### Serializers -/

/-- The attributes `readSize` looks at are set. -/
def SizeKnown (K : Know) : Ser → Prop
  | .null | .struct _ | .staticArr .. | .skip _ | .cond .. | .selfT _ => True
  | .dynChar id _ | .consuming id | .terminated id _ | .net id | .array id .. | .dynArr id .. | .lookback id .. | .lookahead id ..
  | .structured id _ | .compound id _ | .specialized id .. => K.size id
  | .unicode inner _ _ => SizeKnown K inner
  | .tuple _ inner => SizeKnown K inner

theorem SizeKnown.mono {K L : Know} (hl : K.le L) : ∀ {s : Ser}, SizeKnown K s → SizeKnown L s
  | .unicode inner _ _, h => SizeKnown.mono hl (s := inner) h
  | .tuple _ inner, h => SizeKnown.mono hl (s := inner) h
  | .null, _ | .struct _, _ | .staticArr .., _ | .skip _, _ | .cond .., _ | .selfT _, _ => trivial
  | .dynChar .., h | .consuming .., h | .terminated .., h | .net .., h | .array .., h | .dynArr .., h | .lookback .., h | .lookahead .., h
  | .structured .., h | .compound .., h | .specialized .., h => hl.2 _ h

theorem Sure.readSize : ∀ s : Ser, SizeKnown K s → Sure C K (fun _ _ => True) (readSize s)
  | .unicode inner _ _, h => Sure.readSize inner h
  | .tuple _ inner, h => Sure.readSize inner h
  | .cond .., _ | .selfT _, _ => Sure.throw _
  | .null, _ | .struct _, _ | .staticArr .., _ | .skip _, _ => Sure.pure _ trivial
  | .dynChar .., h | .consuming .., h | .terminated .., h | .net .., h | .array .., h | .dynArr .., h | .lookback .., h | .lookahead .., h
  | .structured .., h | .compound .., h | .specialized .., h => Sure.cellSize h

/-- Works when handed the partial object; the classes named are in `C`. -/
def Fed (unp : Bool) (C : ClassId → Prop) (s : Ser) : Prop := s.supplied unp = true ∧ ∀ d ∈ s.names, C d

mutual
/-- Works as it is. -/
def Ready (unp : Bool) (C : ClassId → Prop) (K : Know) : Ser → Prop
  | .unicode inner _ _ => Ready unp C K inner
  | .array id _ item _ => K.part id ∧ Fed unp C item
  | .tuple id inner => K.part id ∧ Fed unp C inner ∧ (unp = true → inner.canBeLazy = false)
  | .lookback id _ _ opts dflt => K.part id ∧ (∀ s, s ∈ opts ∨ s = dflt → Fed unp C s ∧ (unp = true → s.canBeLazy = false))
  | .lookahead id ra _ _ opts dflt => K.part id ∧ (∀ s, s ∈ opts ∨ s = dflt → Fed unp C s ∧ (unp = true → s.canBeLazy = false)) ∧
      (unp = true → ra.unaided unp = true ∧ ∀ d ∈ ra.names, C d)
  | .compound _ ss => ReadyList unp C K ss
  | .specialized _ p ss => C p.cls ∧ ∀ s ∈ ss, Fed unp C s
  | .structured _ c => C c
  | _ => True
def ReadyList (unp : Bool) (C : ClassId → Prop) (K : Know) : List Ser → Prop
  | [] => True
  | s :: ss => Ready unp C K s ∧ ReadyList unp C K ss
end

mutual
theorem Ready.mono {unp : Bool} {K L : Know} (hl : K.le L) : ∀ {s : Ser}, Ready unp C K s → Ready unp C L s
  | .unicode inner _ _, h => Ready.mono hl (s := inner) h
  | .array .., h | .tuple .., h | .lookback .., h => ⟨hl.1 _ h.1, h.2⟩
  | .lookahead .., h => ⟨hl.1 _ h.1, h.2⟩
  | .compound _ ss, h => ReadyList.mono hl (ss := ss) h
  | .specialized .., h => h
  | .structured .., h => h
  | .null, _ | .struct _, _ | .staticArr .., _ | .skip _, _ | .cond .., _ | .selfT _, _ => trivial
  | .dynChar .., _ | .consuming .., _ | .terminated .., _ | .net .., _ | .dynArr .., _ => trivial
theorem ReadyList.mono {unp : Bool} {K L : Know} (hl : K.le L) : ∀ {ss : List Ser}, ReadyList unp C K ss → ReadyList unp C L ss
  | [], _ => trivial
  | s :: ss, h => ⟨Ready.mono hl (s := s) h.1, ReadyList.mono hl (ss := ss) h.2⟩
end

theorem suppliedList_mem {unp : Bool} {ss : List Ser} : Ser.suppliedList unp ss = true ↔ ∀ s ∈ ss, s.supplied unp = true := by
  induction ss with
  | nil => simp [Ser.suppliedList]
  | cons s ss ih => simp [Ser.suppliedList, ih]

theorem namesList_mem {ss : List Ser} {d : ClassId} : d ∈ Ser.namesList ss ↔ ∃ s ∈ ss, d ∈ s.names := by
  induction ss with
  | nil => simp [Ser.namesList]
  | cons s ss ih => simp [Ser.namesList, ih]

mutual
theorem unaided_ready {unp : Bool} : ∀ {s : Ser}, s.unaided unp = true → (∀ d ∈ s.names, C d) → Ready unp C K s
  | .unicode inner _ _, h, hn => unaided_ready (s := inner) (by simpa [Ser.unaided] using h) hn
  | .array .., h, _ | .tuple .., h, _ | .lookback .., h, _ => by simp [Ser.unaided] at h
  | .lookahead .., h, _ => by simp [Ser.unaided] at h
  | .compound _ ss, h, hn => unaidedList_ready (ss := ss) (by simpa [Ser.unaided] using h) hn
  | .specialized .., h, _ => by simp [Ser.unaided] at h
  | .structured .., _, hn => hn _ (by simp [Ser.names])
  | .null, _, _ | .struct _, _, _ | .staticArr .., _, _ | .skip _, _, _ | .cond .., _, _ | .selfT _, _, _ => trivial
  | .dynChar .., _, _ | .consuming .., _, _ | .terminated .., _, _ | .net .., _, _ | .dynArr .., _, _ => trivial
theorem unaidedList_ready {unp : Bool} : ∀ {ss : List Ser}, Ser.unaidedList unp ss = true → (∀ d ∈ Ser.namesList ss, C d) → ReadyList unp C K ss
  | [], _, _ => trivial
  | s :: ss, h, hn => by
    simp only [Ser.unaidedList, Bool.and_eq_true] at h
    exact ⟨unaided_ready h.1 fun d hd => hn d (by simp [Ser.namesList, hd]), unaidedList_ready h.2 fun d hd => hn d (by simp [Ser.namesList, hd])⟩
end

/-- Nothing to hand the partial object to. -/
theorem fed_ready {unp : Bool} {s : Ser} (ho : s.overridesPre = false) (h : Fed unp C s) : Ready unp C K s := by
  refine unaided_ready ?_ h.2
  cases s <;> first | rfl | exact h.1 | (simp [Ser.overridesPre] at ho)

theorem fedList_ready {unp : Bool} {ss : List Ser} (hn : needsPreprocess ss = false) (h : ∀ s ∈ ss, Fed unp C s) : ReadyList unp C K ss := by
  induction ss with
  | nil => trivial
  | cons s ss ih =>
    simp only [needsPreprocess, List.any_cons, Bool.or_eq_false_iff] at hn
    exact ⟨fed_ready hn.1 (h s (by simp)), ih hn.2 fun t ht => h t (by simp [ht])⟩

/-- What `prepack` and `preunpack` return. -/
def Handed (unp : Bool) (C : ClassId → Prop) (s s' : Ser) (L : Know) : Prop :=
  Ready unp C L s' ∧ (s.canBeLazy = false → s'.isLazy = false) ∧ ∀ M, SizeKnown M s' → SizeKnown M s

theorem canBeLazy_isLazy : ∀ {s : Ser}, s.canBeLazy = false → s.isLazy = false := by
  intro s h
  cases s <;> first | rfl | (simp [Ser.canBeLazy] at h)

theorem Sure.prepack {unp : Bool} {s : Ser} {p : PObj} (h : Fed unp C s) (hp : C p.cls) :
    Sure C K (Handed unp C s) (prepack s p) := by
  obtain ⟨h, hn⟩ := h
  cases s <;> simp only [Threads.prepack]
  case cond ser c defs =>
    refine Sure.lift fun s' e => ?_
    obtain ⟨r, _, e2⟩ := Except.bind_ok' e
    rcases condPick_cases e2 with rfl | rfl
    · exact ⟨unaided_ready h hn, fun hl => canBeLazy_isLazy hl, fun _ _ => trivial⟩
    · exact ⟨trivial, fun _ => rfl, fun _ _ => trivial⟩
  case selfT id => exact Sure.pure _ ⟨hp, fun _ => rfl, fun _ _ => trivial⟩
  case compound id ss =>
    have hf : ∀ s ∈ ss, Fed unp C s := fun s hs => ⟨suppliedList_mem.1 h s hs, fun d hd => hn d (namesList_mem.2 ⟨s, hs, hd⟩)⟩
    refine Sure.pure _ ?_
    by_cases hc : needsPreprocess ss = true
    · rw [if_pos hc]
      exact ⟨⟨hp, hf⟩, fun hl => by simp [Ser.canBeLazy] at hl, fun _ h => h⟩
    · rw [if_neg hc]
      exact ⟨fedList_ready (by simpa using hc) hf, fun hl => by simp [Ser.canBeLazy] at hl, fun _ h => h⟩
  case array => exact Sure.bind (Sure.setPart _ hp) fun _ L _ hi => Sure.pure _ ⟨⟨hi, h, hn⟩, fun _ => rfl, fun _ h => h⟩
  case tuple id inner =>
    simp only [Ser.supplied, Bool.and_eq_true, Bool.not_eq_true'] at h
    exact Sure.bind (Sure.setPart _ hp) fun _ L _ hi => Sure.pure _ ⟨⟨hi, ⟨h.1, hn⟩, fun hu => by simpa [hu] using h.2⟩, fun _ => rfl, fun _ h => h⟩
  case lookback id decider keys opts dflt =>
    simp only [Ser.supplied, Bool.and_eq_true, Bool.not_eq_true'] at h
    refine Sure.bind (Sure.setPart _ hp) fun _ L _ hi => Sure.pure _ ⟨⟨hi, fun s hs => ?_⟩, fun _ => rfl, fun _ h => h⟩
    rcases hs with hs | rfl
    · exact ⟨⟨suppliedList_mem.1 h.1.1 s hs, fun d hd => hn d (by simp only [Ser.names, List.mem_append]; exact .inl (namesList_mem.2 ⟨s, hs, hd⟩))⟩,
        fun hu => by simp [hu] at h; simpa using h.2.1 s hs⟩
    · exact ⟨⟨h.1.2, fun d hd => hn d (by simp [Ser.names, hd])⟩, fun hu => by simp [hu] at h; exact h.2.2⟩
  case lookahead id ra decider keys opts dflt =>
    simp only [Ser.supplied, Bool.and_eq_true, Bool.not_eq_true'] at h
    refine Sure.bind (Sure.setPart _ hp) fun _ L _ hi => Sure.pure _ ⟨⟨hi, fun s hs => ?_, fun hu => ?_⟩, fun _ => rfl, fun _ h => h⟩
    · rcases hs with hs | rfl
      · exact ⟨⟨suppliedList_mem.1 h.1.1 s hs, fun d hd => hn d (by
          simp only [Ser.names, List.mem_append]; exact .inr (.inl (namesList_mem.2 ⟨s, hs, hd⟩)))⟩,
          fun hu => by simp [hu] at h; simpa using h.2.1.1 s hs⟩
      · exact ⟨⟨h.1.2, fun d hd => hn d (by simp [Ser.names, hd])⟩, fun hu => by simp [hu] at h; exact h.2.1.2⟩
    · exact ⟨by subst hu; simp at h; exact h.2.2, fun d hd => hn d (by simp [Ser.names, hd])⟩
  case specialized id q ss =>
    exact Sure.pure _ ⟨⟨hn _ (by simp [Ser.names]), fun s hs =>
      ⟨suppliedList_mem.1 h s hs, fun d hd => hn d (by simp only [Ser.names, List.mem_cons]; exact .inr (namesList_mem.2 ⟨s, hs, hd⟩))⟩⟩,
      fun hl => by simp [Ser.canBeLazy] at hl, fun _ h => h⟩
  case unicode => exact Sure.pure _ ⟨fed_ready rfl ⟨h, hn⟩, fun _ => rfl, fun _ h => h⟩
  case structured => exact Sure.pure _ ⟨hn _ (by simp [Ser.names]), fun _ => rfl, fun _ h => h⟩
  all_goals exact Sure.pure _ ⟨trivial, fun _ => rfl, fun _ h => h⟩

theorem Sure.preunpack {unp : Bool} {s : Ser} {p : PObj} (h : Fed unp C s) (hp : C p.cls) :
    Sure C K (Handed unp C s) (preunpack s p) := by
  cases s <;> simp only [Threads.preunpack]
  case selfT id =>
    refine Sure.lift fun s' e => ?_
    obtain ⟨r, e1, e2⟩ := Except.bind_ok' e
    cases e2
    refine ⟨?_, fun _ => rfl, fun _ _ => trivial⟩
    unfold clsOfPartial at e1
    split at e1
    · cases e1
    · split at e1
      · cases e1; exact hp
      · cases e1
  all_goals exact Sure.prepack h hp

theorem Sure.getSerializer {unp : Bool} (b : Bool) {id : SerId} (hi : K.part id) (keys : List Val) {opts : List Ser} {dflt : Ser} (r : Val)
    (ho : ∀ s, s ∈ opts ∨ s = dflt → Fed unp C s ∧ (unp = true → s.canBeLazy = false)) :
    Sure C K (fun s' L => Ready unp C L s' ∧ (unp = true → s'.isLazy = false)) (getSerializer b id keys opts dflt r) := by
  refine Sure.bind (Sure.lift' _) fun s L hl hs => Sure.bind (Sure.getPart (hl.1 _ hi)) fun p L _ hp => ?_
  obtain ⟨h1, h2⟩ := ho s (unionPick_mem hs)
  have fin : ∀ {x : T Ser}, Sure C L (Handed unp C s) x → Sure C L (fun s' L => Ready unp C L s' ∧ (unp = true → s'.isLazy = false)) x := by
    intro x hx
    refine ⟨fun l => ?_⟩
    have := hx.run l
    exact sure_mono _ L this fun y L h a e => ⟨(h a e).1, fun hu => (h a e).2.1 (h2 hu)⟩
  cases b
  · exact fin (Sure.preunpack h1 hp)
  · exact fin (Sure.prepack h1 hp)

end Verif.Threads
