import Verif.Proofs.ThreadInto
/-
Unpacking among other threads.
-/
namespace Verif.Threads

variable {ι κ α β γ δ σ : Type} {F : Sizes}

/-! ### Serializers without parts -/

theorem Det.get {I : ι → Prop} {K : Known} : Det F I K (fun _ => T.get) fun a => a := Det.still fun _ => ⟨_, rfl⟩

theorem Det.ioRead {I : ι → Prop} {K : Known} (n : Nat) : Det F I K (fun _ => ioRead n) fun a => a := Det.still fun _ => ⟨_, rfl⟩

theorem Det.ioReadAll {I : ι → Prop} {K : Known} : Det F I K (fun _ => ioReadAll) fun a => a := Det.still fun _ => ⟨_, rfl⟩

theorem Det.structUnpack {I : ι → Prop} {K : Known} (env s src) : Det F I K (fun _ => structUnpackM env s src) fun a => a :=
  Det.still fun l => by cases src <;> exact ⟨_, rfl⟩

theorem Det.structUnpackOpt {I : ι → Prop} {K : Known} (env s src) : Det F I K (fun _ => structUnpackOpt env s src) fun a => a := by
  cases s with
  | none => exact Det.still fun l => ⟨_, rfl⟩
  | some s => exact Det.structUnpack env s src

theorem Det.ok {I : ι → Prop} {K : Known} (a : α) : Det F I K (fun _ => (Pure.pure a : T α)) fun a => a := Det.pure a fun _ _ => rfl

theorem Det.okBind {I : ι → Prop} {K : Known} {a : α} {f : ι → α → T β} {g : β → γ} (h : Det F I K (fun i => f i a) g) :
    Det F I K (fun i => T.lift (.ok a) >>= f i) g := h.of fun i hi => ⟨i, hi, rfl⟩

theorem Det.lifted {I : ι → Prop} {K : Known} (a : Except Err α) : Det F I K (fun _ => T.lift a) fun a => a := Det.lift a fun _ _ => rfl

theorem det_dynCharUnpack {I : ι → Prop} {K : Known} (env id st src) : Det F I K (fun _ => dynCharUnpack env id st src) fun a => a := by
  refine Det.bindEq (Det.structUnpack _ _ _) fun hv => Det.bindEq (Det.lifted _) fun c => Det.bindEq Det.setSize fun _ => ?_
  cases src with
  | buf b => exact Det.ok _
  | «at» b off => exact Det.bindEq (Det.lifted _) fun s => Det.structUnpackOpt _ _ _
  | io => exact Det.bindEq (Det.lifted _) fun s => Det.structUnpackOpt _ _ _

theorem det_consumingUnpack {I : ι → Prop} {K : Known} (id src) : Det F I K (fun _ => consumingUnpack id src) fun a => a := by
  cases src with
  | buf b => exact Det.bindEq Det.setSize fun _ => Det.ok _
  | «at» b off => exact Det.bindEq Det.setSize fun _ => Det.ok _
  | io => exact Det.bindEq Det.ioReadAll fun _ => Det.bindEq Det.setSize fun _ => Det.ok _

theorem det_terminatedUnpack {I : ι → Prop} {K : Known} (id term src) : Det F I K (fun _ => terminatedUnpack id term src) fun a => a := by
  cases src with
  | buf b =>
    simp only [terminatedUnpack]
    cases findTerm term b with
    | none => exact Det.throw _
    | some k => exact Det.bindEq Det.setSize fun _ => Det.ok _
  | «at» b off =>
    simp only [terminatedUnpack]
    cases findTerm term (b.drop off) with
    | none => exact Det.throw _
    | some k => exact Det.bindEq Det.setSize fun _ => Det.ok _
  | io =>
    refine Det.bindEq Det.get fun st => ?_
    simp only
    cases termReadLoop term ((st.io.data.drop st.io.pos).length + 1) (st.io.data.drop st.io.pos) [] 0 with
    | none => exact Det.bindEq (Det.modify _ fun _ _ => rfl) fun _ => Det.throw _
    | some k => exact Det.bindEq (Det.modify _ fun _ _ => rfl) fun _ => Det.bindEq Det.setSize fun _ => Det.ok _

theorem det_netUnpack {I : ι → Prop} {K : Known} (env id src) : Det F I K (fun _ => netUnpack env id src) fun a => a := by
  have fin : ∀ cs : Nat × Nat, Det F I K (fun _ => (do
      setSize id (cs.2 + cs.1)
      match src with
      | .buf b => pure [.bytes ((b.drop cs.2).take cs.1)]
      | .at b off => T.lift (structUnpackFrom env.plat .default [⟨cs.1, .str⟩] b (off + cs.2))
      | .io => do
        let d ← ioRead cs.1
        pure [.bytes d] : T (List Val))) fun a => a := fun cs => by
    refine Det.bindEq Det.setSize fun _ => ?_
    cases src with
    | buf b => exact Det.ok _
    | «at» b off => exact Det.lifted _
    | io => exact Det.bindEq (Det.ioRead _) fun _ => Det.ok _
  refine Det.bindEq Det.get fun l => Det.bindEq (Det.structUnpack _ _ _) fun hv => Det.bindEq (Det.lifted _) fun c => ?_
  by_cases hc : (128 : Int) ≤ c
  · simp only [if_pos hc]
    refine Det.bindEq (x := fun _ => seek src l.io.pos) ?_ fun _ => Det.bindEq (Det.structUnpack _ _ _) fun hv =>
      Det.bindEq (Det.lifted _) fun c => Det.bindEq (Det.lifted _) fun n => fin (n, _)
    cases src with
    | io => exact Det.modify _ fun _ _ => rfl
    | _ => exact Det.ok _
  · simp only [if_neg hc]
    exact fin (_, _)

/-! ### Parts -/

/-- Where the next part is read from does not depend on what was read. -/
theorem next_eq {b : Bool} {src : Src} (hsrc : b = false → src = .io) {x y : Nat} (h : b = true → x = y) : src.next x = src.next y := by
  cases b with
  | false => rw [hsrc rfl]; rfl
  | true => rw [h rfl]

theorem next_io {b : Bool} {src : Src} (hsrc : b = false → src = .io) (x : Nat) : b = false → src.next x = .io := fun h => by
  rw [hsrc h]; rfl

def Unpacking (F : Sizes) (b : Bool) (unpackN : Ser → Src → T (List Val)) : Prop :=
  ∀ s src, (b = false → src = .io) → sharable F b true s = true → Det F (fun _ : PObj => True) (holds s) (fun p => unpackN (spec s p) src) fun a => a

theorem Det.advance {b : Bool} {I : ι → Prop} {K : Known} {P : ι → PObj} {s : Ser} {size : ι → Nat} {c : Nat} {last : Bool}
    (hf : b = true → (fixedSize F s || last) = true) (hc : ∀ i, I i → b = true → size i = c) {f : ι → Nat → T α} {g : α → γ}
    (hlast : last = true → Det F (fun k : ι × Nat => I k.1) K (fun k => f k.1 k.2) g)
    (h : ∀ (J : ι × Nat → Prop) (c : Nat), (∀ k, J k → I k.1) → (∀ k, J k → b = true → size k.1 + k.2 = c) → Det F J K (fun k => f k.1 k.2) g) :
    Det F I K (fun i => Threads.readSize (spec s (P i)) >>= f i) g := by
  cases b with
  | false => exact Det.bindAny (Det.readSpec s) (h _ 0 (fun _ h => h) fun _ _ h => by cases h)
  | true =>
    cases last with
    | true => exact Det.bindAny (Det.readSpec s) (hlast rfl)
    | false =>
      have hfx : fixedSize F s = true := by simpa using hf rfl
      refine Det.bindEq (Det.readSpecFixed hfx) fun sz => ?_
      exact (h (fun k => I k.1 ∧ k.2 = sz) (c + sz) (fun _ h => h.1) fun k hk _ => by rw [hc _ hk.1 rfl, hk.2]).of fun i hi => ⟨(i, sz), ⟨hi, rfl⟩, rfl⟩

theorem front_parts {s : Ser} {ss : List Ser} (h : frontFixed F (s :: ss) = true) :
    (fixedSize F s || ss.isEmpty) = true ∧ frontFixed F ss = true := by
  simpa only [frontFixed, Bool.and_eq_true] using h

theorem det_unpackLoop {b : Bool} {unpackN : Ser → Src → T (List Val)} (hN : Unpacking F b unpackN) {src : Src} (hsrc : b = false → src = .io) :
    ∀ (ss : List Ser) (c : Nat), (b = true → frontFixed F ss = true) → (∀ s ∈ ss, sharable F b true s = true ∧ s.overridesPre = false) →
    ∀ (κ : Type) (J : κ → Prop) (K : Known) (size : κ → Nat), (∀ k, J k → b = true → size k = c) →
    Det F J K (fun k => unpackLoop unpackN src (size k) ss) Prod.fst
  | [], _, _, _, κ, J, K, size, _ => Det.pure [] fun _ _ => rfl
  | s :: ss, c, hf, hp, κ, J, K, size, hc => by
    simp only [unpackLoop]
    have hs := hp s (by simp)
    refine Det.bindEq (x := fun k => unpackN s (src.next (size k))) ?_ fun vs => ?_
    · refine ((hN s (src.next c) (next_io hsrc c) hs.1).known (K' := K) fun j hj => ((spec_plain hs.2 (default : PObj)).2 j hj).elim).of
        fun k hk => ⟨default, trivial, ?_⟩
      rw [(spec_plain hs.2 _).1, next_eq hsrc (hc k hk)]
    · have rest : ∀ (J' : κ × Nat → Prop) (c' : Nat), (∀ k, J' k → J k.1) → (∀ k, J' k → b = true → size k.1 + k.2 = c') →
          Det F J' K (fun k => (do
            let (rest, total) ← unpackLoop unpackN src (size k.1 + k.2) ss
            pure (vs ++ rest, total) : T (List Val × Nat))) Prod.fst := fun J' c' _ h2 =>
        Det.bindFst (det_unpackLoop hN hsrc ss c' (fun h => (front_parts (hf h)).2) (fun s h => hp s (by simp [h])) _ J' K
          (fun k => size k.1 + k.2) h2) fun vs' => Det.pure (vs ++ vs') fun _ _ => rfl
      have := Det.advance (P := fun _ : κ => (default : PObj)) (s := s) (last := ss.isEmpty) (fun h => (front_parts (hf h)).1) hc
        (f := fun k sz => (do
            let (rest, total) ← unpackLoop unpackN src (size k + sz) ss
            pure (vs ++ rest, total) : T (List Val × Nat))) (g := Prod.fst) (K := K) (fun hl => ?_) rest
      · rw [(spec_plain hs.2 _).1] at this; exact this
      · cases ss with
        | nil => exact Det.bindFst (Det.pure [] fun _ _ => rfl) fun vs' => Det.pure (vs ++ vs') fun _ _ => rfl
        | cons => cases hl

theorem preunpack_sharable {b : Bool} {s : Ser} (h : sharable F b true s = true) (p : PObj) : preunpack s p = prepack s p := by
  cases s <;> first | rfl | simp [sharable] at h

theorem det_unpackLoopShared {b : Bool} {unpackN : Ser → Src → T (List Val)} (hN : Unpacking F b unpackN) {src : Src} (hsrc : b = false → src = .io) :
    ∀ (ss : List Ser) (done c : Nat), (b = true → frontFixed F ss = true) → (∀ s ∈ ss, sharable F b true s = true) →
    ∀ (κ : Type) (J : κ → Prop) (K : Known) (P : κ → PObj) (size : κ → Nat), (∀ k, J k → b = true → size k = c) →
    Det F J K (fun k => unpackLoopSpec unpackN noUpd src (P k) done (size k) ss) Prod.fst
  | [], _, _, _, _, κ, J, K, P, size, _ => Det.pure [] fun _ _ => rfl
  | s :: ss, done, c, hf, hp, κ, J, K, P, size, hc => by
    have hs := hp s (by simp)
    simp only [unpackLoopSpec, preunpack_sharable hs]
    refine Det.prepack hs ?_
    refine Det.bindEq (x := fun k => unpackN (spec s (P k)) (src.next (size k))) ?_ fun vs => ?_
    · refine ((hN s (src.next c) (next_io hsrc c) hs).known fun j hj => Or.inr hj).of fun k hk => ⟨P k, trivial, ?_⟩
      rw [next_eq hsrc (hc k hk)]
    · refine (Det.advance (P := P) (s := s) (last := ss.isEmpty) (fun h => (front_parts (hf h)).1) hc
        (f := fun k sz => (do
            let (rest, total) ← unpackLoopSpec unpackN noUpd src (P k) (done + vs.length) (size k + sz) ss
            pure (vs ++ rest, total) : T (List Val × Nat))) (g := Prod.fst) (fun hl => ?_) fun J' c' _ h2 => ?_).of fun k hk => ⟨k, hk, rfl⟩
      · cases ss with
        | nil => exact Det.bindFst (Det.pure [] fun _ _ => rfl) fun vs' => Det.pure (vs ++ vs') fun _ _ => rfl
        | cons => cases hl
      · exact Det.bindFst (det_unpackLoopShared hN hsrc ss _ c' (fun h => (front_parts (hf h)).2) (fun s h => hp s (by simp [h])) _ J' _
          (fun k => P k.1) (fun k => size k.1 + k.2) h2) fun vs' => Det.pure (vs ++ vs') fun _ _ => rfl

/-- `preunpack` of a field, for the object itself. -/
def PreUn (F : Sizes) (b : Bool) (p : PObj) (s : Ser) : Prop :=
  ∀ (κ α γ : Type) (J : κ → Prop) (K : Known) (f : κ → Ser → T α) (g : α → γ),
    (∀ s0, sharable F b true s0 = true → (fixedSize F s = true → fixedSize F s0 = true) →
      ((∀ id ss, s ≠ .compound id ss) → ∀ id q ss, spec s0 p ≠ .specialized id q ss) →
      Det F J (fun j => K j ∨ holds s0 j) (fun k => f k (spec s0 p)) g) →
    Det F J K (fun k => preunpack s p >>= f k) g

theorem preUn_own {b : Bool} {s : Ser} (hs : ownField F b true s = true) (p : PObj) : PreUn F b p s := by
  have plain : ∀ s', sharable F b true s' = true → s'.overridesPre = false → (fixedSize F s = true → fixedSize F s' = true) →
      ∀ (κ α γ : Type) (J : κ → Prop) (K : Known) (f : κ → Ser → T α) (g : α → γ),
      (∀ s0, sharable F b true s0 = true → (fixedSize F s = true → fixedSize F s0 = true) →
        ((∀ id ss, s ≠ .compound id ss) → ∀ id q ss, spec s0 p ≠ .specialized id q ss) →
        Det F J (fun j => K j ∨ holds s0 j) (fun k => f k (spec s0 p)) g) → Det F J K (fun k => f k s') g := by
    intro s' h1 h2 h3 κ α γ J K f g h
    have := h s' h1 h3 fun _ id q ss e => by
      rw [(spec_plain h2 p).1] at e
      rw [e] at h2; cases h2
    rw [(spec_plain h2 p).1] at this
    exact this.known fun j hj => hj.elim (fun h => h) fun h => ((spec_plain h2 p).2 j h).elim
  cases s with
  | cond ser c defs =>
    simp only [ownField, Bool.and_eq_true, Bool.not_eq_true'] at hs
    intro κ α γ J K f g h
    cases hc : (do condPick ser defs (← c p) : Except Err Ser) with
    | error e =>
      refine (Det.throw e : Det F J K _ g).of fun k hk => ⟨k, hk, ?_⟩
      show (T.lift _ >>= f k) = _
      rw [hc]; rfl
    | ok s' =>
      have hs' : sharable F b true s' = true ∧ s'.overridesPre = false ∧ (fixedSize F (.cond ser c defs) = true → fixedSize F s' = true) := by
        obtain ⟨r, _, h2⟩ := Except.bind_ok' hc
        unfold condPick at h2
        split at h2
        · cases h2
        · split at h2
          · cases h2; exact ⟨hs.2, hs.1, fun h => h⟩
          · split at h2
            · cases h2; exact ⟨rfl, rfl, fun _ => rfl⟩
            · cases h2
      refine (plain s' hs'.1 hs'.2.1 hs'.2.2 κ α γ J K f g h).of fun k hk => ⟨k, hk, ?_⟩
      show (T.lift _ >>= f k) = _
      rw [hc]; rfl
  | selfT id =>
    intro κ α γ J K f g h
    cases hc : clsOfPartial p with
    | error e =>
      refine (Det.throw e : Det F J K _ g).of fun k hk => ⟨k, hk, ?_⟩
      simp only [preunpack, hc]; rfl
    | ok cl =>
      refine (plain (.structured id cl) rfl rfl (fun h => by cases h) κ α γ J K f g h).of fun k hk => ⟨k, hk, ?_⟩
      simp only [preunpack, hc]; rfl
  | compound id ss => exact fun κ α γ J K f g h => Det.prepack hs (h _ hs (fun h => h) fun h => (h _ _ rfl).elim)
  | lookback => simp [ownField, sharable] at hs
  | lookahead => simp [ownField, sharable] at hs
  | specialized => simp [ownField, sharable] at hs
  | _ => exact fun κ α γ J K f g h => Det.prepack hs (h _ hs (fun h => h) fun _ _ _ _ e => by cases e)

theorem det_unpackLoopOwn {b : Bool} {unpackN : Ser → Src → T (List Val)} (hN : Unpacking F b unpackN) (upd : Upd) {src : Src}
    (hsrc : b = false → src = .io) :
    ∀ (ss : List Ser) (p : PObj) (done c : Nat), (b = true → frontFixed F ss = true) → (∀ s ∈ ss, ownField F b true s = true) →
    ∀ (κ : Type) (J : κ → Prop) (K : Known) (size : κ → Nat), (∀ k, J k → b = true → size k = c) →
    Det F J K (fun k => unpackLoopSpec unpackN upd src p done (size k) ss) Prod.fst
  | [], _, _, _, _, _, κ, J, K, size, _ => Det.pure [] fun _ _ => rfl
  | s :: ss, p, done, c, hf, hp, κ, J, K, size, hc => by
    have hs := hp s (by simp)
    simp only [unpackLoopSpec]
    refine preUn_own hs p _ _ _ _ _ _ _ fun s0 hs0 hfx _ => ?_
    refine Det.bindEq (x := fun k => unpackN (spec s0 p) (src.next (size k))) ?_ fun vs => ?_
    · refine ((hN s0 (src.next c) (next_io hsrc c) hs0).known fun j hj => Or.inr hj).of fun k hk => ⟨p, trivial, ?_⟩
      rw [next_eq hsrc (hc k hk)]
    · refine Det.bindEq (Det.lifted _) fun p' => ?_
      refine (Det.advance (P := fun _ => p) (s := s0) (last := ss.isEmpty) (fun h => ?_) hc
        (f := fun k sz => (do
            let (rest, total) ← unpackLoopSpec unpackN upd src p' (done + vs.length) (size k + sz) ss
            pure (vs ++ rest, total) : T (List Val × Nat))) (g := Prod.fst) (fun hl => ?_) fun J' c' _ h2 => ?_).of fun k hk => ⟨k, hk, rfl⟩
      · have := (front_parts (hf h)).1
        simp only [Bool.or_eq_true] at this ⊢
        exact this.imp hfx fun h => h
      · cases ss with
        | nil => exact Det.bindFst (Det.pure [] fun _ _ => rfl) fun vs' => Det.pure (vs ++ vs') fun _ _ => rfl
        | cons => cases hl
      · exact Det.bindFst (det_unpackLoopOwn hN upd hsrc ss p' _ c' (fun h => (front_parts (hf h)).2) (fun s h => hp s (by simp [h])) _ J' _
          (fun k => size k.1 + k.2) h2) fun vs' => Det.pure (vs ++ vs') fun _ _ => rfl

theorem det_unpackItems {b : Bool} {unpackN : Ser → Src → T (List Val)} (hN : Unpacking F b unpackN) {src : Src} (hsrc : b = false → src = .io)
    {item : Ser} (hs : sharable F b true item = true) (hf : b = true → fixedSize F item = true) : ∀ (n c : Nat)
    (κ : Type) (J : κ → Prop) (K : Known) (P : κ → PObj) (size : κ → Nat), (∀ k, J k → b = true → size k = c) →
    Det F J (fun j => K j ∨ holds item j) (fun k => unpackItems unpackN (spec item (P k)) src (size k) n) Prod.fst
  | 0, _, κ, J, K, P, size, _ => Det.pure [] fun _ _ => rfl
  | n + 1, c, κ, J, K, P, size, hc => by
    simp only [unpackItems]
    refine Det.bindEq (x := fun k => unpackN (spec item (P k)) (src.next (size k))) ?_ fun vs => ?_
    · refine ((hN item (src.next c) (next_io hsrc c) hs).known fun j hj => Or.inr hj).of fun k hk => ⟨P k, trivial, ?_⟩
      rw [next_eq hsrc (hc k hk)]
    · refine (Det.advance (P := P) (s := item) (last := false) (fun h => by simp [hf h]) hc
        (f := fun k sz => (do
            let (rest, total) ← unpackItems unpackN (spec item (P k)) src (size k + sz) n
            pure (vs ++ rest, total) : T (List Val × Nat))) (g := Prod.fst) (fun hl => by cases hl) fun J' c' _ h2 => ?_).of fun k hk => ⟨k, hk, rfl⟩
      exact Det.bindFst (det_unpackItems hN hsrc hs hf n c' _ J' _ (fun k => P k.1) (fun k => size k.1 + k.2) h2)
        fun vs' => Det.pure (vs ++ vs') fun _ _ => rfl

/-! ### `unpack` -/

def Unpacks (F : Sizes) (b : Bool) (env : Env) (n : Nat) : Prop := Unpacking F b (unpack env n noUpd)

theorem unpack_upd (env : Env) (n : Nat) {s : Ser} (h : ∀ id q ss, s ≠ .specialized id q ss) (upd : Upd) (src : Src) :
    unpack env n upd s src = unpack env n noUpd s src := by
  cases n with
  | zero => rfl
  | succ n => cases s <;> first | rfl | exact (h _ _ _ rfl).elim

theorem det_unpack_fields {b : Bool} {env : Env} {n : Nat} (hN : Unpacks F b env n) {ss : List Ser} (hs : ownFields F b true ss = true) (id : SerId)
    (p : PObj) (upd : Upd) {src : Src} (hsrc : b = false → src = .io) {K : Known} :
    Det F (fun _ : Unit => True) K (fun _ => unpack env (n + 1) upd (spec (.compound id ss) p) src) fun a => a := by
  have hff : b = true → frontFixed F ss = true := fun h => by subst h; exact ownFields_front hs
  simp only [spec]
  by_cases hn : needsPreprocess ss = true
  · simp only [hn, if_true, unpack]
    exact Det.bindFst (det_unpackLoopOwn hN upd hsrc ss p 0 0 hff (ownFields_mem hs) Unit _ K (fun _ => 0) fun _ _ _ => rfl) fun vs =>
      Det.bindEq Det.setSize fun _ => Det.ok _
  · simp only [hn, unpack]
    exact Det.bindFst (det_unpackLoop hN hsrc ss 0 hff (fun s h => ⟨ownField_plain (ownFields_mem hs s h) (needs_false hn s h), needs_false hn s h⟩)
      Unit _ K (fun _ => 0) fun _ _ _ => rfl) fun vs => Det.bindEq Det.setSize fun _ => Det.ok _

theorem det_unpack_compound {b : Bool} {env : Env} {n : Nat} (hN : Unpacks F b env n) {ss : List Ser} (hs : sharableList F b true ss = true) (id : SerId)
    {src : Src} (hsrc : b = false → src = .io) {K : Known} :
    Det F (fun _ : PObj => True) K (fun p => unpack env (n + 1) noUpd (spec (.compound id ss) p) src) fun a => a := by
  have hff : b = true → frontFixed F ss = true := fun h => by subst h; exact sharableList_front hs
  simp only [spec]
  by_cases hn : needsPreprocess ss = true
  · simp only [hn, if_true, unpack]
    exact Det.bindFst (det_unpackLoopShared hN hsrc ss 0 0 hff (sharableList_mem hs) PObj _ K (fun p => p) (fun _ => 0) fun _ _ _ => rfl) fun vs =>
      Det.bindEq Det.setSize fun _ => Det.ok _
  · simp only [hn, unpack]
    exact Det.bindFst (det_unpackLoop hN hsrc ss 0 hff (fun s h => ⟨sharableList_mem hs s h, needs_false hn s h⟩)
      PObj _ K (fun _ => 0) fun _ _ _ => rfl) fun vs => Det.bindEq Det.setSize fun _ => Det.ok _

/-- The serializer of a class, shown the object. -/
theorem det_unpack_own {b : Bool} {env : Env} {n : Nat} (hN : Unpacks F b env n) (hN' : ∀ m, n = m + 1 → Unpacks F b env m)
    {ser : Ser} (hs : ownSerializer F b true ser = true) (p : PObj) (upd : Upd) {src : Src} (hsrc : b = false → src = .io) {K : Known}
    {f : List Val → T α} {g : α → γ} (hf : ∀ vs, Det F (fun _ : Unit => True) K (fun _ => f vs) g) :
    Det F (fun _ : Unit => True) K (fun _ => (do
      let s ← preunpack ser p
      let vals ← unpack env n upd s src
      f vals)) g := by
  have simple : ownField F b true ser = true → (∀ id ss, ser ≠ .compound id ss) → Det F (fun _ : Unit => True) K (fun _ => (do
      let s ← preunpack ser p
      let vals ← unpack env n upd s src
      f vals)) g := fun ho hc => preUn_own ho p _ _ _ _ _ _ _ fun s0 hs0 _ hsp => by
    simp only [unpack_upd env n (hsp hc) upd]
    exact Det.bindEq (((hN s0 src hsrc hs0).known fun j hj => Or.inr hj).of fun k _ => ⟨p, trivial, rfl⟩)
      fun vals => (hf vals).known fun _ h => Or.inl h
  cases ser with
  | compound id ss =>
    show Det F _ K (fun _ => (unpack env n upd (spec (.compound id ss) p) src >>= f)) g
    refine Det.bindEq ?_ hf
    cases n with
    | zero => exact Det.throw _
    | succ m => exact det_unpack_fields (hN' m rfl) hs id p upd hsrc
  | _ => exact simple hs fun _ _ h => by cases h

theorem det_createUnpackWith {b : Bool} {env : Env} (he : Parallel F b true env) {n : Nat} (hN : Unpacks F b env n)
    (hN' : ∀ m, n = m + 1 → Unpacks F b env m) (cls : ClassId) {src : Src} (hsrc : b = false → src = .io) {K : Known} :
    Det F (fun _ : Unit => True) K (fun _ => createUnpackWith env (unpack env n) cls src) fun a => a := by
  cases hc : env.classes cls with
  | none =>
    simp only [createUnpackWith, hc]
    exact Det.throw _
  | some ci =>
    simp only [createUnpackWith, hc]
    have hs := he cls Option.none ci ci.serializer (by simp [objSer, hc])
    exact det_unpack_own hN hN' hs _ _ hsrc fun vs => Det.bindEq (Det.lifted _) fun v => Det.ok _

theorem headerUnpack_unsized {hdr : Option StructSer} {sl : Int} (h : unsized hdr sl = true) {hv : List Val} {c d : Int}
    (hc : headerUnpackValues hdr sl hv = .ok (c, d)) : d = -1 := by
  unfold headerUnpackValues at hc
  unfold unsized at h
  split at hc
  · rw [if_pos ‹_›] at h
    rw [if_neg (by simpa using h)] at hc
    cases hc; rfl
  · rw [if_neg ‹_›] at h
    rw [if_neg (by simpa using h)] at hc
    obtain ⟨x, _, h2⟩ := Except.bind_ok' hc
    obtain ⟨y, _, h3⟩ := Except.bind_ok' h2
    cases h3; rfl

theorem det_unpack_succ {b : Bool} {env : Env} (he : Parallel F b true env) {n : Nat} (hN : Unpacks F b env n)
    (hN' : ∀ m, n = m + 1 → Unpacks F b env m) : Unpacks F b env (n + 1) := by
  intro s src hsrc hs
  cases s with
  | null => exact Det.ok _
  | struct st => exact Det.structUnpack _ _ _
  | dynChar id st => exact det_dynCharUnpack _ _ _ _
  | consuming id => exact det_consumingUnpack _ _
  | terminated id term => exact det_terminatedUnpack _ _ _
  | net id => exact det_netUnpack _ _ _
  | unicode inner enc dec =>
    simp only [sharable, Bool.and_eq_true, Bool.not_eq_true'] at hs
    refine Det.bindEq (x := fun _ => unpack env n noUpd inner src) ?_ fun vs => Det.lifted _
    have := (hN inner src hsrc hs.2).known (K' := holds (.unicode inner enc dec)) fun j hj => ((spec_plain hs.1 (default : PObj)).2 j hj).elim
    exact this.of fun p hp => ⟨p, hp, by rw [(spec_plain hs.1 p).1]⟩
  | array id hdr item sl =>
    simp only [sharable, Bool.and_eq_true] at hs
    refine Det.bindEq (Det.structUnpackOpt _ _ _) fun hv => ?_
    cases hh : headerUnpackValues hdr sl hv with
    | error e => exact (Det.throw e).of fun p hp => ⟨p, hp, rfl⟩
    | ok cd =>
      obtain ⟨c, d⟩ := cd
      have hd := headerUnpack_unsized hs.1.1 hh
      subst hd
      refine Det.okBind ?_
      refine Det.bindAny (Det.getPart (id := id) rfl) ?_
      simp only [preunpack_sharable hs.1.2]
      refine Det.prepack hs.1.2 ?_
      refine Det.bindFst (det_unpackItems hN hsrc hs.1.2 (fun h => by simpa [h] using hs.2) c.toNat (hdrSize hdr) _ _ _ (fun k : PObj × PObj => k.2)
        (fun _ => hdrSize hdr) fun _ _ _ => rfl) fun items => ?_
      refine Det.bindEq (x := fun k => T.lift (checkDataSize (-1) (k.2 - hdrSize hdr))) (Det.lift (.ok ()) fun _ _ => rfl) fun _ => ?_
      exact Det.bindEq Det.setSize fun _ => Det.pure [.list items] fun _ _ => rfl
  | staticArr count item ser => exact Det.bindEq (Det.structUnpackOpt _ _ _) fun _ => Det.ok _
  | dynArr id cnt item =>
    refine Det.bindEq (Det.structUnpack _ _ _) fun hv => ?_
    have fin : ∀ c, Det F (fun _ : PObj => True) (holds (.dynArr id cnt item)) (fun _ => (do
      let s ← T.lift (item.mul c)
      let vs ← structUnpackOpt env s (src.next cnt.size)
      setSize id (cnt.size + s.elim 0 StructSer.size)
      pure [.list vs] : T (List Val))) fun a => a := fun c =>
      Det.bindEq (Det.lifted _) fun s => Det.bindEq (Det.structUnpackOpt _ _ _) fun vs => Det.bindEq Det.setSize fun _ => Det.ok _
    match hv with
    | [c] => exact Det.bindEq (Det.lifted _) fin
    | [] | _ :: _ :: _ => exact Det.throw _
  | tuple id inner =>
    simp only [sharable] at hs
    refine Det.bindAny (Det.getPart (id := id) rfl) ?_
    simp only [preunpack_sharable hs]
    refine Det.prepack hs ?_
    have hl : ∀ p, (spec inner p).isLazy = inner.isLazy := fun p => by
      cases inner with
      | compound id ss => simp only [spec]; split <;> rfl
      | _ => rfl
    simp only [hl]
    by_cases h : inner.isLazy = true
    · simp only [if_pos h]; exact Det.ok _
    · simp only [if_neg h]
      exact Det.bindEq (((hN inner src hsrc hs).known fun j hj => Or.inr hj).of fun k _ => ⟨k.2, trivial, rfl⟩) fun vs => Det.ok _
  | lookback => simp [sharable] at hs
  | lookahead => simp [sharable] at hs
  | cond => simp [sharable] at hs
  | specialized => simp [sharable] at hs
  | skip vals => exact Det.ok _
  | structured id cls =>
    refine Det.bindEq (Det.const (det_createUnpackWith he hN hN' cls hsrc)) fun y => ?_
    exact Det.bindAny (Det.readSize y.2) (Det.bindEq Det.setSize fun _ => Det.ok _)
  | selfT id => simp [sharable] at hs
  | compound id ss => exact det_unpack_compound hN hs id hsrc

theorem det_unpack {b : Bool} {env : Env} (he : Parallel F b true env) : ∀ n, Unpacks F b env n ∧ ∀ m, n = m + 1 → Unpacks F b env m
  | 0 => ⟨fun _ _ _ _ => Det.throw _, fun _ h => by omega⟩
  | n + 1 => ⟨det_unpack_succ he (det_unpack he n).1 (det_unpack he n).2, fun m hm => by
      have : m = n := by omega
      subst this; exact (det_unpack he m).1⟩

theorem det_createUnpack {b : Bool} {env : Env} (he : Parallel F b true env) (n : Nat) (cls : ClassId) {src : Src} (hsrc : b = false → src = .io) :
    Det F (fun _ : Unit => True) (fun _ => False) (fun _ => createUnpack env n cls src) fun a => a :=
  Det.bindEq (det_createUnpackWith he (det_unpack he n).1 (det_unpack he n).2 cls hsrc) fun _ => Det.ok _

theorem det_unpackObj {b : Bool} {env : Env} (he : Parallel F b true env) (n : Nat) (v : Val) {src : Src} (hsrc : b = false → src = .io) :
    Det F (fun _ : Unit => True) (fun _ => False) (fun _ => unpackObj env n v src) fun a => a := by
  cases v with
  | obj cls bo attrs =>
    cases ho : objSer env cls bo with
    | error e =>
      refine (Det.throw e).of fun i hi => ⟨i, hi, ?_⟩
      simp only [unpackObj, ho]; rfl
    | ok cs =>
      obtain ⟨ci, ser⟩ := cs
      simp only [unpackObj, ho]
      refine Det.okBind (det_unpack_own (det_unpack he n).1 (det_unpack he n).2 (he cls bo ci ser ho) _ _ hsrc fun vals => ?_)
      by_cases h : vals.length = ci.attrs.length
      · simp only [if_pos h]; exact Det.ok _
      · simp only [if_neg h]; exact Det.throw _
  | _ => exact Det.throw _

end Verif.Threads
