import Verif.Proofs.ThreadWp
import Verif.Proofs.Enough
/-
Packing among other threads.
-/
namespace Verif.Threads

variable {ι κ α β γ δ σ : Type} {F : Sizes}

/-- The serializer that `prepack` returns for a sharable one. -/
def spec (s : Ser) (p : PObj) : Ser :=
  match s with
  | .selfT id => .structured id p.cls
  | .compound id ss => if needsPreprocess ss then .specialized id p ss else .compound id ss
  | s => s

/-- The serializer whose `_partial_object` is set by `prepack`. -/
def holds (s : Ser) (j : SerId) : Prop :=
  match s with
  | .array id .. | .tuple id _ => j = id
  | _ => False

theorem spec_numValues (s : Ser) (p : PObj) : (spec s p).numValues = s.numValues := by
  cases s with
  | selfT id => rfl
  | compound id ss =>
    simp only [spec]
    split
    · simp only [Ser.numValues]
    · rfl
  | _ => rfl

theorem Det.prepack {b u : Bool} {s : Ser} (hs : sharable F b u s = true) {I : ι → Prop} {K : Known} {p : ι → PObj} {f : ι → Ser → T α} {g : α → γ}
    (h : Det F I (fun j => K j ∨ holds s j) (fun i => f i (spec s (p i))) g) :
    Det F I K (fun i => prepack s (p i) >>= f i) g := by
  cases s with
  | array id hdr item sl =>
    exact (Det.setPart (id := id) (p := p) h).of fun i hi => ⟨i, hi, rfl⟩
  | tuple id inner => exact (Det.setPart (id := id) (p := p) h).of fun i hi => ⟨i, hi, rfl⟩
  | lookback => simp [sharable] at hs
  | lookahead => simp [sharable] at hs
  | cond => simp [sharable] at hs
  | specialized => simp [sharable] at hs
  | _ => exact (h.known fun j hj => hj.elim (fun h => h) False.elim).of fun i hi => ⟨i, hi, rfl⟩

theorem Det.readSize {I : ι → Prop} {K : Known} : ∀ s : Ser, Det F I K (fun _ => readSize s) fun _ => ()
  | .unicode inner _ _ => by simp only [Threads.readSize]; exact Det.readSize inner
  | .tuple _ inner => by simp only [Threads.readSize]; exact Det.readSize inner
  | .null | .struct _ | .staticArr _ _ _ | .skip _ => Det.pure () fun _ _ => rfl
  | .dynChar _ _ | .consuming _ | .terminated _ _ | .net _ | .array _ _ _ _ | .dynArr _ _ _
  | .lookback _ _ _ _ _ | .lookahead _ _ _ _ _ _ | .structured _ _ | .compound _ _
  | .specialized _ _ _ => Det.getSize
  | .cond _ _ _ | .selfT _ => Det.throw _

theorem Det.readSpec {I : ι → Prop} {K : Known} {p : ι → PObj} (s : Ser) : Det F I K (fun i => Threads.readSize (spec s (p i))) fun _ => () := by
  cases s with
  | selfT id => exact Det.getSize
  | compound id ss =>
    refine Det.of (y := fun _ : ι => getCellSize id) Det.getSize fun i hi => ⟨i, hi, ?_⟩
    simp only [spec]
    split <;> rfl
  | _ => exact Det.readSize _

theorem spec_plain {s : Ser} (h : s.overridesPre = false) (p : PObj) : spec s p = s ∧ ∀ j, ¬ holds s j := by
  cases s <;> first | exact ⟨rfl, fun _ h => h⟩ | cases h

/-- `pre i s` is the specialization of a sharable serializer for `P i`. -/
def PreOk (F : Sizes) (b u : Bool) (I : ι → Prop) (pre : ι → Ser → T Ser) (P : ι → PObj) (s : Ser) : Prop :=
  ∀ (κ α γ : Type) (J : κ → Prop) (π : κ → ι) (K : Known) (f : κ → Ser → T α) (g : α → γ), (∀ k, J k → I (π k)) →
    (∀ s0, sharable F b u s0 = true → (fixedSize F s = true → fixedSize F s0 = true) →
      Det F J (fun j => K j ∨ holds s0 j) (fun k => f k (spec s0 (P (π k)))) g) →
    Det F J K (fun k => pre (π k) s >>= f k) g

theorem preOk_shared {b u : Bool} {s : Ser} (hs : sharable F b u s = true) {I : ι → Prop} {P : ι → PObj} :
    PreOk F b u I (fun i s => prepack s (P i)) P s := fun _ _ _ _ _ _ _ _ _ h => Det.prepack hs (h s hs fun h => h)

theorem preOk_pure {b u : Bool} {s : Ser} (hs : sharable F b u s = true) (ho : s.overridesPre = false) {I : ι → Prop} {P : ι → PObj} :
    PreOk F b u I (fun _ s => pure s) P s := by
  intro κ α γ J π K f g _ h
  refine (Det.known (h s hs fun h => h) fun j hj => hj.elim (fun h => h) fun h => ?_).of fun k hk => ⟨k, hk, ?_⟩
  · cases s <;> first | exact h.elim | cases ho
  · show f k s = _
    rw [(spec_plain ho _).1]

theorem preOk_own {b u : Bool} {s : Ser} (hs : ownField F b u s = true) {I : ι → Prop} (p : PObj) :
    PreOk F b u I (fun _ s => prepack s p) (fun _ => p) s := by
  have plain : ∀ s', sharable F b u s' = true → s'.overridesPre = false → (fixedSize F s = true → fixedSize F s' = true) →
      ∀ (κ α γ : Type) (J : κ → Prop) (K : Known) (f : κ → Ser → T α) (g : α → γ),
      (∀ s0, sharable F b u s0 = true → (fixedSize F s = true → fixedSize F s0 = true) →
        Det F J (fun j => K j ∨ holds s0 j) (fun k => f k (spec s0 p)) g) → Det F J K (fun k => f k s') g := by
    intro s' h1 h2 h3 κ α γ J K f g h
    have := h s' h1 h3
    rw [(spec_plain h2 p).1] at this
    exact this.known fun j hj => hj.elim (fun h => h) fun h => ((spec_plain h2 p).2 j h).elim
  cases s with
  | cond ser c defs =>
    simp only [ownField, Bool.and_eq_true, Bool.not_eq_true'] at hs
    intro κ α γ J π K f g _ h
    cases hc : (do condPick ser defs (← c p) : Except Err Ser) with
    | error e =>
      refine (Det.throw e : Det F J K _ g).of fun k hk => ⟨k, hk, ?_⟩
      show (T.lift _ >>= f k) = _
      rw [hc]; rfl
    | ok s' =>
      have hs' : sharable F b u s' = true ∧ s'.overridesPre = false ∧ (fixedSize F (.cond ser c defs) = true → fixedSize F s' = true) := by
        obtain ⟨r, _, h2⟩ := Except.bind_ok' hc
        unfold condPick at h2
        split at h2
        · cases h2
        · split at h2
          · cases h2; exact ⟨hs.2, hs.1, fun h => h⟩
          · split at h2
            · cases h2; exact ⟨rfl, rfl, fun _ => rfl⟩
            · cases h2
      refine (plain s' hs'.1 hs'.2.1 hs'.2.2 κ α γ J K f g h).of fun k hk => ⟨k, hk, ?_⟩
      show (T.lift _ >>= f k) = _
      rw [hc]; rfl
  | selfT id =>
    intro κ α γ J π K f g _ h
    exact (plain (.structured id p.cls) rfl rfl (fun h => by cases h) κ α γ J K f g h).of fun k hk => ⟨k, hk, rfl⟩
  | _ => exact fun κ α γ J π K f g _ h => Det.prepack hs (h _ hs fun h => h)

/-- `packLoop`, given the parts. -/
theorem det_packLoop {b u : Bool} {packN : Ser → List Val → T Bytes}
    (hN : ∀ s vs, sharable F b u s = true → Det F (fun _ : PObj => True) (holds s) (fun p => packN (spec s p) vs) fun a => a)
    {I : ι → Prop} {pre : ι → Ser → T Ser} {P : ι → PObj} : ∀ (ss : List Ser) (vs : List Val), (∀ s ∈ ss, PreOk F b u I pre P s) →
    ∀ (κ : Type) (J : κ → Prop) (π : κ → ι) (K : Known), (∀ k, J k → I (π k)) →
    Det F J K (fun k => packLoop packN (pre (π k)) ss vs) Prod.fst
  | [], _, _, κ, J, π, K, _ => Det.pure [] fun _ _ => rfl
  | s :: ss, vs, hp, κ, J, π, K, hJ => by
    simp only [packLoop]
    refine hp s (by simp) κ _ _ J π K _ _ hJ fun s0 hs0 _ => ?_
    simp only [spec_numValues]
    refine Det.bindEq (((hN s0 (vs.take s0.numValues) hs0).known fun j hj => Or.inr hj).of fun k _ => ⟨P (π k), trivial, rfl⟩)
      fun b => ?_
    refine Det.bindAny (Det.readSpec s0) ?_
    refine Det.bindFst (det_packLoop hN ss (vs.drop s0.numValues) (fun s hs => hp s (by simp [hs])) (κ × Nat) _ (fun k => π k.1) _
      fun k hk => hJ _ hk) fun bs => ?_
    exact Det.pure (b ++ bs) fun _ _ => rfl

theorem det_packItems {packN : Ser → List Val → T Bytes} {I : ι → Prop} {item : ι → Ser}  {K : Known}
    (hN : ∀ v, Det F I K (fun i => packN (item i) [v]) fun a => a) (hr : Det F I K (fun i => readSize (item i)) fun _ => ()) :
    ∀ vs, Det F I K (fun i => packItems packN (item i) vs) Prod.fst
  | [] => Det.pure [] fun _ _ => rfl
  | v :: vs => by
    simp only [packItems]
    refine Det.bindEq (hN v) fun b => ?_
    refine Det.bindAny hr ?_
    refine Det.bindFst ((det_packItems hN hr vs).of fun ia hia => ⟨ia.1, hia, rfl⟩) fun bs => ?_
    exact Det.pure (b ++ bs) fun _ _ => rfl

theorem headerPack_unsized {hdr : Option StructSer} {sl : Int} (h : unsized hdr sl = true) (count d1 d2 : Nat) :
    headerPackValues hdr sl count d1 = headerPackValues hdr sl count d2 := by
  unfold unsized at h
  unfold headerPackValues
  split at h
  · rename_i hs
    rw [if_pos hs, if_pos hs]
    have : hdrNum hdr ≠ 1 := by simpa using h
    rw [if_neg this, if_neg this]
  · rename_i hs
    rw [if_neg hs, if_neg hs]
    have : hdrNum hdr ≠ 2 := by simpa using h
    rw [if_neg this, if_neg this]

theorem sharableList_mem {b u : Bool} : ∀ {ss : List Ser}, sharableList F b u ss = true → ∀ s ∈ ss, sharable F b u s = true
  | [], _, s, hs => by cases hs
  | t :: ss, h, s, hs => by
    simp only [sharableList, Bool.and_eq_true] at h
    cases hs with
    | head => exact h.1.1
    | tail _ hs => exact sharableList_mem h.2 s hs

theorem ownFields_mem {b u : Bool} : ∀ {ss : List Ser}, ownFields F b u ss = true → ∀ s ∈ ss, ownField F b u s = true
  | [], _, s, hs => by cases hs
  | t :: ss, h, s, hs => by
    simp only [ownFields, Bool.and_eq_true] at h
    cases hs with
    | head => exact h.1.1
    | tail _ hs => exact ownFields_mem h.2 s hs

theorem ownField_plain {b u : Bool} {s : Ser} (h : ownField F b u s = true) (ho : s.overridesPre = false) : sharable F b u s = true := by
  cases s <;> first | exact h | cases ho

theorem needs_false {ss : List Ser} (h : ¬ needsPreprocess ss = true) : ∀ s ∈ ss, s.overridesPre = false := by
  intro s hs
  unfold needsPreprocess at h
  simp only [List.any_eq_true, not_exists, not_and, Bool.not_eq_true] at h
  exact h s hs

/-! ### `pack` -/

/-- Packing with a sharable serializer, whatever object it was shown. -/
def Packs (F : Sizes) (b u : Bool) (env : Env) (n : Nat) : Prop :=
  ∀ s vs, sharable F b u s = true → Det F (fun _ : PObj => True) (holds s) (fun p => pack env n (spec s p) vs) fun a => a

theorem det_pack_fields {b u : Bool} {env : Env} {n : Nat} (hN : Packs F b u env n) {ss : List Ser} (hs : ownFields F b u ss = true) (id : SerId)
    (p : PObj) (vs : List Val) {K : Known} : Det F (fun _ : Unit => True) K (fun _ => pack env (n + 1) (spec (.compound id ss) p) vs) fun a => a := by
  have loop : ∀ pre : Ser → T Ser, (∀ s ∈ ss, PreOk F b u (fun _ : Unit => True) (fun _ => pre) (fun _ => p) s) →
      Det F (fun _ : Unit => True) K (fun _ => (do
        let (b, total) ← packLoop (pack env n) pre ss vs
        setSize id total
        pure b)) fun a => a := fun pre hp => by
    refine Det.bindFst (det_packLoop hN ss vs hp Unit _ (fun _ => ()) K fun _ _ => trivial) fun bs => ?_
    refine Det.bindEq Det.setSize fun _ => ?_
    exact Det.pure bs fun _ _ => rfl
  simp only [spec]
  by_cases hn : needsPreprocess ss = true
  · simp only [hn, if_true, pack]
    exact loop _ fun s h => preOk_own (ownFields_mem hs s h) p
  · simp only [hn, pack]
    exact loop _ fun s h => preOk_pure (ownField_plain (ownFields_mem hs s h) (needs_false hn s h)) (needs_false hn s h)

theorem det_objPack {b u : Bool} {env : Env} (he : Parallel F b u env) {n : Nat} (hN : Packs F b u env n)
    (hN' : ∀ m, n = m + 1 → Packs F b u env m) (v : Val) {K : Known} :
    Det F (fun _ : Unit => True) K (fun _ => objPack env (pack env n) v) fun a => a := by
  cases v with
  | obj cls bo attrs =>
    simp only [objPack]
    cases ho : objSer env cls bo with
    | error e => exact (Det.throw e : Det F _ _ _ _).of fun i hi => ⟨i, hi, rfl⟩
    | ok cs =>
      obtain ⟨ci, ser⟩ := cs
      have hs := he cls bo ci ser ho
      have fields : ∀ s', (∀ vals, Det F (fun _ : Unit => True) K (fun _ => pack env n s' vals) fun a => a) →
          Det F (fun _ : Unit => True) K (fun _ => (do
            let vals ← T.lift (getAttrs attrs ci.attrs)
            let b ← pack env n s' vals
            pure (b, ser))) fun a => a := fun s' h =>
        Det.bindEq (Det.lift _ fun _ _ => rfl) fun vals => Det.bindEq (h vals) fun bs => Det.pure (bs, ser) fun _ _ => rfl
      have simple : ownField F b u ser = true → Det F (fun _ : Unit => True) K (fun _ => (do
          let s ← prepack ser ⟨cls, false, attrs⟩
          let vals ← T.lift (getAttrs attrs ci.attrs)
          let b ← pack env n s vals
          pure (b, ser))) fun a => a := fun hs =>
        preOk_own (I := fun _ : Unit => True) hs ⟨cls, false, attrs⟩ Unit _ _ _ (fun _ => ()) K _ _ (fun _ _ => trivial) fun s0 hs0 _ =>
          Det.bindEq (Det.lift _ fun _ _ => rfl) fun vals =>
            Det.bindEq (((hN s0 vals hs0).known fun j hj => Or.inr hj).of fun k _ => ⟨_, trivial, rfl⟩) fun bs =>
              Det.pure (bs, ser) fun _ _ => rfl
      cases ser with
      | compound id ss =>
        refine fields (spec (.compound id ss) ⟨cls, false, attrs⟩) fun vals => ?_
        cases n with
        | zero => exact Det.throw _
        | succ m => exact det_pack_fields (hN' m rfl) hs id _ vals
      | _ => exact simple hs
  | _ => exact Det.throw _

theorem det_compound {b u : Bool} {env : Env} {n : Nat} (hN : Packs F b u env n) {ss : List Ser} (hs : sharableList F b u ss = true) (id : SerId)
    (vs : List Val) {K : Known} : Det F (fun _ : PObj => True) K (fun p => pack env (n + 1) (spec (.compound id ss) p) vs) fun a => a := by
  have loop : ∀ pre : PObj → Ser → T Ser, (∀ s ∈ ss, PreOk F b u (fun _ : PObj => True) pre (fun p => p) s) →
      Det F (fun _ : PObj => True) K (fun p => (do
        let (b, total) ← packLoop (pack env n) (pre p) ss vs
        setSize id total
        pure b)) fun a => a := fun pre hp => by
    refine Det.bindFst (det_packLoop hN ss vs hp PObj _ (fun p => p) K fun _ _ => trivial) fun bs => ?_
    refine Det.bindEq Det.setSize fun _ => ?_
    exact Det.pure bs fun _ _ => rfl
  simp only [spec]
  by_cases hn : needsPreprocess ss = true
  · simp only [hn, if_true, pack]
    exact loop _ fun s h => preOk_shared (sharableList_mem hs s h)
  · simp only [hn, pack]
    exact loop _ fun s h => preOk_pure (sharableList_mem hs s h) (needs_false hn s h)

theorem det_pack_succ {b u : Bool} {env : Env} (he : Parallel F b u env) {n : Nat} (hN : Packs F b u env n)
    (hN' : ∀ m, n = m + 1 → Packs F b u env m) : Packs F b u env (n + 1) := by
  intro s vs hs
  cases s with
  | null => exact Det.pure [] fun _ _ => rfl
  | struct st => exact Det.lift _ fun _ _ => rfl
  | dynChar id st =>
    exact Det.bindEq (Det.lift _ fun _ _ => rfl) fun _ => Det.bindEq Det.setSize fun _ => Det.lift _ fun _ _ => rfl
  | consuming id =>
    exact Det.bindEq (Det.lift _ fun _ _ => rfl) fun _ => Det.bindEq Det.setSize fun _ => Det.pure _ fun _ _ => rfl
  | terminated id term =>
    exact Det.bindEq (Det.lift _ fun _ _ => rfl) fun _ => Det.bindEq Det.setSize fun _ => Det.lift _ fun _ _ => rfl
  | net id =>
    exact Det.bindEq (Det.lift _ fun _ _ => rfl) fun _ => Det.bindEq Det.setSize fun _ => Det.lift _ fun _ _ => rfl
  | unicode inner enc dec =>
    simp only [sharable, Bool.and_eq_true, Bool.not_eq_true'] at hs
    refine Det.bindEq (Det.lift _ fun _ _ => rfl) fun raw => ?_
    have := (hN inner [.bytes raw] hs.2).known (K' := holds (.unicode inner enc dec)) fun j hj => ((spec_plain hs.1 (default : PObj)).2 j hj).elim
    exact this.of fun p hp => ⟨p, hp, by rw [(spec_plain hs.1 p).1]⟩
  | array id hdr item sl =>
    simp only [sharable, Bool.and_eq_true] at hs
    refine Det.bindAny (Det.getPart (id := id) rfl) ?_
    refine Det.prepack hs.1.2 ?_
    refine Det.bindEq (Det.lift _ fun _ _ => rfl) fun v => ?_
    refine Det.bindEq (Det.lift _ fun _ _ => rfl) fun items => ?_
    refine Det.bindFst (det_packItems (fun v => ?_) (Det.readSpec item) items) fun data => ?_
    · exact ((hN item [v] hs.1.2).known fun j hj => Or.inr hj).of fun i _ => ⟨i.2, trivial, rfl⟩
    · refine Det.bindEq (Det.lift (headerPackValues hdr sl items.length 0) fun _ _ => headerPack_unsized hs.1.1 ..) fun hv => ?_
      refine Det.bindEq (Det.lift _ fun _ _ => rfl) fun h => ?_
      refine Det.bindEq Det.setSize fun _ => ?_
      exact Det.pure _ fun _ _ => rfl
  | staticArr count item ser =>
    exact Det.bindEq (Det.lift _ fun _ _ => rfl) fun _ => Det.lift _ fun _ _ => rfl
  | dynArr id cnt item =>
    exact Det.bindEq (Det.lift _ fun _ _ => rfl) fun _ => Det.bindEq Det.setSize fun _ => Det.lift _ fun _ _ => rfl
  | tuple id inner =>
    simp only [sharable] at hs
    match vs with
    | [v] =>
      refine Det.bindAny (Det.getPart (id := id) rfl) ?_
      refine Det.prepack hs ?_
      refine Det.bindEq (Det.lift _ fun _ _ => rfl) fun vals => ?_
      exact ((hN inner vals hs).known fun j hj => Or.inr hj).of fun i _ => ⟨i.2, trivial, rfl⟩
    | [] | _ :: _ :: _ => exact Det.throw _
  | lookback => simp [sharable] at hs
  | lookahead => simp [sharable] at hs
  | cond => simp [sharable] at hs
  | specialized => simp [sharable] at hs
  | skip vals => exact Det.pure [] fun _ _ => rfl
  | structured id cls =>
    match vs with
    | [v] =>
      refine Det.bindEq (Det.const (det_objPack he hN hN' v)) fun y => ?_
      refine Det.bindAny (Det.readSize y.2) ?_
      refine Det.bindEq Det.setSize fun _ => ?_
      exact Det.pure _ fun _ _ => rfl
    | [] | _ :: _ :: _ => exact Det.throw _
  | selfT id =>
    match vs with
    | [v] =>
      refine Det.bindEq (Det.const (det_objPack he hN hN' v)) fun y => ?_
      refine Det.bindAny (Det.readSize y.2) ?_
      refine Det.bindEq Det.setSize fun _ => ?_
      exact Det.pure _ fun _ _ => rfl
    | [] | _ :: _ :: _ => exact Det.throw _
  | compound id ss => exact det_compound hN hs id vs

theorem det_pack {b u : Bool} {env : Env} (he : Parallel F b u env) : ∀ n, Packs F b u env n ∧ ∀ m, n = m + 1 → Packs F b u env m
  | 0 => ⟨fun _ _ _ => Det.throw _, fun _ h => by omega⟩
  | n + 1 => ⟨det_pack_succ he (det_pack he n).1 (det_pack he n).2, fun m hm => by
      have : m = n := by omega
      subst this; exact (det_pack he m).1⟩

theorem det_packObj {b u : Bool} {env : Env} (he : Parallel F b u env) (n : Nat) (v : Val) :
    Det F (fun _ : Unit => True) (fun _ => False) (fun _ => packObj env n v) fun a => a :=
  Det.bindEq (det_objPack he (det_pack he n).1 (det_pack he n).2 v) fun _ => Det.pure _ fun _ _ => rfl

end Verif.Threads
