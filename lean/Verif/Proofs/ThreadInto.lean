import Verif.Proofs.ThreadWrite
/-
`pack_into` among other threads.
-/
namespace Verif.Threads

variable {ι κ α β γ δ σ : Type} {F : Sizes}

theorem Det.structPackInto {I : ι → Prop} {K : Known} (env s off vs) : Det F I K (fun _ => structPackIntoM env s off vs) fun a => a :=
  Det.still fun l => by
    simp only [structPackIntoM]
    generalize s.packInto env.plat l.buf off vs = y
    obtain ⟨b, o⟩ := y
    cases o <;> exact ⟨_, rfl⟩

theorem Det.packIntoOpt {I : ι → Prop} {K : Known} (env s off vs) : Det F I K (fun _ => packIntoOpt env s off vs) fun a => a := by
  cases s with
  | none => exact Det.pure () fun _ _ => rfl
  | some s => exact Det.structPackInto env s off vs

/-- A size that does not depend on the value is read reliably. -/
theorem Det.readFixed {I : ι → Prop} {K : Known} : ∀ s : Ser, fixedSize F s = true → Det F I K (fun _ => Threads.readSize s) fun a => a
  | .unicode inner _ _, h => by simp only [Threads.readSize]; exact Det.readFixed inner h
  | .tuple _ inner, h => by simp only [Threads.readSize]; exact Det.readFixed inner h
  | .null, _ | .struct _, _ | .staticArr _ _ _, _ | .skip _, _ => Det.pure _ fun _ _ => rfl
  | .cond _ _ _, _ => Det.throw _
  | .structured id _, h => by
    obtain ⟨m, hm⟩ := Option.isSome_iff_exists.1 (show (F id).isSome = true from h)
    exact fun l => ⟨(.ok m, l), fun i _ _ _ n hn => by rw [hn m hm]; rfl⟩

theorem spec_fixed {s : Ser} (h : fixedSize F s = true) (p : PObj) : spec s p = s := by
  cases s <;> first | rfl | cases h

theorem Det.readSpecFixed {I : ι → Prop} {K : Known} {p : ι → PObj} {s : Ser} (h : fixedSize F s = true) :
    Det F I K (fun i => Threads.readSize (spec s (p i))) fun a => a :=
  (Det.readFixed (I := I) (K := K) s h).of fun i hi => ⟨i, hi, by rw [spec_fixed h]⟩

/-- All parts but the last have a fixed size. -/
def frontFixed (F : Sizes) : List Ser → Bool
  | [] => true
  | s :: ss => (fixedSize F s || ss.isEmpty) && frontFixed F ss

theorem sharableList_front {u : Bool} : ∀ {ss : List Ser}, sharableList F true u ss = true → frontFixed F ss = true
  | [], _ => rfl
  | s :: ss, h => by
    simp only [sharableList, Bool.and_eq_true, Bool.not_true, Bool.false_or] at h
    simp only [frontFixed, Bool.and_eq_true]
    exact ⟨h.1.2, sharableList_front h.2⟩

theorem ownFields_front {u : Bool} : ∀ {ss : List Ser}, ownFields F true u ss = true → frontFixed F ss = true
  | [], _ => rfl
  | s :: ss, h => by
    simp only [ownFields, Bool.and_eq_true, Bool.not_true, Bool.false_or] at h
    simp only [frontFixed, Bool.and_eq_true]
    exact ⟨h.1.2, ownFields_front h.2⟩

theorem det_packIntoLoop {b u : Bool} {packN : Ser → Nat → List Val → T Unit}
    (hN : ∀ s off vs, sharable F b u s = true → Det F (fun _ : PObj => True) (holds s) (fun p => packN (spec s p) off vs) fun a => a)
    {I : ι → Prop} {pre : ι → Ser → T Ser} {P : ι → PObj} (off : Nat) : ∀ (ss : List Ser) (size : Nat) (vs : List Val),
    frontFixed F ss = true → (∀ s ∈ ss, PreOk F b u I pre P s) →
    ∀ (κ : Type) (J : κ → Prop) (π : κ → ι) (K : Known), (∀ k, J k → I (π k)) →
    Det F J K (fun k => packIntoLoop packN (pre (π k)) off size ss vs) fun _ => ()
  | [], _, _, _, _, κ, J, π, K, _ => Det.pure () fun _ _ => rfl
  | s :: ss, size, vs, hf, hp, κ, J, π, K, hJ => by
    simp only [frontFixed, Bool.and_eq_true, Bool.or_eq_true] at hf
    simp only [packIntoLoop]
    refine hp s (by simp) κ _ _ J π K _ _ hJ fun s0 hs0 hfx => ?_
    simp only [spec_numValues]
    refine Det.bindEq (((hN s0 (off + size) (vs.take s0.numValues) hs0).known fun j hj => Or.inr hj).of fun k _ => ⟨P (π k), trivial, rfl⟩)
      fun b => ?_
    rcases hf.1 with h | h
    · refine Det.bindEq (Det.readSpecFixed (hfx h)) fun sz => ?_
      exact det_packIntoLoop hN off ss (size + sz) (vs.drop s0.numValues) hf.2 (fun s hs => hp s (by simp [hs])) κ _ π _ hJ
    · cases ss with
      | nil => exact Det.bindAny (Det.readSpec s0) (Det.pure () fun _ _ => rfl)
      | cons t ss => cases h

theorem det_packIntoItems {packN : Ser → Nat → List Val → T Unit} {I : ι → Prop} {item : ι → Ser} {K : Known}
    (hN : ∀ off v, Det F I K (fun i => packN (item i) off [v]) fun a => a) (hr : Det F I K (fun i => readSize (item i)) fun a => a) (off : Nat) :
    ∀ vs size, Det F I K (fun i => packIntoItems packN (item i) off size vs) fun a => a
  | [], size => Det.pure size fun _ _ => rfl
  | v :: vs, size => by
    simp only [packIntoItems]
    exact Det.bindEq (hN _ v) fun _ => Det.bindEq hr fun sz => det_packIntoItems hN hr off vs (size + sz)

/-- `pack_into` with a sharable serializer, whatever object it was shown. -/
def Intos (F : Sizes) (u : Bool) (env : Env) (n : Nat) : Prop :=
  ∀ s off vs, sharable F true u s = true → Det F (fun _ : PObj => True) (holds s) (fun p => packInto env n (spec s p) off vs) fun a => a

theorem det_into_fields {u : Bool} {env : Env} {n : Nat} (hN : Intos F u env n) {ss : List Ser} (hs : ownFields F true u ss = true) (id : SerId)
    (p : PObj) (off : Nat) (vs : List Val) {K : Known} :
    Det F (fun _ : Unit => True) K (fun _ => packInto env (n + 1) (spec (.compound id ss) p) off vs) fun a => a := by
  have loop : ∀ pre : Ser → T Ser, (∀ s ∈ ss, PreOk F true u (fun _ : Unit => True) (fun _ => pre) (fun _ => p) s) →
      Det F (fun _ : Unit => True) K (fun _ => (do
        let total ← packIntoLoop (packInto env n) pre off 0 ss vs
        setSize id total)) fun a => a := fun pre hp =>
    Det.bindAny (det_packIntoLoop hN off ss 0 vs (ownFields_front hs) hp Unit _ (fun _ => ()) K fun _ _ => trivial) Det.setSize
  simp only [spec]
  by_cases hn : needsPreprocess ss = true
  · simp only [hn, if_true, packInto]
    exact loop _ fun s h => preOk_own (ownFields_mem hs s h) p
  · simp only [hn, packInto]
    exact loop _ fun s h => preOk_pure (ownField_plain (ownFields_mem hs s h) (needs_false hn s h)) (needs_false hn s h)

theorem det_into_compound {u : Bool} {env : Env} {n : Nat} (hN : Intos F u env n) {ss : List Ser} (hs : sharableList F true u ss = true)
    (id : SerId) (off : Nat) (vs : List Val) {K : Known} :
    Det F (fun _ : PObj => True) K (fun p => packInto env (n + 1) (spec (.compound id ss) p) off vs) fun a => a := by
  have loop : ∀ pre : PObj → Ser → T Ser, (∀ s ∈ ss, PreOk F true u (fun _ : PObj => True) pre (fun p => p) s) →
      Det F (fun _ : PObj => True) K (fun p => (do
        let total ← packIntoLoop (packInto env n) (pre p) off 0 ss vs
        setSize id total)) fun a => a := fun pre hp =>
    Det.bindAny (det_packIntoLoop hN off ss 0 vs (sharableList_front hs) hp PObj _ (fun p => p) K fun _ _ => trivial) Det.setSize
  simp only [spec]
  by_cases hn : needsPreprocess ss = true
  · simp only [hn, if_true, packInto]
    exact loop _ fun s h => preOk_shared (sharableList_mem hs s h)
  · simp only [hn, packInto]
    exact loop _ fun s h => preOk_pure (sharableList_mem hs s h) (needs_false hn s h)

theorem det_objPackInto {u : Bool} {env : Env} (he : Parallel F true u env) {n : Nat} (hN : Intos F u env n)
    (hN' : ∀ m, n = m + 1 → Intos F u env m) (off : Nat) (v : Val) {K : Known} :
    Det F (fun _ : Unit => True) K (fun _ => objPackInto env (packInto env n) off v) fun a => a := by
  cases v with
  | obj cls bo attrs =>
    simp only [objPackInto]
    cases ho : objSer env cls bo with
    | error e => exact (Det.throw e : Det F _ _ _ _).of fun i hi => ⟨i, hi, rfl⟩
    | ok cs =>
      obtain ⟨ci, ser⟩ := cs
      have hs := he cls bo ci ser ho
      have fields : ∀ s', (∀ vals, Det F (fun _ : Unit => True) K (fun _ => packInto env n s' off vals) fun a => a) →
          Det F (fun _ : Unit => True) K (fun _ => (do
            let vals ← T.lift (getAttrs attrs ci.attrs)
            packInto env n s' off vals
            pure ser)) fun a => a := fun s' h =>
        Det.bindEq (Det.lift _ fun _ _ => rfl) fun vals => Det.bindEq (h vals) fun bs => Det.pure ser fun _ _ => rfl
      have simple : ownField F true u ser = true → Det F (fun _ : Unit => True) K (fun _ => (do
          let s ← prepack ser ⟨cls, false, attrs⟩
          let vals ← T.lift (getAttrs attrs ci.attrs)
          packInto env n s off vals
          pure ser)) fun a => a := fun hs =>
        preOk_own (I := fun _ : Unit => True) hs ⟨cls, false, attrs⟩ Unit _ _ _ (fun _ => ()) K _ _ (fun _ _ => trivial) fun s0 hs0 _ =>
          Det.bindEq (Det.lift _ fun _ _ => rfl) fun vals =>
            Det.bindEq (((hN s0 off vals hs0).known fun j hj => Or.inr hj).of fun k _ => ⟨_, trivial, rfl⟩) fun bs =>
              Det.pure ser fun _ _ => rfl
      cases ser with
      | compound id ss =>
        refine fields (spec (.compound id ss) ⟨cls, false, attrs⟩) fun vals => ?_
        cases n with
        | zero => exact Det.throw _
        | succ m => exact det_into_fields (hN' m rfl) hs id _ off vals
      | _ => exact simple hs
  | _ => exact Det.throw _

theorem det_into_succ {u : Bool} {env : Env} (he : Parallel F true u env) {n : Nat} (hN : Intos F u env n)
    (hN' : ∀ m, n = m + 1 → Intos F u env m) : Intos F u env (n + 1) := by
  intro s off vs hs
  cases s with
  | null => exact Det.pure () fun _ _ => rfl
  | struct st => exact Det.structPackInto _ _ _ _
  | dynChar id st =>
    exact Det.bindEq (Det.lift _ fun _ _ => rfl) fun _ => Det.bindEq Det.setSize fun _ => Det.structPackInto _ _ _ _
  | consuming id =>
    exact Det.bindEq (Det.lift _ fun _ _ => rfl) fun _ => Det.bindEq Det.setSize fun _ => Det.modify _ fun _ _ => rfl
  | terminated id term =>
    exact Det.bindEq (Det.lift _ fun _ _ => rfl) fun _ => Det.bindEq Det.setSize fun _ => Det.bindEq (Det.lift _ fun _ _ => rfl) fun _ =>
      Det.packIntoOpt _ _ _ _
  | net id =>
    exact Det.bindEq (Det.lift _ fun _ _ => rfl) fun _ => Det.bindEq Det.setSize fun _ => Det.structPackInto _ _ _ _
  | unicode inner enc dec =>
    simp only [sharable, Bool.and_eq_true, Bool.not_eq_true'] at hs
    refine Det.bindEq (Det.lift _ fun _ _ => rfl) fun raw => ?_
    have := (hN inner off [.bytes raw] hs.2).known (K' := holds (.unicode inner enc dec)) fun j hj => ((spec_plain hs.1 (default : PObj)).2 j hj).elim
    exact this.of fun p hp => ⟨p, hp, by rw [(spec_plain hs.1 p).1]⟩
  | array id hdr item sl =>
    simp only [sharable, Bool.and_eq_true, Bool.not_true, Bool.false_or] at hs
    refine Det.bindEq (Det.lift _ fun _ _ => rfl) fun v => ?_
    refine Det.bindAny (Det.getPart (id := id) rfl) ?_
    refine Det.prepack hs.1.2 ?_
    refine Det.bindEq (Det.lift _ fun _ _ => rfl) fun items => ?_
    refine Det.bindEq (det_packIntoItems (fun off v => ?_) (Det.readSpecFixed hs.2) off items _) fun size => ?_
    · exact ((hN item off [v] hs.1.2).known fun j hj => Or.inr hj).of fun i _ => ⟨i.2, trivial, rfl⟩
    · refine Det.bindEq (Det.lift _ fun _ _ => rfl) fun hv => ?_
      exact Det.bindEq Det.setSize fun _ => Det.packIntoOpt _ _ _ _
  | staticArr count item ser => exact Det.bindEq (Det.lift _ fun _ _ => rfl) fun _ => Det.packIntoOpt _ _ _ _
  | dynArr id cnt item =>
    exact Det.bindEq (Det.lift _ fun _ _ => rfl) fun _ => Det.bindEq Det.setSize fun _ => Det.structPackInto _ _ _ _
  | tuple id inner =>
    simp only [sharable] at hs
    match vs with
    | [v] =>
      refine Det.bindAny (Det.getPart (id := id) rfl) ?_
      refine Det.prepack hs ?_
      refine Det.bindEq (Det.lift _ fun _ _ => rfl) fun vals => ?_
      exact ((hN inner off vals hs).known fun j hj => Or.inr hj).of fun i _ => ⟨i.2, trivial, rfl⟩
    | [] | _ :: _ :: _ => exact Det.throw _
  | lookback => simp [sharable] at hs
  | lookahead => simp [sharable] at hs
  | cond => simp [sharable] at hs
  | specialized => simp [sharable] at hs
  | skip vals => exact Det.pure () fun _ _ => rfl
  | structured id cls =>
    match vs with
    | [v] =>
      refine Det.bindEq (Det.const (det_objPackInto he hN hN' off v)) fun y => ?_
      exact Det.bindAny (Det.readSize y) Det.setSize
    | [] | _ :: _ :: _ => exact Det.throw _
  | selfT id =>
    match vs with
    | [v] =>
      refine Det.bindEq (Det.const (det_objPackInto he hN hN' off v)) fun y => ?_
      exact Det.bindAny (Det.readSize y) Det.setSize
    | [] | _ :: _ :: _ => exact Det.throw _
  | compound id ss => exact det_into_compound hN hs id off vs

theorem det_into {u : Bool} {env : Env} (he : Parallel F true u env) : ∀ n, Intos F u env n ∧ ∀ m, n = m + 1 → Intos F u env m
  | 0 => ⟨fun _ _ _ _ => Det.throw _, fun _ h => by omega⟩
  | n + 1 => ⟨det_into_succ he (det_into he n).1 (det_into he n).2, fun m hm => by
      have : m = n := by omega
      subst this; exact (det_into he m).1⟩

theorem det_packObjInto {u : Bool} {env : Env} (he : Parallel F true u env) (n off : Nat) (v : Val) :
    Det F (fun _ : Unit => True) (fun _ => False) (fun _ => packObjInto env n off v) fun a => a :=
  Det.bindEq (det_objPackInto he (det_into he n).1 (det_into he n).2 off v) fun _ => Det.pure _ fun _ _ => rfl

end Verif.Threads
