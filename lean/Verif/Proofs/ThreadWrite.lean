import Verif.Proofs.ThreadPack
/-
`pack_write` and `pack_into` among other threads.
-/
namespace Verif.Threads

variable {ι κ α β γ δ σ : Type} {F : Sizes}

theorem Det.ioWrite {I : ι → Prop} {K : Known} (b : Bytes) : Det F I K (fun _ => ioWrite b) fun a => a := Det.modify _ fun _ _ => rfl

/-- A fixed program that does not touch the attributes. -/
theorem Det.still {I : ι → Prop} {K : Known} {x : T α} (h : ∀ l, ∃ z, x l = .ret z) : Det F I K (fun _ => x) fun a => a := by
  intro l
  obtain ⟨z, e⟩ := h l
  refine ⟨z, fun i hi _ _ => ?_⟩
  show Prog.wp _ _ _ (x l)
  rw [e]
  show (Except.map _ z.1, z.2) = z
  obtain ⟨z1, z2⟩ := z
  cases z1 <;> rfl

/-! ### `pack_write` -/

theorem det_packWriteLoop {b u : Bool} {packN : Ser → List Val → T Unit}
    (hN : ∀ s vs, sharable F b u s = true → Det F (fun _ : PObj => True) (holds s) (fun p => packN (spec s p) vs) fun a => a)
    {I : ι → Prop} {pre : ι → Ser → T Ser} {P : ι → PObj} : ∀ (ss : List Ser) (vs : List Val), (∀ s ∈ ss, PreOk F b u I pre P s) →
    ∀ (κ : Type) (J : κ → Prop) (π : κ → ι) (K : Known) (size : κ → Nat), (∀ k, J k → I (π k)) →
    Det F J K (fun k => packWriteLoop packN (pre (π k)) (size k) ss vs) fun _ => ()
  | [], _, _, κ, J, π, K, size, _ => Det.pure () fun _ _ => rfl
  | s :: ss, vs, hp, κ, J, π, K, size, hJ => by
    simp only [packWriteLoop]
    refine hp s (by simp) κ _ _ J π K _ _ hJ fun s0 hs0 _ => ?_
    simp only [spec_numValues]
    refine Det.bindEq (((hN s0 (vs.take s0.numValues) hs0).known fun j hj => Or.inr hj).of fun k _ => ⟨P (π k), trivial, rfl⟩)
      fun b => ?_
    refine Det.bindAny (Det.readSpec s0) ?_
    exact det_packWriteLoop hN ss (vs.drop s0.numValues) (fun s hs => hp s (by simp [hs])) (κ × Nat) _ (fun k => π k.1) _
      (fun k => size k.1 + k.2) fun k hk => hJ _ hk

/-- Writing with a sharable serializer, whatever object it was shown. -/
def Writes (F : Sizes) (b u : Bool) (env : Env) (n : Nat) : Prop :=
  ∀ s vs, sharable F b u s = true → Det F (fun _ : PObj => True) (holds s) (fun p => packWrite env n (spec s p) vs) fun a => a

theorem det_write_fields {b u : Bool} {env : Env} {n : Nat} (hN : Writes F b u env n) {ss : List Ser} (hs : ownFields F b u ss = true) (id : SerId)
    (p : PObj) (vs : List Val) {K : Known} :
    Det F (fun _ : Unit => True) K (fun _ => packWrite env (n + 1) (spec (.compound id ss) p) vs) fun a => a := by
  have loop : ∀ pre : Ser → T Ser, (∀ s ∈ ss, PreOk F b u (fun _ : Unit => True) (fun _ => pre) (fun _ => p) s) →
      Det F (fun _ : Unit => True) K (fun _ => (do
        let total ← packWriteLoop (packWrite env n) pre 0 ss vs
        setSize id total)) fun a => a := fun pre hp =>
    Det.bindAny (det_packWriteLoop hN ss vs hp Unit _ (fun _ => ()) K (fun _ => 0) fun _ _ => trivial) Det.setSize
  simp only [spec]
  by_cases hn : needsPreprocess ss = true
  · simp only [hn, if_true, packWrite]
    exact loop _ fun s h => preOk_own (ownFields_mem hs s h) p
  · simp only [hn, packWrite]
    exact loop _ fun s h => preOk_pure (ownField_plain (ownFields_mem hs s h) (needs_false hn s h)) (needs_false hn s h)

theorem det_write_compound {b u : Bool} {env : Env} {n : Nat} (hN : Writes F b u env n) {ss : List Ser} (hs : sharableList F b u ss = true)
    (id : SerId) (vs : List Val) {K : Known} :
    Det F (fun _ : PObj => True) K (fun p => packWrite env (n + 1) (spec (.compound id ss) p) vs) fun a => a := by
  have loop : ∀ pre : PObj → Ser → T Ser, (∀ s ∈ ss, PreOk F b u (fun _ : PObj => True) pre (fun p => p) s) →
      Det F (fun _ : PObj => True) K (fun p => (do
        let total ← packWriteLoop (packWrite env n) (pre p) 0 ss vs
        setSize id total)) fun a => a := fun pre hp =>
    Det.bindAny (det_packWriteLoop hN ss vs hp PObj _ (fun p => p) K (fun _ => 0) fun _ _ => trivial) Det.setSize
  simp only [spec]
  by_cases hn : needsPreprocess ss = true
  · simp only [hn, if_true, packWrite]
    exact loop _ fun s h => preOk_shared (sharableList_mem hs s h)
  · simp only [hn, packWrite]
    exact loop _ fun s h => preOk_pure (sharableList_mem hs s h) (needs_false hn s h)

theorem det_objPackWrite {b u : Bool} {env : Env} (he : Parallel F b u env) {n : Nat} (hN : Writes F b u env n)
    (hN' : ∀ m, n = m + 1 → Writes F b u env m) (v : Val) {K : Known} :
    Det F (fun _ : Unit => True) K (fun _ => objPackWrite env (packWrite env n) v) fun a => a := by
  cases v with
  | obj cls bo attrs =>
    simp only [objPackWrite]
    cases ho : objSer env cls bo with
    | error e => exact (Det.throw e : Det F _ _ _ _).of fun i hi => ⟨i, hi, rfl⟩
    | ok cs =>
      obtain ⟨ci, ser⟩ := cs
      have hs := he cls bo ci ser ho
      have fields : ∀ s', (∀ vals, Det F (fun _ : Unit => True) K (fun _ => packWrite env n s' vals) fun a => a) →
          Det F (fun _ : Unit => True) K (fun _ => (do
            let vals ← T.lift (getAttrs attrs ci.attrs)
            packWrite env n s' vals
            pure ser)) fun a => a := fun s' h =>
        Det.bindEq (Det.lift _ fun _ _ => rfl) fun vals => Det.bindEq (h vals) fun bs => Det.pure ser fun _ _ => rfl
      have simple : ownField F b u ser = true → Det F (fun _ : Unit => True) K (fun _ => (do
          let s ← prepack ser ⟨cls, false, attrs⟩
          let vals ← T.lift (getAttrs attrs ci.attrs)
          packWrite env n s vals
          pure ser)) fun a => a := fun hs =>
        preOk_own (I := fun _ : Unit => True) hs ⟨cls, false, attrs⟩ Unit _ _ _ (fun _ => ()) K _ _ (fun _ _ => trivial) fun s0 hs0 _ =>
          Det.bindEq (Det.lift _ fun _ _ => rfl) fun vals =>
            Det.bindEq (((hN s0 vals hs0).known fun j hj => Or.inr hj).of fun k _ => ⟨_, trivial, rfl⟩) fun bs =>
              Det.pure ser fun _ _ => rfl
      cases ser with
      | compound id ss =>
        refine fields (spec (.compound id ss) ⟨cls, false, attrs⟩) fun vals => ?_
        cases n with
        | zero => exact Det.throw _
        | succ m => exact det_write_fields (hN' m rfl) hs id _ vals
      | _ => exact simple hs
  | _ => exact Det.throw _

theorem det_write_succ {b u : Bool} {env : Env} (he : Parallel F b u env) {n : Nat} (hN : Writes F b u env n)
    (hN' : ∀ m, n = m + 1 → Writes F b u env m) : Writes F b u env (n + 1) := by
  intro s vs hs
  cases s with
  | null => exact Det.pure () fun _ _ => rfl
  | struct st => exact Det.bindEq (Det.lift _ fun _ _ => rfl) fun _ => Det.ioWrite _
  | dynChar id st =>
    exact Det.bindEq (Det.lift _ fun _ _ => rfl) fun _ => Det.bindEq Det.setSize fun _ => Det.bindEq (Det.lift _ fun _ _ => rfl) fun _ =>
      Det.ioWrite _
  | consuming id =>
    exact Det.bindEq (Det.lift _ fun _ _ => rfl) fun _ => Det.bindEq Det.setSize fun _ => Det.ioWrite _
  | terminated id term =>
    exact Det.bindEq (Det.lift _ fun _ _ => rfl) fun _ => Det.bindEq Det.setSize fun _ => Det.bindEq (Det.lift _ fun _ _ => rfl) fun _ =>
      Det.ioWrite _
  | net id =>
    exact Det.bindEq (Det.lift _ fun _ _ => rfl) fun _ => Det.bindEq Det.setSize fun _ => Det.bindEq (Det.lift _ fun _ _ => rfl) fun _ =>
      Det.ioWrite _
  | unicode inner enc dec =>
    simp only [sharable, Bool.and_eq_true, Bool.not_eq_true'] at hs
    refine Det.bindEq (Det.lift _ fun _ _ => rfl) fun raw => ?_
    have := (hN inner [.bytes raw] hs.2).known (K' := holds (.unicode inner enc dec)) fun j hj => ((spec_plain hs.1 (default : PObj)).2 j hj).elim
    exact this.of fun p hp => ⟨p, hp, by rw [(spec_plain hs.1 p).1]⟩
  | array id hdr item sl => exact Det.bindEq ((det_pack he (n + 1)).1 _ vs hs) fun _ => Det.ioWrite _
  | staticArr count item ser =>
    exact Det.bindEq (Det.lift _ fun _ _ => rfl) fun _ => Det.bindEq (Det.lift _ fun _ _ => rfl) fun _ => Det.ioWrite _
  | dynArr id cnt item =>
    exact Det.bindEq (Det.lift _ fun _ _ => rfl) fun _ => Det.bindEq Det.setSize fun _ => Det.bindEq (Det.lift _ fun _ _ => rfl) fun _ =>
      Det.ioWrite _
  | tuple id inner =>
    simp only [sharable] at hs
    match vs with
    | [v] =>
      refine Det.bindAny (Det.getPart (id := id) rfl) ?_
      refine Det.prepack hs ?_
      refine Det.bindEq (Det.lift _ fun _ _ => rfl) fun vals => ?_
      exact ((hN inner vals hs).known fun j hj => Or.inr hj).of fun i _ => ⟨i.2, trivial, rfl⟩
    | [] | _ :: _ :: _ => exact Det.throw _
  | lookback => simp [sharable] at hs
  | lookahead => simp [sharable] at hs
  | cond => simp [sharable] at hs
  | specialized => simp [sharable] at hs
  | skip vals => exact Det.pure () fun _ _ => rfl
  | structured id cls =>
    match vs with
    | [v] =>
      refine Det.bindEq (Det.const (det_objPackWrite he hN hN' v)) fun y => ?_
      exact Det.bindAny (Det.readSize y) Det.setSize
    | [] | _ :: _ :: _ => exact Det.throw _
  | selfT id =>
    match vs with
    | [v] =>
      refine Det.bindEq (Det.const (det_objPackWrite he hN hN' v)) fun y => ?_
      exact Det.bindAny (Det.readSize y) Det.setSize
    | [] | _ :: _ :: _ => exact Det.throw _
  | compound id ss => exact det_write_compound hN hs id vs

theorem det_write {b u : Bool} {env : Env} (he : Parallel F b u env) : ∀ n, Writes F b u env n ∧ ∀ m, n = m + 1 → Writes F b u env m
  | 0 => ⟨fun _ _ _ => Det.throw _, fun _ h => by omega⟩
  | n + 1 => ⟨det_write_succ he (det_write he n).1 (det_write he n).2, fun m hm => by
      have : m = n := by omega
      subst this; exact (det_write he m).1⟩

theorem det_packObjWrite {b u : Bool} {env : Env} (he : Parallel F b u env) (n : Nat) (v : Val) :
    Det F (fun _ : Unit => True) (fun _ => False) (fun _ => packObjWrite env n v) fun a => a :=
  Det.bindEq (det_objPackWrite he (det_write he n).1 (det_write he n).2 v) fun _ => Det.pure _ fun _ _ => rfl

end Verif.Threads
