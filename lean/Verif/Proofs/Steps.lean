import Verif.Proofs.PeekAhead
import Verif.Spec.Steps

/-!
Where a stream stands after unpacking: as many bytes further as the size says, or at its end with a .NET string cut short.
-/
namespace Verif.Stride
open Sem Spec

variable {env : Env} {pk : Bool}

theorem steps_mem {ss : List Ser} : Ser.stepsList pk ss = true ↔ ∀ s ∈ ss, s.steps pk = true := by
  induction ss with
  | nil => simp [Ser.stepsList]
  | cons s ss ih => simp [Ser.stepsList, ih]

theorem preU_steps {s s' : Ser} {p : PObj} {q : Option PObj} (ha : s.steps pk = true) (h : preU s p = .ok (s', q)) : s'.steps pk = true := by
  rcases preU_cases s p with ⟨id, rfl⟩ | ⟨_, h2⟩
  · obtain ⟨c, h1, h⟩ := Except.bind_ok' h
    cases h
    rfl
  · rw [h2] at h
    cases s with
    | cond ser c defs =>
      obtain ⟨r, h1, h⟩ := Except.bind_ok' h
      obtain ⟨s2, h2, h⟩ := Except.bind_ok' h
      cases h
      rcases condPick_cases h2 with rfl | rfl
      · simpa [Ser.steps] using ha
      · rfl
    | compound id ss =>
      simp only [Sem.pre, Except.ok.injEq, Prod.mk.injEq] at h
      obtain ⟨h1, h2⟩ := h
      split at h1
      · subst h1; simpa [Ser.steps] using ha
      · subst h1; exact ha
    | _ => cases h; first | exact ha | rfl

theorem unionPick_steps {keys : List Val} {opts : List Ser} {dflt s : Ser} {r : Val}
    (h : unionPick keys opts dflt r = .ok s) (ho : Ser.stepsList pk opts = true) (hd : dflt.steps pk = true) : s.steps pk = true := by
  rcases unionPick_mem h with h | rfl
  · exact steps_mem.1 ho s h
  · exact hd

/-- From `pos`, `size` bytes were read and the stream is at `pos'`. -/
def At (pk : Bool) (d : Bytes) (pos size pos' : Nat) : Prop := pos' = pos + size ∨ (pk = false ∧ d.length < pos + size)

theorem At.then {d : Bytes} {pos size pos' k pos'' : Nat} (h : At pk d pos size pos') (h2 : At pk d pos' k pos'') : At pk d pos (size + k) pos'' := by
  rcases h with h | ⟨e, h⟩
  · rcases h2 with h2 | ⟨e, h2⟩
    · exact .inl (by omega)
    · exact .inr ⟨e, by omega⟩
  · exact .inr ⟨e, by omega⟩

def Goes (pk : Bool) (decN : Upd → Ser → Option PObj → PSrc → Out Dec) : Prop :=
  ∀ upd s q d pos r, s.steps pk = true → decN upd s q (.io d pos) = .ok r → At pk d pos r.size r.pos

section loops
variable {decN : Upd → Ser → Option PObj → PSrc → Out Dec} {d : Bytes}

theorem decLoop_goes (hN : Goes pk decN) {upd : Upd} {pos0 p0 : Nat} :
    ∀ ss size pos r, Ser.stepsList pk ss = true → At pk d pos0 size pos → decLoop (decN upd) (.io d p0) size pos ss = .ok r → At pk d pos0 r.size r.pos := by
  intro ss
  induction ss with
  | nil => intro size pos r _ hi h; cases h; exact hi
  | cons s ss ih =>
    intro size pos r ha hi h
    rw [decLoop] at h
    rw [Ser.stepsList, Bool.and_eq_true] at ha
    obtain ⟨a, h1, h⟩ := Out.bind_ok' h
    split at h
    · cases h
    · obtain ⟨r', h2, h⟩ := Out.bind_ok' h
      cases h
      have g := ih _ _ _ ha.2 (hi.then (hN _ _ _ _ _ _ ha.1 h1)) h2
      exact g

theorem decLoopSpec_goes (hN : Goes pk decN) {upd0 upd : Upd} {pos0 p0 : Nat} :
    ∀ ss p done size pos r, Ser.stepsList pk ss = true → At pk d pos0 size pos →
      decLoopSpec (decN upd0) upd (.io d p0) p done size pos ss = .ok r → At pk d pos0 r.size r.pos := by
  intro ss
  induction ss with
  | nil => intro p done size pos r _ hi h; cases h; exact hi
  | cons s ss ih =>
    intro p done size pos r ha hi h
    rw [decLoopSpec] at h
    rw [Ser.stepsList, Bool.and_eq_true] at ha
    obtain ⟨⟨s', q⟩, h0, h⟩ := Out.ofE_ok' h
    obtain ⟨a, h1, h⟩ := Out.bind_ok' h
    obtain ⟨p', h3, h⟩ := Out.ofE_ok' h
    split at h
    · cases h
    · obtain ⟨r', h2, h⟩ := Out.bind_ok' h
      cases h
      have g := ih _ _ _ _ _ ha.2 (hi.then (hN _ _ _ _ _ _ (preU_steps ha.1 h0) h1)) h2
      exact g

theorem decItems_goes (hN : Goes pk decN) {upd : Upd} {item : Ser} {q : Option PObj} (ha : item.steps pk = true) {pos0 p0 : Nat} :
    ∀ n size pos r, At pk d pos0 size pos → decItems (decN upd) item q (.io d p0) size pos n = .ok r → At pk d pos0 r.size r.pos := by
  intro n
  induction n with
  | zero => intro size pos r hi h; cases h; exact hi
  | succ n ih =>
    intro size pos r hi h
    rw [decItems] at h
    obtain ⟨a, h1, h⟩ := Out.bind_ok' h
    split at h
    · cases h
    · split at h
      · cases h
      · obtain ⟨r', h2, h⟩ := Out.bind_ok' h
        cases h
        have g := ih _ _ _ (hi.then (hN _ _ _ _ _ _ ha h1)) h2
        exact g

theorem decObj_goes (he : env.steps pk) (hN : Goes pk decN) {cls : ClassId} {v : Val} {r : Dec} {ser : Ser} {pos : Nat}
    (h : decObj env decN cls (.io d pos) = .ok (v, r, ser)) : At pk d pos r.size r.pos := by
  unfold decObj at h
  split at h
  · cases h
  · rename_i ci hci
    obtain ⟨⟨s, q⟩, h1, h⟩ := Out.ofE_ok' h
    obtain ⟨a, h2, h⟩ := Out.bind_ok' h
    obtain ⟨v', h3, h⟩ := Out.ofE_ok' h
    cases h
    have g := hN _ _ _ _ _ _ (preU_steps (he cls ci hci) h1) h2
    exact g

theorem decUnion_goes (hN : Goes pk decN) {upd : Upd} {keys : List Val} {opts : List Ser} {dflt : Ser} {p : PObj} {x : Val} {pos : Nat} {r : Dec}
    (ho : Ser.stepsList pk opts = true) (hd : dflt.steps pk = true) (h : decUnion (decN upd) keys opts dflt p x (.io d pos) = .ok r) :
    At pk d pos r.size r.pos := by
  unfold decUnion at h
  obtain ⟨s, h1, h⟩ := Out.ofE_ok' h
  obtain ⟨⟨s', q⟩, h2, h⟩ := Out.ofE_ok' h
  simp only at h
  split at h
  · cases h
  · obtain ⟨a, h3, h⟩ := Out.bind_ok' h
    split at h
    · cases h
    · cases h
      have g := hN _ _ _ _ _ _ (preU_steps (unionPick_steps h1 ho hd) h2) h3
      exact g

end loops

theorem dec_goes (he : env.steps pk) : ∀ n, Goes pk (dec env n) := by
  intro n
  induction n with
  | zero => intro upd s q d pos r _ h; cases h
  | succ n ih =>
    intro upd s q d pos r ha h
    cases s with
    | null => cases h; exact .inl rfl
    | skip vals => cases h; exact .inl rfl
    | cond => cases h
    | selfT => cases h
    | struct st => exact .inl (dec_leaf_pos (n + 1) upd (.struct st) q d pos r rfl rfl h nofun)
    | dynChar id st => exact .inl (dec_leaf_pos (n + 1) upd (.dynChar id st) q d pos r rfl ha h nofun)
    | consuming id => exact .inl (dec_leaf_pos (n + 1) upd (.consuming id) q d pos r rfl rfl h nofun)
    | terminated id t => exact .inl (dec_leaf_pos (n + 1) upd (.terminated id t) q d pos r rfl rfl h nofun)
    | staticArr c i s => exact .inl (dec_leaf_pos (n + 1) upd (.staticArr c i s) q d pos r rfl rfl h nofun)
    | dynArr c i s => exact .inl (dec_leaf_pos (n + 1) upd (.dynArr c i s) q d pos r rfl rfl h nofun)
    | net id =>
      by_cases hl : pos + r.size ≤ d.length
      · exact .inl (dec_leaf_pos (n + 1) upd (.net id) q d pos r rfl rfl h fun _ => hl)
      · exact .inr ⟨by simpa [Ser.steps] using ha, by omega⟩
    | unicode inner en de =>
      rw [dec] at h
      obtain ⟨a, h1, h⟩ := Out.bind_ok' h
      obtain ⟨vs, h2, h⟩ := Out.ofE_ok' h
      cases h
      have g := ih _ _ _ _ _ _ (by simpa only [Ser.steps] using ha) h1
      exact g
    | array id hdr item sl =>
      simp only [Ser.steps] at ha
      simp only [dec] at h
      obtain ⟨⟨hv, pos1⟩, h1, h⟩ := Out.ofE_ok' h
      obtain ⟨⟨c, ds⟩, _, h⟩ := Out.ofE_ok' h
      cases q with
      | none => cases h
      | some p =>
        obtain ⟨⟨item', qi⟩, h3, h⟩ := Out.ofE_ok' h
        obtain ⟨a, h4, h⟩ := Out.bind_ok' h
        obtain ⟨u, h5, h⟩ := Out.ofE_ok' h
        cases h
        have g := decItems_goes ih (preU_steps ha h3) _ _ _ _ (.inl (structDecOpt_io h1)) h4
        exact g
    | tuple id inner =>
      simp only [Ser.steps] at ha
      cases q with
      | none => cases h
      | some p =>
        simp only [dec] at h
        obtain ⟨⟨inner', qi⟩, h1, h⟩ := Out.ofE_ok' h
        simp only at h
        split at h
        · cases h
        · obtain ⟨a, h2, h⟩ := Out.bind_ok' h
          cases h
          have g := ih _ _ _ _ _ _ (preU_steps ha h1) h2
          exact g
    | lookback id decider keys opts dflt =>
      simp only [Ser.steps, Bool.and_eq_true] at ha
      cases q with
      | none => cases h
      | some p =>
        simp only [dec] at h
        obtain ⟨x, _, h⟩ := Out.ofE_ok' h
        exact decUnion_goes ih ha.1 ha.2 h
    | lookahead id ra decider keys opts dflt =>
      simp only [Ser.steps, Bool.and_eq_true] at ha
      obtain ⟨⟨⟨hpk, hra⟩, ho⟩, hd⟩ := ha
      simp only [dec] at h
      obtain ⟨hr, h1, h⟩ := Out.bind_ok' h
      obtain ⟨x, _, h⟩ := Out.ofE_ok' h
      have hp : hr.pos = pos + hr.size := by
        rcases ih _ _ _ _ _ _ hra h1 with e | ⟨e, _⟩
        · exact e
        · rw [hpk] at e; cases e
      split at h
      · cases h
      · split at h
        · cases h
        · cases q with
          | none => cases h
          | some p =>
            obtain ⟨a, h2, h⟩ := Out.bind_ok' h
            cases h
            have e : (PSrc.io d pos).back hr.pos hr.size = .io d pos := by
              simp only [PSrc.back, hp]
              congr 1
              omega
            rw [e] at h2
            have g := decUnion_goes ih ho hd h2
            exact g
    | structured id cls =>
      rw [dec] at h
      obtain ⟨⟨v, a, ser⟩, h1, h⟩ := Out.bind_ok' h
      simp only at h
      split at h
      · cases h
      · cases h
        have g := decObj_goes he ih h1
        exact g
    | compound id ss =>
      simp only [Ser.steps] at ha
      rw [dec] at h
      exact decLoop_goes ih _ _ _ _ ha (.inl rfl) h
    | specialized id p ss =>
      simp only [Ser.steps] at ha
      rw [dec] at h
      exact decLoopSpec_goes ih _ _ _ _ _ _ ha (.inl rfl) h

end Verif.Stride
