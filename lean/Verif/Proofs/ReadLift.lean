import Verif.Proofs.ReadSame
import Verif.Samples
/-
From the functional reading back to `create_unpack` and its variants, from every state.
-/
namespace Verif
open Sem Samples

variable {env : Env}

theorem createUnpack_ok {n : Nat} {cls : ClassId} {src : Src} {st : St} {v : Val} {r : Dec} {ser : Ser}
    (h : decObj env (dec env n) cls (src.sem st) = .ok (v, r, ser)) :
    ∃ st', createUnpack env n cls src st = .ok v st' ∧ Adv src r.pos st st' ∧ SizeIs ser r.size st' := by
  have h1 := createUnpackWith_rel (env := env) (fun upd => unpack_rel env n upd) cls src st
  rw [h] at h1
  obtain ⟨⟨v1, x1⟩, s1, h1, p1, p2, a1, z1, _⟩ := h1
  simp only at p1 p2
  subst p1; subst p2
  exact ⟨s1, by rw [createUnpack, M.bind_eq h1]; rfl, a1, z1⟩

theorem createUnpack_err {n : Nat} {cls : ClassId} {src : Src} {st : St} {e : Err}
    (h : decObj env (dec env n) cls (src.sem st) = .err e) :
    ∃ st', createUnpack env n cls src st = .err e st' := by
  have h1 := createUnpackWith_rel (env := env) (fun upd => unpack_rel env n upd) cls src st
  rw [h] at h1
  obtain ⟨s1, h1, _⟩ := h1
  exact ⟨s1, by simp [createUnpack, bind, M.bind, h1]⟩

theorem decObj_ser {decN : Upd → Ser → Option PObj → PSrc → Out Dec} {cls : ClassId} {src : PSrc} {v : Val} {r : Dec} {ser : Ser}
    (h : decObj env decN cls src = .ok (v, r, ser)) : ∃ ci, env.classes cls = some ci ∧ ser = ci.serializer := by
  unfold decObj at h
  split at h
  · cases h
  · rename_i ci hci
    obtain ⟨x, _, h⟩ := Out.ofE_ok' h
    obtain ⟨a, _, h⟩ := Out.bind_ok' h
    obtain ⟨v', _, h⟩ := Out.ofE_ok' h
    cases h
    exact ⟨ci, hci, rfl⟩

/-- In a settled program the functional reading explains every completed `create_unpack`. -/
theorem createUnpack_inv {own : ClassId → List SerId} (hs : env.settled own) {n : Nat} {cls : ClassId} {src : Src}
    {st st' : St} {v : Val} (h : createUnpack env n cls src st = .ok v st') :
    ∃ r ser, decObj env (dec env n) cls (src.sem st) = .ok (v, r, ser) ∧ Adv src r.pos st st' ∧ SizeIs ser r.size st' := by
  have hq := (decObj_quiet hs (dec_quiet hs n) cls (src.sem st)).1
  cases ho : decObj env (dec env n) cls (src.sem st) with
  | stuck => exact absurd ho hq
  | err e =>
    obtain ⟨s1, h1⟩ := createUnpack_err ho
    rw [h] at h1; cases h1
  | ok x =>
    obtain ⟨v', r, ser⟩ := x
    obtain ⟨s1, h1, h2, h3⟩ := createUnpack_ok ho
    rw [h] at h1; cases h1
    exact ⟨r, ser, rfl, h2, h3⟩

theorem createUnpack_result {own : ClassId → List SerId} (hs : env.settled own) {n : Nat} {cls : ClassId} {src : Src} {st : St} :
    (∃ v r ser, decObj env (dec env n) cls (src.sem st) = .ok (v, r, ser) ∧
      result (createUnpack env n cls src st) = .ok v ∧ Adv src r.pos st (after (createUnpack env n cls src st))) ∨
    (∃ e, decObj env (dec env n) cls (src.sem st) = .err e ∧ result (createUnpack env n cls src st) = .error e) := by
  have hq := (decObj_quiet hs (dec_quiet hs n) cls (src.sem st)).1
  cases ho : decObj env (dec env n) cls (src.sem st) with
  | stuck => exact absurd ho hq
  | err e =>
    obtain ⟨s1, h1⟩ := createUnpack_err ho
    exact .inr ⟨e, rfl, by rw [h1]; rfl⟩
  | ok x =>
    obtain ⟨v', r, ser⟩ := x
    obtain ⟨s1, h1, h2, h3⟩ := createUnpack_ok ho
    exact .inl ⟨v', r, ser, rfl, by rw [h1]; rfl, by rw [h1]; exact h2⟩

end Verif
