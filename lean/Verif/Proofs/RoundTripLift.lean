import Verif.Proofs.RoundTrip
import Verif.Proofs.ReadLift
import Verif.Proofs.HistoryPack
/-
The round trip for the `Structured` methods, from every state.
-/
namespace Verif
open Sem Samples

variable {env : Env}

/-- For calm objects the functional reading explains every completed `pack`. -/
theorem objPack_inv {n : Nat} {v : Val} (hc : Calm env v.nodes) {st st' : St} {b : Bytes}
    (h : Obj.pack env n v st = .ok b st') : ∃ e ser, encObj env (enc env n) v = .ok (e, ser) ∧ e.bytes = b := by
  have hq := (encObj_quiet (enc_quiet env n) v hc).1
  have h1 := objPack_rel (env := env) (pack_rel env n) v st
  cases ho : encObj env (enc env n) v with
  | stuck => exact absurd ho hq
  | err e =>
    rw [ho] at h1
    obtain ⟨s1, h1, _⟩ := h1
    have : Obj.pack env n v st = .err e s1 := by simp [Obj.pack, bind, M.bind, h1]
    rw [h] at this; cases this
  | ok r =>
    rw [ho] at h1
    obtain ⟨⟨b1, x1⟩, s1, h1, p1, _⟩ := h1
    have : Obj.pack env n v st = .ok b1 s1 := by rw [Obj.pack, M.bind_eq h1]; rfl
    rw [h] at this; cases this
    exact ⟨r.1, r.2, rfl, p1.symm⟩

theorem objPack_ok {n : Nat} {v : Val} {e : Enc} {ser : Ser} (h : encObj env (enc env n) v = .ok (e, ser)) (st : St) :
    ∃ st', Obj.pack env n v st = .ok e.bytes st' := by
  have h1 := objPack_rel (env := env) (pack_rel env n) v st
  rw [h] at h1
  obtain ⟨⟨b1, x1⟩, s1, h1, p1, _⟩ := h1
  simp only at p1
  subst p1
  exact ⟨s1, by rw [Obj.pack, M.bind_eq h1]; rfl⟩

theorem roundTrip {t l : Bool} {n : Nat} {cls : ClassId} {v v' : Val} (hc : Calm env v.nodes)
    (hk : KeptObj env t l cls v v') {st1 st1' : St} {b : Bytes} (h : Obj.pack env n v st1 = .ok b st1')
    {src : Src} {st : St} {rest : Bytes} (hv : Views (src.sem st) (b ++ rest)) (hl : l = true → rest = [])
    (ht : t = true → (src.sem st).isAt = false) :
    ∃ st', createUnpack env n cls src st = .ok v' st' ∧ Adv src ((src.sem st).ahead b.length) st st' ∧
      ∀ ci, env.classes cls = some ci → SizeIs ci.serializer b.length st' := by
  obtain ⟨e, ser, h1, rfl⟩ := objPack_inv hc h
  obtain ⟨vals, h2⟩ := obj_invert (inverts env t n) ht hk h1 hv hl
  obtain ⟨st', g1, g2, g3⟩ := createUnpack_ok h2
  obtain ⟨ci, hci, rfl⟩ := decObj_ser h2
  refine ⟨st', g1, g2, fun ci' hci' => ?_⟩
  rw [hci] at hci'; cases hci'
  exact g3

end Verif
