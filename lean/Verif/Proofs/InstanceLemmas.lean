import Verif.Instances
import Verif.Proofs.Proxy
/-
Lemmas on attributes of instances.
-/
namespace Verif

theorem getAttr_setAttr_same (as : List (Name × Val)) (a : Name) (v : Val) : getAttr? (setAttr as a v) a = some v := by
  induction as with
  | nil => simp [setAttr, getAttr?]
  | cons x xs ih =>
    obtain ⟨b, w⟩ := x
    rw [setAttr]
    split
    · simp [getAttr?]
    · rename_i h
      simp only [getAttr?, List.find?_cons, h] at ih ⊢
      exact ih

theorem getAttr_setAttr_other (as : List (Name × Val)) {a b : Name} (v : Val) (h : b ≠ a) : getAttr? (setAttr as a v) b = getAttr? as b := by
  induction as with
  | nil => simp [setAttr, getAttr?, Ne.symm h]
  | cons x xs ih =>
    obtain ⟨c, w⟩ := x
    rw [setAttr]
    split
    · rename_i h'
      have : c = a := by simpa using h'
      subst this
      simp [getAttr?, Ne.symm h]
    · simp only [getAttr?, List.find?_cons] at ih ⊢
      split
      · rfl
      · exact ih

theorem getAttr_setAll_other (nvs as : List (Name × Val)) {b : Name} (h : b ∉ nvs.map Prod.fst) : getAttr? (setAll as nvs) b = getAttr? as b := by
  induction nvs generalizing as with
  | nil => rfl
  | cons x xs ih =>
    simp only [List.map_cons, List.mem_cons, not_or] at h
    show getAttr? (setAll (setAttr as x.1 x.2) xs) b = _
    rw [ih _ h.2, getAttr_setAttr_other _ _ h.1]

theorem getAttr_setAll_zip : ∀ (names : List Name) (vals : List Val) (as : List (Name × Val)), names.Nodup →
    ∀ (i : Nat) (h1 : i < names.length) (h2 : i < vals.length), getAttr? (setAll as (names.zip vals)) names[i] = some vals[i]
  | [], _, _, _, i, h1, _ => by simp at h1
  | _ :: _, [], _, _, i, _, h2 => by simp at h2
  | a :: names, v :: vals, as, hn, i, h1, h2 => by
    simp only [List.nodup_cons] at hn
    show getAttr? (setAll (setAttr as a v) (names.zip vals)) _ = _
    cases i with
    | zero =>
      have := (zip_fst_sublist names vals).subset
      simp only [List.getElem_cons_zero]
      rw [getAttr_setAll_other _ _ (fun hm => hn.1 (this hm)), getAttr_setAttr_same]
    | succ i =>
      simp only [List.getElem_cons_succ]
      exact getAttr_setAll_zip names vals _ hn.2 i (by simpa using h1) (by simpa using h2)

end Verif
