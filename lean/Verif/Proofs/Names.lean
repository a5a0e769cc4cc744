import Verif.Spec.Names
import Verif.Proofs.ZipLemmas
import Verif.Proofs.Proxy
import Verif.Proofs.Enough
/-
Lemmas on the lookups of `Names.lean`.
-/
namespace Verif.Names
open Spec

theorem getAttr_clear {names : List Name} {attrs : List (Name × Val)} (h : Clear names attrs) {m : Name} (hm : m ∈ names) :
    getAttr? attrs m = none := by
  unfold getAttr?
  rw [Option.map_eq_none_iff, List.find?_eq_none]
  intro x hx he
  exact h x.1 (List.mem_map_of_mem hx) (by rw [eq_of_beq he]; exact hm)

theorem method_clear {attrs : List (Name × Val)} {m : Name} (h : getAttr? attrs m = none) : method attrs m = .ok () := by
  unfold method
  rw [h]

theorem serializer_clear {attrs : List (Name × Val)} {m : Name} (h1 : getAttr? attrs "_serializer" = none)
    (h2 : getAttr? attrs "serializer" = none) : serializer attrs m = .ok () := by
  unfold serializer
  rw [method_clear h1, h2]
  rfl

theorem method_taken {attrs : List (Name × Val)} {m : Name} {v : Val} (h : getAttr? attrs m = some v) :
    method attrs m = .error .typeError := by
  unfold method
  rw [h]

theorem lift_ok_bind {α : Type} {x : Except Err Unit} {f : M α} (h : x = .ok ()) : (M.lift x >>= fun _ => f) = f := by
  subst h
  rfl

theorem lift_error_bind {α : Type} {x : Except Err Unit} {f : M α} {e : Err} (h : x = .error e) (st : St) :
    (M.lift x >>= fun _ => f) st = .err e st := by
  subst h
  rfl

theorem names_zip {names : List Name} : ∀ {vals : List Val}, (names.zip vals).map (·.1) = names.take vals.length := by
  induction names with
  | nil => intro vals; simp
  | cons a names ih =>
    intro vals
    cases vals with
    | nil => simp
    | cons v vals => simp [ih]

theorem clear_zip {ns names : List Name} {vals : List Val} (h : ∀ a ∈ names, a ∉ ns) : Clear ns (names.zip vals) := by
  intro a ha
  rw [names_zip] at ha
  exact h a (List.mem_of_mem_take ha)

theorem objSer_class {env : Env} {cls : ClassId} {bo : Option ByteOrder} {ci ci' : ClassInfo} {ser : Ser}
    (hci : env.classes cls = some ci) (h : objSer env cls bo = .ok (ci', ser)) : ci' = ci := by
  unfold objSer at h
  rw [hci] at h
  cases bo with
  | none => cases h; rfl
  | some b =>
    obtain ⟨s, _, h⟩ := Except.bind_ok' h
    cases h
    rfl

theorem getAttr_setAttr {a b : Name} {v : Val} : ∀ {as : List (Name × Val)},
    getAttr? (setAttr as b v) a = if b = a then some v else getAttr? as a := by
  intro as
  induction as with
  | nil =>
    by_cases h : b = a <;> simp [setAttr, getAttr?, h]
  | cons x as ih =>
    obtain ⟨c, w⟩ := x
    by_cases hc : c = b
    · subst hc
      by_cases h : c = a <;> simp [setAttr, getAttr?, h]
    · by_cases h : c = a
      · subst h
        have : ¬ b = c := fun e => hc e.symm
        simp [setAttr, getAttr?, hc, this]
      · simp only [getAttr?] at ih
        simp [setAttr, getAttr?, hc, h, ih]

theorem getAttr_assigned {a : Name} {names : List Name} {vals : List Val} (hl : vals.length = names.length) (ha : a ∈ names) :
    ∃ w, getAttr? ((names.zip vals).foldl (fun as nv => setAttr as nv.1 nv.2) []) a = some w := by
  have keep : ∀ (nvs as : List (Name × Val)), (∃ w, getAttr? as a = some w) →
      ∃ w, getAttr? (nvs.foldl (fun as nv => setAttr as nv.1 nv.2) as) a = some w := by
    intro nvs
    induction nvs with
    | nil => intro as h; exact h
    | cons x nvs ih =>
      rintro as ⟨w, h⟩
      refine ih _ ?_
      rw [getAttr_setAttr]
      by_cases hx : x.1 = a
      · exact ⟨_, if_pos hx⟩
      · exact ⟨w, by rw [if_neg hx]; exact h⟩
  have main : ∀ (nvs as : List (Name × Val)), a ∈ nvs.map (·.1) →
      ∃ w, getAttr? (nvs.foldl (fun as nv => setAttr as nv.1 nv.2) as) a = some w := by
    intro nvs
    induction nvs with
    | nil => intro as h; cases h
    | cons x nvs ih =>
      intro as h
      rcases List.mem_cons.1 h with h | h
      · refine keep nvs _ ⟨x.2, ?_⟩
        rw [getAttr_setAttr, if_pos h.symm]
      · exact ih _ h
  refine main _ _ ?_
  rw [names_zip, hl, List.take_length]
  exact ha

end Verif.Names
