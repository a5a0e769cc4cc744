import Verif.AttrGetter
/-
Lemmas for `Props/AttrGetter.lean`.
-/
namespace Verif.AttrGetter
open Verif

theorem splitDots_plain : ∀ (cs acc : List Char), '.' ∉ cs → splitDots cs acc = [acc.reverse ++ cs]
  | [], acc, _ => by simp [splitDots]
  | c :: cs, acc, h => by
    have hc : c ≠ '.' := fun e => h (by simp [e])
    rw [splitDots, if_neg hc, splitDots_plain cs (c :: acc) (fun hm => h (List.mem_cons_of_mem _ hm))]
    simp

theorem follow_plain (a : Name) (h : '.' ∉ a.toList) (obj : Val) : follow a obj = attr a obj := by
  rw [follow, splitDots_plain _ _ h]
  simp [List.foldlM]

theorem followAll_plain (cls : ClassId) (bo : Option ByteOrder) (attrs : List (Name × Val)) : ∀ (as : List Name),
    (∀ a ∈ as, '.' ∉ a.toList) → followAll (.obj cls bo attrs) as = getAttrs attrs as
  | [], _ => rfl
  | a :: as, h => by
    rw [followAll, getAttrs, follow_plain a (h a List.mem_cons_self), followAll_plain cls bo attrs as fun b hb =>
      h b (List.mem_cons_of_mem _ hb)]
    dsimp only [attr]
    cases getAttr? attrs a <;> rfl

end Verif.AttrGetter
