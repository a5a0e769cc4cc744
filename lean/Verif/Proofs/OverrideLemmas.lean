import Verif.Props.Layout
import Verif.Props.ByteOrder
/-
Helper lemmas for class statements with a byte order.
-/
namespace Verif
open Spec

variable {ctx : HintCtx} {n : Nat} {id : SerId} {w w' : World} {d : ClassDecl} {o ob : ClassObj}

/-- The same classes up to `attrs`, `serializer`, `byte_order`. -/
def SameDecls (w w' : World) : Prop :=
  ∀ c, (w c).map (fun o => (o.anns, o.mro, o.origBases)) = (w' c).map (fun o => (o.anns, o.mro, o.origBases))

theorem sameDecls_cases (h : SameDecls w w') (c : ClassId) : (w c = none ∧ w' c = none) ∨
    ∃ o o', w c = some o ∧ w' c = some o' ∧ o.anns = o'.anns ∧ o.mro = o'.mro ∧ o.origBases = o'.origBases := by
  have := h c
  cases h1 : w c with
  | none => rw [h1] at this; cases h2 : w' c with
    | none => exact .inl ⟨rfl, rfl⟩
    | some o => rw [h2] at this; cases this
  | some o => rw [h1] at this; cases h2 : w' c with
    | none => rw [h2] at this; cases this
    | some o' =>
      rw [h2] at this
      simp only [Option.map_some, Option.some.injEq, Prod.mk.injEq] at this
      exact .inr ⟨o, o', rfl, rfl, this⟩

theorem superHints_congr {f g : ClassId → List Hint → Except Err (Dict Hint)} (h : ∀ c a, f c a = g c a) (m : TMap) :
    ∀ l, superHints f m l = superHints g m l := by
  intro l
  induction l with
  | nil => rfl
  | cons x l ih => simp only [superHints, h, ih]

theorem specHints_congr (h : SameDecls w w') : ∀ (k : Nat) (c : ClassId) (args : List Hint),
    specHints ctx n id w k c args = specHints ctx n id w' k c args := by
  intro k
  induction k with
  | zero => intro c args; rfl
  | succ k ih =>
    intro c args
    simp only [specHints]
    rcases sameDecls_cases h c with ⟨h1, h2⟩ | ⟨o, o', h1, h2, h3, h4, h5⟩
    · rw [h1, h2]
    · rw [h1, h2]
      simp only [h3, h4, h5, superHints_congr ih]

/-- All parts of sums. -/
theorem merge_orders {bo : ByteOrder} {xs ys : List Ser} (h : Merge (SumIn bo) xs ys) (P : Ser → Prop)
    (hP : ∀ z : StructSer, z.byteOrder = bo → P (.struct z)) (hx : ∀ x ∈ xs, P x) : ∀ y ∈ ys, P y := by
  induction h with
  | refl xs => exact hx
  | null _ ih =>
    apply ih
    intro x hm
    apply hx
    simp only [List.mem_append, List.mem_cons] at hm ⊢
    rcases hm with h | h
    · exact .inl h
    · exact .inr (.inr h)
  | join hj _ ih =>
    apply ih
    intro x hm
    simp only [List.mem_append, List.mem_cons] at hm
    rcases hm with h | rfl | h
    · exact hx _ (by simp [h])
    · exact hP _ ((sum_facts hj.xok hj.yok (hj.xbo.trans hj.ybo.symm) (.inl hj.single) hj.sum).byteOrder.trans hj.xbo)
    · exact hx _ (by simp [h])

theorem orders_parts {s : Ser} {b : ByteOrder} (h : b ∈ s.orders) : ∃ p ∈ parts s, b ∈ p.orders := by
  cases s <;> first
    | exact ⟨_, List.mem_singleton.2 rfl, h⟩
    | (simp only [Ser.orders] at h; exact ordersList_mem.1 h)
    | cases h

mutual
/-- Changing the byte order does not look at identities. -/
theorem wbo_anon (b : ByteOrder) : ∀ s : Ser, SameAnon (s.anon.withByteOrder b) (s.withByteOrder b)
  | .struct _ => .refl _
  | .dynChar id st => by
    simp only [Ser.anon, Ser.withByteOrder]
    cases st.withByteOrder b <;> rfl
  | .array id hdr item sl => by
    have hi := wbo_anon b item
    cases hdr with
    | none =>
      simp only [Ser.anon, Ser.withByteOrder]
      exact SameAnon.bind hi fun a b _ _ e => .ok (by simp only [Ser.anon, e])
    | some hd =>
      simp only [Ser.anon, Ser.withByteOrder]
      cases hd.withByteOrder b with
      | error e => rfl
      | ok r => exact SameAnon.bind hi fun a b _ _ e => .ok (by simp only [Ser.anon, e])
  | .staticArr .. => .refl _
  | .dynArr id cnt item => by
    simp only [Ser.anon, Ser.withByteOrder]
    cases cnt.withByteOrder b with
    | error e => rfl
    | ok r => cases item.withByteOrder b <;> rfl
  | .cond ser c defs => by
    have hi := wbo_anon b ser
    simp only [Ser.anon, Ser.withByteOrder]
    refine SameAnon.bind hi fun x y _ _ e => ?_
    rw [← numValues_anon x, e, numValues_anon y]
    split
    · rfl
    · exact .ok (by simp only [Ser.anon, e])
  | .compound id ss => by
    simp only [Ser.anon, Ser.withByteOrder]
    exact wbo_anonMk b _ _ ss
  | .specialized id p ss => by
    simp only [Ser.anon, Ser.withByteOrder]
    exact wbo_anonMk b _ _ ss
  | .null => .refl _
  | .consuming _ => rfl
  | .terminated _ _ => rfl
  | .net _ => rfl
  | .unicode i e d => .ok (anon_anon (.unicode i e d))
  | .tuple i x => .ok (anon_anon (.tuple i x))
  | .lookback i a b c d => .ok (anon_anon (.lookback i a b c d))
  | .lookahead i a b c d e => .ok (anon_anon (.lookahead i a b c d e))
  | .skip _ => rfl
  | .structured _ _ => rfl
  | .selfT _ => rfl
theorem wbo_anonMk (b : ByteOrder) (i j : SerId) : ∀ ss : List Ser, SameAnon (Ser.withByteOrderList b (Ser.anonList ss) >>= mkCompound i)
    (Ser.withByteOrderList b ss >>= mkCompound j)
  | ss => by
    have hi := wbo_anonList b ss
    cases hx : Ser.withByteOrderList b (Ser.anonList ss) <;> cases hy : Ser.withByteOrderList b ss <;> rw [hx, hy] at hi
    · cases hi; rfl
    · cases hi
    · cases hi
    · simp only [Except.map, Except.ok.injEq] at hi
      show (mkCompound _ _).map Ser.anon = (mkCompound _ _).map Ser.anon
      rw [mkCompound_anon, mkCompound_anon, hi]
theorem wbo_anonList (b : ByteOrder) : ∀ ss : List Ser, (Ser.withByteOrderList b (Ser.anonList ss)).map Ser.anonList = (Ser.withByteOrderList b ss).map Ser.anonList
  | [] => rfl
  | s :: ss => by
    have h1 := wbo_anon b s
    have h2 := wbo_anonList b ss
    unfold SameAnon at h1
    simp only [Ser.anonList, Ser.withByteOrderList]
    cases hx : s.anon.withByteOrder b <;> cases hy : s.withByteOrder b <;> rw [hx, hy] at h1 <;> cases hz : Ser.withByteOrderList b (Ser.anonList ss) <;>
      cases hw : Ser.withByteOrderList b ss <;> rw [hz, hw] at h2 <;> simp_all [Except.map, bind, Except.bind, Ser.anonList]
end

theorem wbo_same_anon {s t : Ser} (h : s.anon = t.anon) (b : ByteOrder) : SameAnon (s.withByteOrder b) (t.withByteOrder b) :=
  (wbo_anon b s).symm.trans ((congrArg (fun x => (Ser.withByteOrder b x).map Ser.anon) h).trans (wbo_anon b t))

end Verif
