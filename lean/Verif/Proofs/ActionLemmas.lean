import Verif.Proofs.AddLemmas
import Verif.Spec.Struct
/-
Helper lemmas about the actions of struct serializers.
-/
namespace Verif

theorem runActions_append (as bs : List Action) (vs ws : List Val) (h : as.length = vs.length) :
    StructSer.runActions (as ++ bs) (vs ++ ws) = (do
      let x ← StructSer.runActions as vs
      let y ← StructSer.runActions bs ws
      .ok (x ++ y)) := by
  induction as generalizing vs with
  | nil =>
    have : vs = [] := by simpa using h.symm
    subst this
    simp only [List.nil_append, StructSer.runActions, bind, Except.bind]
    cases StructSer.runActions bs ws <;> rfl
  | cons a as ih =>
    cases vs with
    | nil => simp at h
    | cons v vs =>
      simp only [List.cons_append, StructSer.runActions, bind, Except.bind]
      cases a v with
      | error e => rfl
      | ok w =>
        dsimp only
        rw [ih vs (by simpa using h)]
        simp only [bind, Except.bind]
        cases StructSer.runActions as vs with
        | error e => rfl
        | ok x =>
          dsimp only
          cases StructSer.runActions bs ws <;> rfl

theorem runActions_noop (n : Nat) (vs : List Val) (h : vs.length ≤ n) :
    StructSer.runActions (List.replicate n noopAction) vs = .ok vs := by
  induction n generalizing vs with
  | zero => have : vs = [] := by simpa using h
            subst this; rfl
  | succ n ih =>
    cases vs with
    | nil => rfl
    | cons v vs =>
      have e : noopAction v = .ok v := rfl
      simp only [List.replicate_succ, StructSer.runActions, e, bind, Except.bind]
      rw [ih vs (by simpa using h)]

/-- All the actions of a serializer, with `noop_action` for the plain ones. -/
def StructSer.allActions (s : StructSer) : List Action :=
  s.actions.getD (List.replicate s.numValues noopAction)

theorem StructSer.Valid.allActions_length {s : StructSer} (h : s.Valid) :
    s.allActions.length = s.numValues := by
  unfold StructSer.allActions
  cases ha : s.actions with
  | none => simp
  | some as => simpa using h.acts as ha

theorem StructSer.applyActions_eq {s : StructSer} {vs : List Val}
    (hl : vs.length = s.numValues) : s.applyActions vs = StructSer.runActions s.allActions vs := by
  unfold StructSer.applyActions StructSer.allActions
  cases ha : s.actions with
  | none => simp [runActions_noop _ _ (Nat.le_of_eq hl)]
  | some as => rfl

theorem StructSer.unpack_actions {P : Platform} {c d : StructSer} {g : List Val → Except Err (List Val)}
    (hd : d.actions = none) (hbo : c.byteOrder = d.byteOrder) (hag : ToksAgree c.toks d.toks)
    (hg : ∀ raw : List Val, raw.length = numVals d.toks → c.applyActions raw = g raw) :
    (∀ buf, c.unpack P buf = d.unpack P buf >>= g) ∧
    (∀ buf off, c.unpackFrom P buf off = d.unpackFrom P buf off >>= g) ∧
    (∀ x, c.unpackRead P x = d.unpackRead P x >>= g) := by
  have hsz : ∀ nat, sizeToks nat c.toks = sizeToks nat d.toks := fun nat => hag.off nat 0
  have hda : ∀ raw, d.applyActions raw = .ok raw := by
    intro raw; simp [StructSer.applyActions, hd]
  have key : ∀ (q : Prop) [Decidable q] (raw : List Val), raw.length = numVals d.toks →
      ((if q then Except.ok raw else .error .structError : Except Err (List Val)) >>= c.applyActions)
      = (((if q then Except.ok raw else .error .structError : Except Err (List Val)) >>= d.applyActions)
          >>= g) := by
    intro q _ raw hraw
    by_cases hq : q
    · simp only [hq, ↓reduceIte, bind, Except.bind, hda, hg raw hraw]
    · simp only [hq, ↓reduceIte, bind, Except.bind]
  refine ⟨?_, ?_, ?_⟩
  · intro buf
    simp only [StructSer.unpack, structUnpack, StructSer.size, hbo, hsz, hag.unpack]
    exact key _ _ (unpackToks_length ..)
  · intro buf off
    simp only [StructSer.unpackFrom, structUnpackFrom, hbo, hsz, hag.unpack]
    exact key _ _ (unpackToks_length ..)
  · intro x
    simp only [StructSer.unpackRead, structUnpack, hbo, hsz, hag.unpack]
    exact key _ _ (unpackToks_length ..)

open Spec in
theorem runActions_rep {a : StructSer} (ha : a.Valid) (n : Nat) (raw : List Val)
    (h : raw.length = n * a.numValues) :
    StructSer.runActions (rep n a.allActions) raw = applyN a n raw := by
  induction n generalizing raw with
  | zero => rfl
  | succ n ih =>
    have hl1 : (raw.take a.numValues).length = a.numValues := by
      simp [h, Nat.succ_mul]
    have hl2 : (raw.drop a.numValues).length = n * a.numValues := by
      simp [h, Nat.succ_mul]
    rw [rep_succ]
    conv => lhs; rw [← List.take_append_drop a.numValues raw]
    rw [runActions_append _ _ _ _ (by rw [hl1, ha.allActions_length]), ih _ hl2, applyN,
      StructSer.applyActions_eq hl1]

theorem numVals_rep (n : Nat) (t : List Tok) : numVals (rep n t) = n * numVals t := by
  induction n with
  | zero => simp [rep, numVals]
  | succ n ih => rw [rep_succ, numVals_append, ih, Nat.succ_mul]; omega

/-- The format that `*` computes, for formats where it is right. -/
theorem mul_format {a : StructSer} (ha : a.Valid) (m : Nat)
    (hs : SingleItem a.baseFormat ∨ lastCode a.toks ≠ firstCode a.toks ∨
      (∃ c, lastCode a.toks = some c ∧ c.isString = true)) :
    ∃ f t, (List.replicate m a.baseFormat).foldl (foldOverlaps false) a.baseFormat = f ∧
      parse a.byteOrder.isNative f = some t ∧ ToksAgree t (rep (m + 1) a.toks) := by
  have h1 := StructSer.parse_base ha.fmt
  have hrep := parse_rep h1 (m + 1)
  by_cases hnm : lastCode a.toks ≠ firstCode a.toks ∨
      (∃ c, lastCode a.toks = some c ∧ c.isString = true)
  · exact ⟨_, _, fold_repeat_nomerge h1 hnm m, hrep, .refl _⟩
  · rcases hs with ⟨ds, ch, hf, hd, hch⟩ | hs
    · obtain ⟨c, hc⟩ := Option.isSome_iff_exists.1 hch
      have hbase := parse_item a.byteOrder.isNative ds hd ch c hc []
      rw [← hf, h1] at hbase
      split at hbase
      · cases hbase
      · rename_i hno
        simp only [parse, parseAux, Option.map_some, Option.some.injEq] at hbase
        have hstr : c.isString = false := by
          cases hh : c.isString with
          | false => rfl
          | true =>
            exfalso
            exact hnm (.inr ⟨c, by simp [lastCode, hbase], hh⟩)
        obtain ⟨f, hff, _, hfp⟩ := fold_repeat_single (cs := false) hd hc hno (.inr hstr) m
        refine ⟨f, _, by rw [hf]; exact hff, hfp, ?_⟩
        rw [hbase]
        exact ToksAgree.rep_single c hstr _ m
    · exact absurd hs hnm

/-- A format without native-only codes parses to the same items in both modes. -/
theorem parseAux_mode {f : List Char} {acc : Option Nat} {t : List Tok}
    (h : parseAux false f acc = some t) : parseAux true f acc = some t := by
  induction f generalizing acc t with
  | nil =>
    cases acc with
    | none => simpa [parseAux] using h
    | some _ => simp [parseAux] at h
  | cons ch cs ih =>
    simp only [parseAux] at h ⊢
    split at h
    · rename_i hw; rw [if_pos hw]; exact ih h
    · rename_i hw
      rw [if_neg hw]
      split at h
      · rename_i hd; rw [if_pos hd]; exact ih h
      · rename_i hd
        rw [if_neg hd]
        cases ho : Code.ofChar ch with
        | none => simp [ho] at h
        | some k =>
          simp only [ho] at h ⊢
          split at h
          · cases h
          · rw [if_neg (by simp)]
            cases hr : parseAux false cs none with
            | none => simp [hr] at h
            | some r => simp [hr] at h; simp [ih hr, h]

theorem parse_two_modes {f : List Char} {t u : List Tok} {x y : Bool}
    (h : parse x f = some t) (k : parse y f = some u) : t = u := by
  cases x <;> cases y
  · exact Option.some.inj (h.symm.trans k)
  · exact Option.some.inj ((parseAux_mode h).symm.trans k)
  · exact Option.some.inj (h.symm.trans (parseAux_mode k))
  · exact Option.some.inj (h.symm.trans k)

end Verif
