import Verif.Proofs.Adding
import Verif.Props.StructActions
import Verif.Spec.Strings
/-
The sum of two struct serializers does what the two do one after the other.
-/
namespace Verif
open Spec

theorem unpackToks_shift {P : Platform} {bo : ByteOrder} {d : Nat} : ∀ (ts : List Tok) (o : Nat) (b : Bytes),
    (∀ t ∈ ts, d % t.c.align bo.isNative = 0) → unpackToks P bo ts (o + d) b = unpackToks P bo ts o b := by
  intro ts
  induction ts with
  | nil => intros; rfl
  | cons t ts ih =>
    intro o b h
    simp only [unpackToks]
    rw [padLen_add (h t (by simp)),
      show o + d + padLen (t.c.align bo.isNative) o + t.bytes bo.isNative
        = (o + padLen (t.c.align bo.isNative) o + t.bytes bo.isNative) + d by omega,
      ih _ _ (fun u hu => h u (by simp [hu]))]

/-- Bytes after the end do not matter. -/
theorem unpackToks_take {P : Platform} {bo : ByteOrder} : ∀ (ts : List Tok) (o k : Nat) (b : Bytes),
    endOff bo.isNative ts o ≤ o + k → unpackToks P bo ts o (b.take k) = unpackToks P bo ts o b := by
  intro ts
  induction ts with
  | nil => intros; rfl
  | cons t ts ih =>
    intro o k b h
    simp only [unpackToks]
    simp only [endOff] at h
    have := le_endOff bo.isNative ts (o + padLen (t.c.align bo.isNative) o + t.bytes bo.isNative)
    rw [List.drop_take, List.take_take, Nat.min_eq_left (by omega), List.drop_take, ih _ _ _ (by omega)]

theorem endOff_shift {nat : Bool} {d : Nat} : ∀ (ts : List Tok) (o : Nat),
    (∀ t ∈ ts, d % t.c.align nat = 0) → endOff nat ts (o + d) = endOff nat ts o + d := by
  intro ts
  induction ts with
  | nil => intros; rfl
  | cons t ts ih =>
    intro o h
    simp only [endOff]
    rw [padLen_add (h t (by simp)),
      show o + d + padLen (t.c.align nat) o + t.bytes nat = (o + padLen (t.c.align nat) o + t.bytes nat) + d by omega,
      ih _ (fun u hu => h u (by simp [hu]))]

/-- What a clean sum is like. -/
structure SumFacts (x y z : StructSer) : Prop where
  valid : z.Valid
  byteOrder : z.byteOrder = x.byteOrder
  toks : ToksAgree z.toks (x.toks ++ y.toks)
  apply : ∀ raw, raw.length = x.numValues + y.numValues → z.applyActions raw = applyBoth x y raw

variable {x y z : StructSer}

theorem sum_facts (hx : x.Valid) (hy : y.Valid) (hbo : x.byteOrder = y.byteOrder) (hs : Seam y.baseFormat x.toks y.toks)
    (h : x.add y = .ok z) : SumFacts x y z := by
  have h1 := StructSer.parse_base hx.fmt
  have h2 := StructSer.parse_base hy.fmt
  rw [← hbo] at h2
  obtain ⟨t, ht, hag⟩ := foldOverlaps_agree h1 h2 hs
  have hnum : numVals t = x.numValues + y.numValues := by
    rw [hag.vals, numVals_append]; rfl
  have plain : x.actions = none → y.actions = none → SumFacts x y z := by
    intro ha hb
    unfold StructSer.add at h
    simp only [ha, hb, if_pos hbo, StructSer.mkPlain_ok ht] at h
    cases h
    obtain ⟨e0, e1, _, e2⟩ := StructSer.of_parse (a := none) ht
    refine ⟨⟨e0, by simp⟩, e1, by rw [e2]; exact hag, fun raw _ => ?_⟩
    simp [StructSer.applyActions, applyBoth, ha, hb, bind, Except.bind]
  by_cases hact : x.actions ≠ none ∨ y.actions ≠ none
  · have hadd : x.add y = .ok ⟨x.byteOrder.value ++ foldOverlaps false x.baseFormat y.baseFormat,
        some (x.allActions ++ y.allActions)⟩ := by
      unfold StructSer.add
      cases haa : x.actions with
      | none =>
        cases hba : y.actions with
        | none => simp [haa, hba] at hact
        | some bs =>
          dsimp only
          have hbl := hy.acts bs hba
          rw [StructSer.mkActions_ok ht (by simp [hbl, hnum])]
          simp [StructSer.allActions, haa, hba, hnum, hbl]
      | some as =>
        have hal := hx.acts as haa
        cases hba : y.actions with
        | none =>
          dsimp only
          rw [StructSer.mkActions_ok ht (by omega)]
          simp [StructSer.allActions, haa, hba, hnum, hal]
        | some bs =>
          have hbl := hy.acts bs hba
          dsimp only
          rw [StructSer.mkActions_ok ht (by simp [hal, hbl, hnum])]
          simp [StructSer.allActions, haa, hba, hnum, hal, hbl]
    rw [hadd] at h
    cases h
    obtain ⟨f1, f2, _, f4⟩ := StructSer.of_parse (a := some (x.allActions ++ y.allActions)) ht
    refine ⟨⟨f1, ?_⟩, f2, by rw [f4]; exact hag, fun raw hraw => ?_⟩
    · intro as has
      cases has
      rw [List.length_append, hx.allActions_length, hy.allActions_length]
      simp only [StructSer.numValues, f4]
      exact hnum.symm
    · have hl1 : (raw.take x.numValues).length = x.numValues := by simp; omega
      have hl2 : (raw.drop x.numValues).length = y.numValues := by simp; omega
      show StructSer.runActions _ _ = _
      conv => lhs; rw [← List.take_append_drop x.numValues raw]
      rw [runActions_append _ _ _ _ (by rw [hl1, hx.allActions_length])]
      unfold applyBoth
      rw [StructSer.applyActions_eq hl1, StructSer.applyActions_eq hl2]
  · simp only [not_or, Decidable.not_not] at hact
    exact plain (by simpa using hact.1) (by simpa using hact.2)

namespace Spec.CleanSum
variable (h : CleanSum x y z)
include h

theorem facts : SumFacts x y z := sum_facts h.xok h.yok h.byteOrder h.seam h.sum

theorem numValues : z.numValues = x.numValues + y.numValues := by
  simp only [StructSer.numValues]
  rw [h.facts.toks.vals, numVals_append]

theorem endOff_y : endOff x.byteOrder.isNative y.toks x.size = x.size + y.size := by
  have := endOff_shift (nat := x.byteOrder.isNative) y.toks 0 h.fits
  rw [Nat.zero_add] at this
  rw [this, Nat.add_comm]
  simp [StructSer.size, sizeToks, h.byteOrder]

theorem size : z.size = x.size + y.size := by
  rw [← h.endOff_y]
  simp only [StructSer.size, sizeToks]
  rw [h.facts.byteOrder, h.facts.toks.off, endOff_append]

theorem pack (P : Platform) (vs ws : List Val) (hv : vs.length = x.numValues) (hw : ws.length = y.numValues) :
    z.pack P (vs ++ ws) = (do
      let a ← x.pack P vs
      let b ← y.pack P ws
      .ok (a ++ b)) := by
  have hv' : vs.length = numVals x.toks := hv
  have hw' : ws.length = numVals y.toks := hw
  simp only [StructSer.pack, structPack, h.facts.byteOrder, ← h.byteOrder]
  rw [h.facts.toks.vals, h.facts.toks.pack, numVals_append, if_pos (by simp; omega), if_pos hv', if_pos hw',
    packToks_append, packToks_take P _ _ _ vs ws (by omega)]
  cases hp : packToks P x.byteOrder x.toks 0 vs with
  | error e => rfl
  | ok b =>
    have hb : b.length = x.size := by
      have := structSer_pack_length (s := x) (P := P) (vs := vs) (b := b) (by
        simp only [StructSer.pack, structPack]; rw [if_pos hv', hp])
      simpa using this
    simp only [bind, Except.bind]
    rw [hb, packToks_shift _ _ _ h.fits, ← hv', List.drop_left]

/-- Unpacking from bytes that are there. -/
theorem raw (P : Platform) (b : Bytes) : unpackToks P z.byteOrder z.toks 0 b
    = unpackToks P x.byteOrder x.toks 0 b ++ unpackToks P y.byteOrder y.toks 0 (b.drop x.size) := by
  rw [h.facts.byteOrder, h.facts.toks.unpack, unpackToks_append]
  have : endOff x.byteOrder.isNative x.toks 0 = x.size := rfl
  rw [this, Nat.sub_zero]
  have := unpackToks_shift (P := P) (bo := x.byteOrder) y.toks 0 (b.drop x.size) h.fits
  rw [Nat.zero_add] at this
  rw [this, h.byteOrder]

end Spec.CleanSum

/-! ### Unpacking -/

/-- The state after reading `k` bytes. -/
def stepped (src : Src) (k : Nat) (st : St) : St :=
  match src with
  | .io => { st with io := { st.io with pos := st.io.pos + k } }
  | _ => st

theorem lift_ok {x : Except Err α} {a : α} {st st' : St} : M.lift x st = .ok a st' ↔ x = .ok a ∧ st' = st := by
  cases x with
  | error e => simp [M.lift]
  | ok b =>
    simp only [M.lift, Res.ok.injEq, Except.ok.injEq]
    exact ⟨fun ⟨a, b⟩ => ⟨a, b.symm⟩, fun ⟨a, b⟩ => ⟨a, b.symm⟩⟩

/-- When a struct unpacks successfully, and what it then gives. -/
theorem structUnpackM_ok {env : Env} {s : StructSer} {src : Src} {st st' : St} {vs : List Val} :
    structUnpackM env s src st = .ok vs st' ↔ ∃ d, Shows src st d ∧ s.size ≤ d.length ∧
      s.applyActions (unpackToks env.plat s.byteOrder s.toks 0 (d.take s.size)) = .ok vs ∧ st' = stepped src s.size st := by
  have hsz : s.size = sizeToks s.byteOrder.isNative s.toks := rfl
  cases src with
  | buf b =>
    rw [structUnpackM, lift_ok]
    simp only [StructSer.unpack, structUnpack, ← hsz, Shows, stepped, exists_eq_left', List.length_take]
    by_cases hl : s.size ≤ b.length
    · rw [if_pos (by omega)]
      simp [hl, bind, Except.bind]
    · rw [if_neg (by omega)]
      simp [hl, bind, Except.bind]
  | «at» b off =>
    rw [structUnpackM, lift_ok]
    simp only [StructSer.unpackFrom, structUnpackFrom, ← hsz, Shows, stepped]
    by_cases hl : off ≤ b.length ∧ s.size ≤ b.length - off
    · rw [if_pos hl]
      constructor
      · rintro ⟨h, rfl⟩
        exact ⟨_, ⟨hl.1, rfl⟩, by simpa using hl.2, h, rfl⟩
      · rintro ⟨d, ⟨_, rfl⟩, _, h, rfl⟩
        exact ⟨h, rfl⟩
    · rw [if_neg hl]
      constructor
      · rintro ⟨h, _⟩; cases h
      · rintro ⟨d, ⟨h1, rfl⟩, h2, _⟩
        exact absurd ⟨h1, by simpa using h2⟩ hl
  | io =>
    simp only [structUnpackM, Shows, stepped, exists_eq_left']
    show M.lift _ { st with io := (st.io.read s.size).2 } = _ ↔ _
    rw [lift_ok]
    simp only [StructSer.unpackRead, structUnpack, ← hsz, Stream.read, List.length_take]
    by_cases hl : s.size ≤ (st.io.data.drop st.io.pos).length
    · rw [if_pos (by omega), Nat.min_eq_left hl]
      simp [hl, bind, Except.bind, -List.length_drop]
    · rw [if_neg (by omega)]
      simp [hl, bind, Except.bind, -List.length_drop]

theorem shows_next {src : Src} {st : St} {d : Bytes} {k : Nat} (h : Shows src st d) (hk : k ≤ d.length) :
    Shows (src.next k) (stepped src k st) (d.drop k) := by
  cases src with
  | buf b => cases h; rfl
  | «at» b off =>
    obtain ⟨h1, rfl⟩ := h
    simp at hk
    exact ⟨by omega, by rw [List.drop_drop]⟩
  | io =>
    have h' : st.io.data.drop st.io.pos = d := h
    subst h'
    show st.io.data.drop (st.io.pos + k) = _
    rw [List.drop_drop]

theorem shows_inj {src : Src} {st : St} {d e : Bytes} (h : Shows src st d) (h' : Shows src st e) : d = e := by
  cases src with
  | buf b => exact (show b = d from h).symm.trans h'
  | «at» b off => exact h.2.symm.trans h'.2
  | io => exact (show _ = d from h).symm.trans h'

/-- The sum unpacks exactly when the two unpack one after the other, with the same values. -/
theorem Spec.CleanSum.unpack (h : CleanSum x y z) {env : Env} {src : Src} {st st' : St} {vs : List Val} :
    structUnpackM env z src st = .ok vs st' ↔ ∃ v1 st1 v2, structUnpackM env x src st = .ok v1 st1 ∧
      structUnpackM env y (src.next x.size) st1 = .ok v2 st' ∧ vs = v1 ++ v2 := by
  have hlx : ∀ b, (unpackToks env.plat x.byteOrder x.toks 0 b).length = x.numValues := fun b => unpackToks_length ..
  have hly : ∀ b, (unpackToks env.plat y.byteOrder y.toks 0 b).length = y.numValues := fun b => unpackToks_length ..
  have key : ∀ b : Bytes, z.applyActions (unpackToks env.plat z.byteOrder z.toks 0 b) = (do
      let v1 ← x.applyActions (unpackToks env.plat x.byteOrder x.toks 0 b)
      let v2 ← y.applyActions (unpackToks env.plat y.byteOrder y.toks 0 (b.drop x.size))
      .ok (v1 ++ v2)) := by
    intro b
    rw [h.raw, h.facts.apply _ (by rw [List.length_append, hlx, hly])]
    unfold applyBoth
    rw [← hlx b, List.take_left, List.drop_left]
  have tx : ∀ d : Bytes, unpackToks env.plat x.byteOrder x.toks 0 (d.take z.size)
      = unpackToks env.plat x.byteOrder x.toks 0 (d.take x.size) := by
    intro d
    rw [unpackToks_take _ _ _ _ (by rw [h.size]; exact Nat.le_trans (Nat.le_add_right x.size y.size) (by omega)),
      unpackToks_take _ _ _ _ (Nat.le_of_eq (Nat.zero_add x.size).symm)]
  have ty : ∀ d : Bytes, (d.take z.size).drop x.size = (d.drop x.size).take y.size := by
    intro d
    rw [List.drop_take, h.size, Nat.add_sub_cancel_left]
  have hst : ∀ st, stepped (src.next x.size) y.size (stepped src x.size st) = stepped src z.size st := by
    intro st
    cases src <;> simp [stepped, Src.next, h.size, Nat.add_assoc]
  constructor
  · intro hz
    obtain ⟨d, h1, h2, h3, rfl⟩ := structUnpackM_ok.1 hz
    rw [key] at h3
    obtain ⟨v1, h4, h3⟩ := Except.bind_ok' h3
    obtain ⟨v2, h5, h3⟩ := Except.bind_ok' h3
    cases h3
    rw [tx] at h4
    rw [ty] at h5
    have hs := h.size
    exact ⟨v1, _, v2, structUnpackM_ok.2 ⟨d, h1, by omega, h4, rfl⟩,
      structUnpackM_ok.2 ⟨_, shows_next h1 (by omega), by rw [List.length_drop]; omega, h5, (hst st).symm⟩, rfl⟩
  · rintro ⟨v1, st1, v2, h1, h2, rfl⟩
    obtain ⟨d, g1, g2, g3, rfl⟩ := structUnpackM_ok.1 h1
    obtain ⟨d', k1, k2, k3, rfl⟩ := structUnpackM_ok.1 h2
    cases shows_inj k1 (shows_next g1 g2)
    rw [List.length_drop] at k2
    refine structUnpackM_ok.2 ⟨d, g1, by rw [h.size]; omega, ?_, hst st⟩
    rw [key, tx, ty, g3, k3]
    rfl
end Verif
