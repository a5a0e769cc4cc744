import Verif.Proofs.ReadTrim
import Verif.Proofs.ReadSame
import Verif.Proofs.HistoryUnpack
import Verif.Proofs.RefineUnpack
import Verif.Spec.Strings
/-
Where a stream stands after reading with a serializer that contains no others: `size` bytes further, unless a
`char[char.NET]` was cut short.
-/
namespace Verif
open Sem Spec

variable {env : Env}

theorem ofE_ok_inv {α : Type} {x : Except Err α} {a : α} (h : Out.ofE x = .ok a) : x = .ok a := by
  cases x <;> cases h
  rfl

theorem structDec_io {s : StructSer} {d : Bytes} {pos : Nat} {r : List Val × Nat}
    (h : structDec env s (.io d pos) = .ok r) : r.2 = pos + s.size ∧ s.size ≤ (d.drop pos).length ∧
      s.applyActions (unpackToks env.plat s.byteOrder s.toks 0 ((d.drop pos).take s.size)) = .ok r.1 := by
  rw [structDec_same (src := .io d pos) (b := d.drop pos) rfl] at h
  cases h1 : structDec env s (.buf (d.drop pos)) with
  | error e => rw [h1] at h; cases h
  | ok x =>
    rw [h1] at h
    cases h
    obtain ⟨a, _, c⟩ := structDec_buf h1
    exact ⟨rfl, a, c⟩

theorem structDecOpt_io {s : Option StructSer} {d : Bytes} {pos : Nat} {r : List Val × Nat}
    (h : structDecOpt env s (.io d pos) = .ok r) : r.2 = pos + hdrSize s := by
  cases s with
  | none => cases h; rfl
  | some s => exact (structDec_io h).1

theorem dynCharDec_io {st : StructSer} (hc : st.isCount = true) {d : Bytes} {pos : Nat} {r : Dec}
    (h : dynCharDec env st (.io d pos) = .ok r) : r.pos = pos + r.size := by
  obtain ⟨⟨hv0, pos1⟩, h1, h⟩ := Except.bind_ok' h
  obtain ⟨g1, _, g3⟩ := structDec_io h1
  obtain ⟨c, hc'⟩ := isCount_unpack hc g3
  simp only at hc' g1
  subst hc' g1
  have e1 : first [Val.int (c : Int)] = .ok (.int c) := rfl
  have e2 : needInt (.int (c : Int)) = .ok (c : Int) := rfl
  simp only [e1, e2, bind, Except.bind] at h
  have hsz : ((st.size : Int) + c).toNat = st.size + c := by omega
  rw [hsz] at h
  cases hm : singleChar.matmul (c : Int) with
  | error e => rw [hm] at h; cases h
  | ok s =>
    rw [hm] at h
    simp only at h
    have hs : hdrSize s = c := by
      cases c with
      | zero => cases hm; rfl
      | succ c =>
        obtain ⟨s', m1, m2, m3, _⟩ := singleChar_matmul (c + 1) (by omega)
        rw [m1] at hm
        cases hm
        exact str_size m2 m3
    split at h
    · cases h
    · rename_i x hx
      cases h
      have := structDecOpt_io hx
      simp only
      omega

theorem terminatedDec_io {t : Byte} {d : Bytes} {pos : Nat} {r : Dec}
    (h : terminatedDec t (.io d pos) = .ok r) : r.pos = pos + r.size := by
  simp only [terminatedDec] at h
  split at h <;> cases h
  rfl

theorem netDec_io {d : Bytes} {pos : Nat} {r : Dec} (h : netDec env (.io d pos) = .ok r)
    (hl : pos + r.size ≤ d.length) : r.pos = pos + r.size := by
  obtain ⟨⟨hv, p1⟩, h1, h⟩ := Except.bind_ok' h
  obtain ⟨f, _, h⟩ := Except.bind_ok' h
  obtain ⟨c, _, h⟩ := Except.bind_ok' h
  have fin : ∀ count size p2, p2 = pos + size →
      (Except.ok ⟨[.bytes ((d.drop p2).take count)], size + count, p2 + ((d.drop p2).take count).length, []⟩ : Except Err Dec)
        = .ok r → r.pos = pos + r.size := by
    intro count size p2 hp h
    cases h
    simp only at hl ⊢
    rw [List.length_take, List.length_drop]
    omega
  by_cases hc : 128 ≤ c
  · rw [if_pos hc] at h
    obtain ⟨⟨hv', p3⟩, h3, h⟩ := Except.bind_ok' h
    obtain ⟨_, _, h⟩ := Except.bind_ok' h
    obtain ⟨_, _, h⟩ := Except.bind_ok' h
    obtain ⟨count, _, h⟩ := Except.bind_ok' h
    exact fin count longLen.size p3 (structDec_io h3).1 h
  · rw [if_neg hc] at h
    exact fin c.toNat shortLen.size p1 (structDec_io h1).1 h

/-- After reading with a leaf from a stream that has all the bytes the leaf reports, the stream is that many bytes
further.  Only `char[char.NET]` can report more than there is. -/
theorem dec_leaf_pos : ∀ n upd (s : Ser) q d pos r, s.leaf = true → s.noPeek = true →
    dec env n upd s q (.io d pos) = .ok r → (s.isNet = true → pos + r.size ≤ d.length) → r.pos = pos + r.size := by
  intro n
  induction n with
  | zero => intro upd s q d pos r _ _ h; cases h
  | succ n ih =>
    intro upd s q d pos r hl hc h hw
    cases s with
    | null => cases h; rfl
    | struct st =>
      rw [dec] at h
      obtain ⟨⟨vs, p⟩, h1, h⟩ := Except.bind_ok' (ofE_ok_inv h)
      cases h
      exact (structDec_io h1).1
    | dynChar id st => exact dynCharDec_io hc (ofE_ok_inv h)
    | consuming id => cases h; rfl
    | terminated id t => exact terminatedDec_io (ofE_ok_inv h)
    | net id => exact netDec_io (ofE_ok_inv h) (hw rfl)
    | unicode inner en de =>
      rw [dec] at h
      obtain ⟨a, h1, h⟩ := Out.bind_ok' h
      obtain ⟨vs, h2, h⟩ := Out.ofE_ok' h
      cases h
      exact ih _ inner _ _ _ a hl hc h1 hw
    | staticArr id k ser =>
      rw [dec] at h
      obtain ⟨⟨vs, p⟩, h1, h⟩ := Except.bind_ok' (ofE_ok_inv h)
      cases h
      have := structDecOpt_io h1
      cases ser <;> exact this
    | dynArr id cnt item =>
      rw [dec] at h
      obtain ⟨⟨hv, p⟩, h1, h⟩ := Except.bind_ok' (ofE_ok_inv h)
      simp only at h
      split at h
      rotate_left
      · cases h
      obtain ⟨c, _, h⟩ := Except.bind_ok' h
      obtain ⟨s, _, h⟩ := Except.bind_ok' h
      obtain ⟨⟨vs, p'⟩, h2, h⟩ := Except.bind_ok' h
      cases h
      have a := (structDec_io h1).1
      have b := structDecOpt_io h2
      have e : s.elim 0 StructSer.size = hdrSize s := by cases s <;> rfl
      simp only at a b ⊢
      omega
    | _ => cases hl

theorem leaf_sized : (s : Ser) → s.leaf = true → s.sized = true
  | .unicode inner _ _, h => by simpa [Ser.sized] using leaf_sized inner h
  | .null, _ | .struct _, _ | .dynChar .., _ | .consuming _, _ | .terminated .., _ | .net _, _
  | .staticArr .., _ | .dynArr .., _ => rfl
  | .array .., h | .tuple .., h | .lookback .., h | .lookahead .., h | .cond .., h | .skip .., h | .structured .., h
  | .selfT .., h | .compound .., h | .specialized .., h => by cases h

theorem Adv.moved {src : Src} {pos k : Nat} {st st' : St} (h : Adv src pos st st') (hk : src = .io → pos = st.io.pos + k) :
    Moved src k st st' := by
  refine ⟨h.buf, h.data, ?_⟩
  cases src with
  | io => rw [h.ioPos rfl, hk rfl]
  | buf b => rw [h.other (by intro e; cases e)]; rfl
  | «at» b off => rw [h.other (by intro e; cases e)]; rfl

/-- What a successful run of a read-ahead type does to the state. -/
theorem peek_run {env : Env} {n : Nat} {ra : Ser} {src : Src} {st s1 : St} {vs : List Val} {P : SerId → Prop}
    (hq : QuietU (dec env n noUpd ra none (src.sem st)) P) (h : unpack env n noUpd ra src st = .ok vs s1) :
    ∃ r, dec env n noUpd ra none (src.sem st) = .ok r ∧ UPost ra r src st s1 ∧ ∀ i, ¬ P i → (s1.cells i).part = (st.cells i).part := by
  have hrel := unpack_rel env n noUpd ra none src st (Primed.none _ _)
  obtain ⟨q1, q2⟩ := hq
  cases hd : dec env n noUpd ra none (src.sem st) with
  | stuck => exact absurd hd q1
  | err e =>
    rw [hd] at hrel
    obtain ⟨s', h', _⟩ := hrel
    rw [h] at h'
    cases h'
  | ok r =>
    rw [hd] at hrel
    obtain ⟨vs', s', h', _, hp⟩ := hrel
    rw [h] at h'
    cases h'
    exact ⟨r, rfl, hp, fun i hi => hp.keeps i fun hm => hi (q2 r hd i hm)⟩

theorem container_unhashable {env : Env} {n : Nat} {ra : Ser} {src : Src} {st s1 : St} {vs : List Val}
    (hc : ra.readsContainer = true) (h : unpack env n noUpd ra src st = .ok vs s1) : ∃ v, vs = [v] ∧ v.hashable = false := by
  cases n with
  | zero => cases h
  | succ n =>
    cases ra with
    | array id hdr item sl =>
      obtain ⟨_, _, _, h⟩ := M.bind_ok h
      obtain ⟨_, _, _, h⟩ := M.bind_ok h
      obtain ⟨_, _, _, h⟩ := M.bind_ok h
      obtain ⟨_, _, _, h⟩ := M.bind_ok h
      obtain ⟨_, _, _, h⟩ := M.bind_ok h
      obtain ⟨_, _, _, h⟩ := M.bind_ok h
      obtain ⟨_, _, _, h⟩ := M.bind_ok h
      cases h
      exact ⟨_, rfl, rfl⟩
    | staticArr id k ser =>
      obtain ⟨_, _, _, h⟩ := M.bind_ok h
      cases h
      exact ⟨_, rfl, rfl⟩
    | dynArr id cnt item =>
      obtain ⟨hv, _, _, h⟩ := M.bind_ok h
      simp only at h
      split at h
      rotate_left
      · cases h
      obtain ⟨_, _, _, h⟩ := M.bind_ok h
      obtain ⟨_, _, _, h⟩ := M.bind_ok h
      obtain ⟨_, _, _, h⟩ := M.bind_ok h
      obtain ⟨_, _, _, h⟩ := M.bind_ok h
      cases h
      exact ⟨_, rfl, rfl⟩
    | structured id cls =>
      obtain ⟨⟨v, ser⟩, _, h1, h⟩ := M.bind_ok h
      obtain ⟨_, _, _, h⟩ := M.bind_ok h
      obtain ⟨_, _, _, h⟩ := M.bind_ok h
      cases h
      refine ⟨v, rfl, ?_⟩
      unfold createUnpackWith at h1
      cases hci : env.classes cls with
      | none => rw [hci] at h1; cases h1
      | some ci =>
        rw [hci] at h1
        obtain ⟨_, _, _, h1⟩ := M.bind_ok h1
        obtain ⟨vals, _, _, h1⟩ := M.bind_ok h1
        obtain ⟨_, _, h2, h1⟩ := M.bind_ok h1
        cases h1
        unfold construct at h2
        by_cases hl : vals.length = ci.attrs.length
        · rw [if_pos hl] at h2
          cases hp : ci.postInit (ci.attrs.zip vals) with
          | error e => simp [bind, Except.bind, hp, M.lift] at h2
          | ok a =>
            simp only [bind, Except.bind, hp] at h2
            cases h2
            rfl
        · rw [if_neg hl] at h2
          cases h2
    | _ => cases hc

end Verif
