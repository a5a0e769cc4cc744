import Verif.Proofs.Align
import Verif.Spec.Strings
import Verif.Proofs.AddJoin
/-
Classes of basic types: lemmas for C55.
-/
namespace Verif
open Spec

variable {ctx : HintCtx} {env : Env} {bo : ByteOrder} {fs : List (Name × Basic)} {o : ClassObj} {c : ClassId}

theorem pick_length {attrs : List (Name × Val)} : ∀ {as : List Name} {vs : List Val}, pick attrs as = some vs → vs.length = as.length
  | [], _, h => by cases h; rfl
  | a :: as, vs, h => by
    simp only [pick] at h
    split at h
    · rename_i v vs' h1 h2
      cases h
      simp [pick_length h2]
    · cases h

theorem basics_vals : ∀ fs : List (Name × Basic), numVals ((fs.map (·.2)).map Basic.tok) = (valueNames fs).length
  | [] => rfl
  | f :: fs => by
    have ih := basics_vals fs
    unfold valueNames at ih ⊢
    obtain ⟨a, t⟩ := f
    have : numVals (((a, t) :: fs).map (·.2) |>.map Basic.tok) = t.tok.numVals + numVals ((fs.map (·.2)).map Basic.tok) := by
      simp [numVals]
    rw [this, ih]
    cases t <;> simp [Basic.tok, Tok.numVals, Basic.isPad] <;> omega

theorem lies_pack {ts : List Basic} {z : StructSer} (h : Lies bo ts z) {vs : List Val} (hv : vs.length = numVals (ts.map Basic.tok)) :
    z.pack env.plat vs = (pieces env.plat bo ts vs).map fun bs => layOut bo 0 ts bs := by
  unfold StructSer.pack structPack
  rw [h.order, if_pos (by rw [hv, h.toks.vals]), h.toks.pack, pieces_pack]

theorem lies_size {ts : List Basic} {z : StructSer} (h : Lies bo ts z) : z.size = extent bo 0 ts := by
  show sizeToks z.byteOrder.isNative z.toks = _
  rw [h.order]
  exact (h.toks.off _ _).trans (extent_eq bo ts 0)

/-- The serializer an object packs with. -/
theorem basic_objSer (h : BasicClass ctx bo fs o) (hc : env.classes c = some o.info) (own : Option ByteOrder) :
    ∃ z, objSer env c own = .ok (o.info, .struct z) ∧ Lies (own.getD bo) (fs.map (·.2)) z := by
  obtain ⟨_, _, z, h1, h2, h3⟩ := basicClass_lies h
  cases own with
  | none => exact ⟨z, by simp [objSer, hc, h1], h2⟩
  | some b =>
    obtain ⟨z', h4, h5⟩ := h3 b
    exact ⟨z', by simp [objSer, hc, h1, Ser.withByteOrder, h4, bind, Except.bind], h5⟩

theorem lies_unpack {ts : List Basic} {z : StructSer} (h : Lies bo ts z) {src : Src} {st : St} {d : Bytes} (hd : Shows src st d) :
    (extent bo 0 ts ≤ d.length → ∃ vs st', readBack env.plat bo d 0 ts = .ok vs ∧ vs.length = numVals (ts.map Basic.tok) ∧ Moved src (extent bo 0 ts) st st' ∧
      structUnpackM env z src st = .ok vs st') ∧
    (d.length < extent bo 0 ts → ∃ st', structUnpackM env z src st = .err .structError st') := by
  have hsz := lies_size h
  have hs : sizeToks bo.isNative z.toks = extent bo 0 ts := by rw [← hsz, ← h.order]; rfl
  have ht : sizeToks bo.isNative (ts.map Basic.tok) = extent bo 0 ts := extent_eq bo ts 0
  have hcut : unpackToks env.plat bo z.toks 0 (d.take (extent bo 0 ts)) = unpackToks env.plat bo (ts.map Basic.tok) 0 d := by
    rw [h.toks.unpack, ← ht, unpackToks_take]
    exact Nat.le_of_eq (Nat.zero_add _).symm
  constructor
  · intro hle
    have hr := readBack_unpack env.plat bo d ts 0 hle
    rw [List.drop_zero] at hr
    suffices ∃ st', Moved src (extent bo 0 ts) st st' ∧ structUnpackM env z src st = .ok (unpackToks env.plat bo (ts.map Basic.tok) 0 d) st' by
      obtain ⟨st', a, b⟩ := this
      exact ⟨_, st', hr, unpackToks_length .., a, b⟩
    have hl : (d.take (extent bo 0 ts)).length = extent bo 0 ts := by simp; omega
    cases src with
    | buf b =>
      cases hd
      refine ⟨st, ⟨rfl, rfl, rfl⟩, ?_⟩
      simp only [structUnpackM, StructSer.unpack, structUnpack, h.order, hs, hsz, hl, ↓reduceIte, hcut, StructSer.applyActions, h.acts]
      rfl
    | «at» b off =>
      obtain ⟨h1, rfl⟩ := hd
      refine ⟨st, ⟨rfl, rfl, rfl⟩, ?_⟩
      have : off ≤ b.length ∧ extent bo 0 ts ≤ b.length - off := ⟨h1, by simpa using hle⟩
      simp only [structUnpackM, StructSer.unpackFrom, structUnpackFrom, h.order, hs, this, and_self, ↓reduceIte, hcut, StructSer.applyActions, h.acts]
      rfl
    | io =>
      have hd' : st.io.data.drop st.io.pos = d := hd
      refine ⟨{ st with io := { st.io with pos := st.io.pos + extent bo 0 ts } }, ⟨rfl, rfl, rfl⟩, ?_⟩
      have : structUnpackM env z .io st = M.lift (z.unpackRead env.plat (d.take (extent bo 0 ts)))
          { st with io := { st.io with pos := st.io.pos + (d.take (extent bo 0 ts)).length } } := by
        rw [← hsz, ← hd']; rfl
      rw [this, hl]
      simp only [StructSer.unpackRead, structUnpack, h.order, hs, hl, ↓reduceIte, hcut, StructSer.applyActions, h.acts]
      rfl
  · intro hlt
    have hl : (d.take (extent bo 0 ts)).length ≠ extent bo 0 ts := by simp; omega
    cases src with
    | buf b =>
      cases hd
      refine ⟨st, ?_⟩
      simp only [structUnpackM, StructSer.unpack, structUnpack, h.order, hs, hsz, hl, ↓reduceIte]
      rfl
    | «at» b off =>
      obtain ⟨h1, rfl⟩ := hd
      refine ⟨st, ?_⟩
      have : ¬ (off ≤ b.length ∧ extent bo 0 ts ≤ b.length - off) := by
        have : b.length - off < extent bo 0 ts := by simpa using hlt
        omega
      simp only [structUnpackM, StructSer.unpackFrom, structUnpackFrom, h.order, hs, this, ↓reduceIte]
      rfl
    | io =>
      have hd' : st.io.data.drop st.io.pos = d := hd
      have : structUnpackM env z .io st = M.lift (z.unpackRead env.plat (d.take (extent bo 0 ts)))
          { st with io := { st.io with pos := st.io.pos + (d.take (extent bo 0 ts)).length } } := by
        rw [← hsz, ← hd']; rfl
      rw [this]
      simp only [StructSer.unpackRead, structUnpack, h.order, hs, hl, ↓reduceIte]
      exact ⟨_, rfl⟩

theorem le_start (bo : ByteOrder) (t : Basic) (o : Nat) : o ≤ t.start bo o := by
  rw [← start_eq]; omega

theorem le_extent (bo : ByteOrder) (ts : List Basic) (o : Nat) : o ≤ extent bo o ts := by
  rw [← extent_eq]; exact le_endOff _ _ _

theorem pieces_lengths {P : Platform} : ∀ {ts : List Basic} {vs : List Val} {bs : List Bytes}, pieces P bo ts vs = .ok bs →
    bs.map List.length = ts.map Basic.width
  | [], _, _, h => by cases h; rfl
  | t :: ts, vs, bs, h => by
    by_cases ht : t.isPad = true
    · cases t <;> first | cases ht | skip
      obtain ⟨bs', h1, h⟩ := Except.bind_ok' (show (pieces P bo ts vs >>= fun bs' => Except.ok (_ :: bs')) = .ok bs from h)
      cases h
      simp [pieces_lengths h1, Basic.width]
    · have ht : t.isPad = false := by simpa using ht
      cases vs with
      | nil => cases t <;> first | cases h | cases ht
      | cons v vs =>
        have hpc : pieces P bo (t :: ts) (v :: vs) = ((t.alone bo).pack P [v] >>= fun b => pieces P bo ts vs >>= fun bs => .ok (b :: bs)) := by
          cases t <;> first | rfl | cases ht
        rw [hpc] at h
        obtain ⟨b, h1, h⟩ := Except.bind_ok' h
        obtain ⟨bs', h2, h⟩ := Except.bind_ok' h
        cases h
        simp [pieces_lengths h2, alone_length ht h1]

theorem layOut_length : ∀ {ts : List Basic} {bs : List Bytes} {o : Nat}, bs.map List.length = ts.map Basic.width →
    o + (layOut bo o ts bs).length = extent bo o ts
  | [], [], o, _ => rfl
  | [], _ :: _, _, h => by cases h
  | _ :: _, [], _, h => by cases h
  | t :: ts, b :: bs, o, h => by
    simp only [List.map_cons, List.cons.injEq] at h
    have ih := layOut_length (o := t.start bo o + t.width) h.2
    have := le_start bo t o
    simp only [layOut, List.length_append, List.length_replicate, extent]
    rw [← ih, h.1]
    omega

theorem layOut_at : ∀ {ts : List Basic} {bs : List Bytes} {o i p : Nat} {t : Basic} {b : Bytes}, bs.map List.length = ts.map Basic.width →
    ts[i]? = some t → (starts bo o ts)[i]? = some p → bs[i]? = some b → o ≤ p ∧ ((layOut bo o ts bs).drop (p - o)).take t.width = b
  | [], _, _, _, _, _, _, _, h, _, _ => by cases h
  | _ :: _, [], _, _, _, _, _, h, _, _, _ => by cases h
  | t :: ts, b :: bs, o, i, p, t', b', h, h1, h2, h3 => by
    simp only [List.map_cons, List.cons.injEq] at h
    have hle := le_start bo t o
    cases i with
    | zero =>
      simp only [List.getElem?_cons_zero, Option.some.injEq, starts] at h1 h2 h3
      subst h1 h2 h3
      refine ⟨hle, ?_⟩
      simp only [layOut, List.append_assoc]
      rw [List.drop_append_of_le_length (by simp), List.drop_of_length_le (by simp), List.nil_append, List.take_append_of_le_length (by omega),
        List.take_of_length_le (by omega)]
    | succ i =>
      simp only [List.getElem?_cons_succ, starts] at h1 h2 h3
      obtain ⟨g1, g2⟩ := layOut_at h.2 h1 h2 h3
      refine ⟨by omega, ?_⟩
      simp only [layOut]
      rw [List.drop_append, List.drop_of_length_le (by simp; omega), List.nil_append]
      rw [show p - o - (List.replicate (t.start bo o - o) 0 ++ b : Bytes).length = p - (t.start bo o + t.width) by simp; omega]
      exact g2

theorem layOut_gap : ∀ {ts : List Basic} {bs : List Bytes} {o k : Nat}, bs.map List.length = ts.map Basic.width → o ≤ k → k < extent bo o ts →
    (∀ (i : Nat) (t : Basic) (p : Nat), ts[i]? = some t → (starts bo o ts)[i]? = some p → ¬ (p ≤ k ∧ k < p + t.width)) →
    (layOut bo o ts bs)[k - o]? = some 0
  | [], _, o, k, _, h1, h2, _ => by simp only [extent] at h2; omega
  | _ :: _, [], _, _, h, _, _, _ => by cases h
  | t :: ts, b :: bs, o, k, h, h1, h2, hn => by
    simp only [List.map_cons, List.cons.injEq] at h
    have hle := le_start bo t o
    have h0 := hn 0 t (t.start bo o) rfl rfl
    simp only [layOut, List.append_assoc]
    by_cases hk : k < t.start bo o
    · rw [List.getElem?_append_left (by simp; omega), List.getElem?_replicate, if_pos (by omega)]
    · have hk' : t.start bo o + t.width ≤ k := by omega
      rw [List.getElem?_append_right (by simp; omega), List.getElem?_append_right (by simp; omega)]
      have := layOut_gap (o := t.start bo o + t.width) h.2 hk' h2 (fun i t' p a1 a2 => hn (i + 1) t' p (by simpa using a1) (by simpa [starts] using a2))
      rw [← this]
      congr 1
      simp
      omega

end Verif
