import Verif.Proofs.Widths
import Verif.Proofs.AddRun
import Verif.Proofs.RefinePack
/-
Unpacked objects are no larger than the data (C67).
-/
namespace Verif.Wide
open Buf Verif.Neg Verif.Spec

variable {env : Env} {S : ClassId → Prop} {D m : Nat}

/-- What reading leaves: values no wider than `m`, no more bytes than before, at least one byte less after a part that
takes one, and at most one value where one is expected. -/
structure Took (S : ClassId → Prop) (m : Nat) (s : Ser) (src : Src) (st : St) (vs : List Val) (st' : St) : Prop where
  within : Val.WithinList m vs
  less : src.left st' ≤ src.left st
  solid : s.Solid S → ∀ sz st'', s.readSize st' = .ok sz st'' → (src.next sz).left st' + 1 ≤ src.left st
  single : s.Single → vs.length ≤ 1

def TookN (S : ClassId → Prop) (D m : Nat) (f : Ser → Src → M (List Val)) : Prop :=
  ∀ s src st vs st', s.Slim S D → src.left st ≤ m → f s src st = .ok vs st' → Took S m s src st vs st'

variable {f : Ser → Src → M (List Val)}

theorem took_loop (ih : TookN S D m f) {src : Src} :
    ∀ (ss : List Ser) (size : Nat) (st : St) (q : List Val × Nat) (st' : St), Ser.SlimList S D ss →
      (src.next size).left st ≤ m → unpackLoop f src size ss st = .ok q st' →
      Val.WithinList m q.1 ∧ src.left st' ≤ src.left st ∧ size ≤ q.2 ∧ (src.next q.2).left st' ≤ (src.next size).left st ∧
      (Ser.SolidSome S ss → (src.next q.2).left st' + 1 ≤ (src.next size).left st)
  | [], size, st, q, st', _, _, h => by
    cases h
    exact ⟨trivial, Nat.le_refl _, Nat.le_refl _, Nat.le_refl _, fun h => h.elim⟩
  | s :: ss, size, st, q, st', hs, hm, h => by
    obtain ⟨vs, st1, h1, h⟩ := M.bind_ok h
    obtain ⟨sz, st2, h2, h⟩ := M.bind_ok h
    obtain ⟨q', st3, h3, h⟩ := M.bind_ok h
    cases h
    have a := ih _ _ _ _ _ hs.1 hm h1
    have := readSize_cells _ h2
    subst this
    have l1 := left_next (src.next size) sz st2
    rw [next_next] at l1
    have l2 := a.less
    have l3 : src.left st2 ≤ src.left st := by
      cases src with
      | io => exact l2
      | _ => exact Nat.le_refl _
    obtain ⟨b1, b2, b3, b4, b5⟩ := took_loop ih ss _ _ _ _ hs.2 (by omega) h3
    refine ⟨withinList_append a.within b1, by omega, by omega, by simp only at *; omega, ?_⟩
    intro hsol
    rcases hsol with hsol | hsol
    · have := a.solid hsol _ _ h2
      rw [next_next] at this
      simp only at *
      omega
    · have := b5 hsol
      simp only at *
      omega

theorem took_loopSpec (ih : TookN S D m f) {upd : Upd} {src : Src} :
    ∀ (ss : List Ser) (p : PObj) (done size : Nat) (st : St) (q : List Val × Nat) (st' : St), Ser.SlimList S D ss →
      (src.next size).left st ≤ m → unpackLoopSpec f upd src p done size ss st = .ok q st' →
      Val.WithinList m q.1 ∧ src.left st' ≤ src.left st ∧ size ≤ q.2 ∧ (src.next q.2).left st' ≤ (src.next size).left st ∧
      (Ser.SolidSome S ss → (src.next q.2).left st' + 1 ≤ (src.next size).left st)
  | [], p, done, size, st, q, st', _, _, h => by
    cases h
    exact ⟨trivial, Nat.le_refl _, Nat.le_refl _, Nat.le_refl _, fun h => h.elim⟩
  | s :: ss, p, done, size, st, q, st', hs, hm, h => by
    obtain ⟨s', st0, h0, h⟩ := M.bind_ok h
    obtain ⟨vs, st1, h1, h⟩ := M.bind_ok h
    obtain ⟨p', st5, h5, h⟩ := M.bind_ok h
    obtain ⟨sz, st2, h2, h⟩ := M.bind_ok h
    obtain ⟨q', st3, h3, h⟩ := M.bind_ok h
    cases h
    obtain ⟨k, ke⟩ := slim_preunpack (S := S) (D := D) h0
    have e0 : ∀ src : Src, src.left st0 = src.left st := fun _ => left_congr ke
    have a := ih _ _ _ _ _ (k.slim hs.1) (by rw [e0]; exact hm) h1
    obtain ⟨_, rfl⟩ := lift_ok' h5
    have := readSize_cells _ h2
    subst this
    have l1 := left_next (src.next size) sz st2
    rw [next_next] at l1
    have l2 := a.less
    rw [e0] at l2
    have l3 : src.left st2 ≤ src.left st := by
      cases src with
      | io => exact l2
      | _ => exact Nat.le_refl _
    obtain ⟨b1, b2, b3, b4, b5⟩ := took_loopSpec ih ss _ _ _ _ _ _ hs.2 (by omega) h3
    refine ⟨withinList_append a.within b1, by omega, by omega, by simp only at *; omega, ?_⟩
    intro hsol
    rcases hsol with hsol | hsol
    · have := a.solid (k.solid hsol) _ _ h2
      rw [next_next, e0] at this
      simp only at *
      omega
    · have := b5 hsol
      simp only at *
      omega

theorem took_items (ih : TookN S D m f) {item : Ser} (hi : item.Slim S D) (h1 : item.Single) {src : Src} :
    ∀ (c size : Nat) (st : St) (q : List Val × Nat) (st' : St), (src.next size).left st ≤ m →
      unpackItems f item src size c st = .ok q st' →
      Val.WithinList m q.1 ∧ src.left st' ≤ src.left st ∧ size ≤ q.2 ∧ (src.next q.2).left st' ≤ (src.next size).left st ∧
      q.1.length ≤ c ∧ (item.Solid S → (src.next q.2).left st' + c ≤ (src.next size).left st)
  | 0, _, _, _, _, _, h => by
    cases h
    exact ⟨trivial, Nat.le_refl _, Nat.le_refl _, Nat.le_refl _, Nat.le_refl _, fun _ => Nat.le_refl _⟩
  | c + 1, size, st, q, st', hm, h => by
    obtain ⟨vs, st1, h3, h⟩ := M.bind_ok h
    obtain ⟨sz, st2, h2, h⟩ := M.bind_ok h
    obtain ⟨q', st3, h4, h⟩ := M.bind_ok h
    cases h
    have a := ih _ _ _ _ _ hi hm h3
    have := readSize_cells _ h2
    subst this
    have l1 := left_next (src.next size) sz st2
    rw [next_next] at l1
    have l2 := a.less
    have l3 : src.left st2 ≤ src.left st := by
      cases src with
      | io => exact l2
      | _ => exact Nat.le_refl _
    obtain ⟨b1, b2, b3, b4, b5, b6⟩ := took_items ih hi h1 c _ _ _ _ (by omega) h4
    have b7 := a.single h1
    refine ⟨withinList_append a.within b1, by omega, by omega, by simp only at *; omega,
      by simp only [List.length_append] at *; omega, ?_⟩
    intro hsol
    have := a.solid hsol _ _ h2
    rw [next_next] at this
    have := b6 hsol
    simp only at *
    omega

theorem setSize_io {st st' : St} {i : SerId} {n : Nat} {u : Unit} (h : setSize i n st = .ok u st') :
    st'.io = st.io ∧ (st'.cells i).size = n := by
  cases h
  exact ⟨rfl, by simp⟩

theorem took_union (ih : TookN S D m f) {i : SerId} {s : Ser} (hs : s.Slim S D) {src : Src} {st st' : St}
    {vs : List Val} (hm : src.left st ≤ m) (h : unionUnpack f i s src st = .ok vs st') :
    Val.WithinList m vs ∧ src.left st' ≤ src.left st ∧ (s.Single → vs.length ≤ 1) ∧
    (s.isLazy = false → s.Solid S → (src.next (st'.cells i).size).left st' + 1 ≤ src.left st) := by
  unfold unionUnpack at h
  by_cases hl : s.isLazy = true
  · rw [if_pos hl] at h
    obtain ⟨sz, st1, h1, h2⟩ := M.bind_ok h
    obtain ⟨u, st2, h3, h4⟩ := M.bind_ok h2
    have := readSize_cells _ h1
    subst this
    have e : src.left st2 = src.left st1 := left_congr (setSize_io h3).1
    have a := ih _ _ _ _ _ hs (by omega) h4
    exact ⟨a.within, by have := a.less; omega, a.single, fun h => by rw [h] at hl; cases hl⟩
  · rw [if_neg hl] at h
    obtain ⟨ws, st1, h1, h⟩ := M.bind_ok h
    obtain ⟨sz, st2, h2, h⟩ := M.bind_ok h
    obtain ⟨u, st3, h3, h⟩ := M.bind_ok h
    cases h
    have := readSize_cells _ h2
    subst this
    have a := ih _ _ _ _ _ hs hm h1
    have e : ∀ src : Src, src.left st' = src.left st2 := fun _ => left_congr (setSize_io h3).1
    refine ⟨a.within, by rw [e]; exact a.less, a.single, fun _ hsol => ?_⟩
    rw [e, (setSize_io h3).2]
    exact a.solid hsol _ _ h2

theorem took_create (he : env.Slim S D) (hD : D ≤ m) {g : Upd → Ser → Src → M (List Val)}
    (ih : ∀ upd, TookN S D m (g upd)) {cls : ClassId} {src : Src} {st st' : St} {q : Val × Ser}
    (hm : src.left st ≤ m) (h : createUnpackWith env g cls src st = .ok q st') :
    q.1.Within m ∧ src.left st' ≤ src.left st ∧
    (S cls → ∀ sz st'', q.2.readSize st' = .ok sz st'' → (src.next sz).left st' + 1 ≤ src.left st) := by
  unfold createUnpackWith at h
  cases hc : env.classes cls with
  | none => rw [hc] at h; cases h
  | some ci =>
    rw [hc] at h
    obtain ⟨s, st1, h1, h⟩ := M.bind_ok h
    obtain ⟨vals, st2, h2, h⟩ := M.bind_ok h
    obtain ⟨v, st3, h3, h⟩ := M.bind_ok h
    cases h
    obtain ⟨e1, e2, e3⟩ := he cls ci hc
    obtain ⟨k, ke⟩ := slim_preunpack (S := S) (D := D) h1
    have e0 : src.left st1 = src.left st := left_congr ke
    have a := ih _ _ _ _ _ _ (k.slim e1) (by omega) h2
    obtain ⟨h4, rfl⟩ := lift_ok' h3
    refine ⟨?_, by rw [← e0]; exact a.less, fun hS sz st'' hsz => ?_⟩
    · unfold construct at h4
      split at h4
      · obtain ⟨as, h5, h6⟩ := Except.bind_ok' h4
        cases h6
        exact e3 _ _ _ hD (withinAttrs_zip a.within) h5
      · cases h4
    · rw [← e0]
      exact a.solid (k.solid (e2 hS)) _ _ (k.size _ _ _ hsz)

theorem io_left {st : St} {c : Nat} {d : Bytes} {st' : St} (h : ioRead c st = .ok d st') :
    d.length ≤ Src.io.left st ∧ Src.io.left st' ≤ Src.io.left st ∧ st'.cells = st.cells := by
  cases h
  refine ⟨?_, ?_, rfl⟩ <;> simp only [Src.left, List.length_take, List.length_drop] <;> omega

theorem took_net {i : SerId} {src : Src} {st st' : St} {vs : List Val} (hm : src.left st ≤ m)
    (h : netUnpack env i src st = .ok vs st') : Took S m (.net i) src st vs st' := by
  unfold netUnpack at h
  obtain ⟨st0, st1, h0, k0⟩ := M.bind_ok h
  cases h0
  obtain ⟨hv, st2, h2, k2⟩ := M.bind_ok k0
  obtain ⟨c, st3, h3, k3⟩ := M.bind_ok k2
  obtain ⟨_, rfl⟩ := lift_ok' h3
  have tail : ∀ (count size : Nat) (stA st' : St) (vs : List Val), 1 ≤ size → src.left stA ≤ src.left st →
      (∀ k, size ≤ k → (src.next k).left stA + size ≤ src.left st) →
      (do setSize i (size + count)
          match src with
          | .buf b => pure [.bytes ((b.drop size).take count)]
          | .at b off => M.lift (structUnpackFrom env.plat .default [⟨count, .str⟩] b (off + size))
          | .io => do
            let d ← ioRead count
            pure [.bytes d] : M (List Val)) stA = .ok vs st' → Took S m (.net i) src st vs st' := by
    intro count size stA st' vs hsz hA hl h
    obtain ⟨_, st1, h1, k1⟩ := M.bind_ok h
    obtain ⟨i1, i2⟩ := setSize_io h1
    have e : ∀ src : Src, src.left st1 = src.left stA := fun _ => left_congr i1
    have l := hl (size + count) (by omega)
    cases src with
    | buf b =>
      cases k1
      refine ⟨⟨by simp only [Val.Within, List.length_take, List.length_drop, Src.left] at *; omega, trivial⟩,
        by rw [e]; exact hA, fun _ sz st'' hs => ?_, fun _ => Nat.le_refl _⟩
      cases hs
      rw [i2, e]
      omega
    | «at» b o =>
      obtain ⟨k2, rfl⟩ := lift_ok' k1
      refine ⟨?_, by rw [e]; exact hA, fun _ sz st'' hs => ?_, fun _ => ?_⟩
      · unfold structUnpackFrom at k2
        split at k2
        · cases k2
          exact unpackToks_within _ _ _ (by simp only [List.length_take, List.length_drop, Src.left] at *; omega)
        · cases k2
      · cases hs
        rw [i2, e]
        omega
      · unfold structUnpackFrom at k2
        split at k2
        · cases k2
          rw [unpackToks_length]; simp [numVals, Tok.numVals]
        · cases k2
    | io =>
      obtain ⟨d, st2, h2, k2⟩ := M.bind_ok k1
      obtain ⟨d1, d2, d3⟩ := io_left h2
      cases k2
      have e1 := e Src.io
      refine ⟨⟨by simp only [Val.Within]; omega, trivial⟩, by omega, fun _ sz st'' hs => ?_, fun _ => Nat.le_refl _⟩
      simp only [Src.next] at *
      omega
  obtain ⟨s1, s2, s3, _⟩ := struct_left (D := 0) h2
  by_cases hc : 128 ≤ c
  · simp only [if_pos hc] at k3
    obtain ⟨u, st4, h4, k4⟩ := M.bind_ok k3
    have e4 : src.left st4 = src.left st := by
      obtain ⟨d, _, _, _, e⟩ := structUnpackM_ok.1 h2
      cases src with
      | io => cases h4; rw [e]; rfl
      | _ => rfl
    obtain ⟨hv', st5, h5, k5⟩ := M.bind_ok k4
    obtain ⟨t1, t2, t3, _⟩ := struct_left (D := 0) h5
    obtain ⟨c', st6, h6, k6⟩ := M.bind_ok k5
    obtain ⟨_, rfl⟩ := lift_ok' h6
    obtain ⟨count, st7, h7, k7⟩ := M.bind_ok k6
    obtain ⟨_, rfl⟩ := lift_ok' h7
    exact tail count longLen.size _ _ _ (by decide) (by omega) (fun k hk => by rw [← e4]; exact t3 k hk) k7
  · simp only [if_neg hc] at k3
    exact tail _ _ _ _ _ (by decide) s2 s3 k3

theorem opt_left {s : Option StructSer} {src : Src} {st st' : St} {vs : List Val}
    (h : structUnpackOpt env s src st = .ok vs st') : src.left st' ≤ src.left st := by
  cases s with
  | none => cases h; exact Nat.le_refl _
  | some s => exact (struct_left (D := 0) h).2.1

theorem unsigned_first {h : StructSer} (ha : h.actions = none) {w : Width} (ht : h.toks = [⟨1, .int false w⟩]) {src : Src}
    {st st' : St} {hv : List Val} (hr : structUnpackM env h src st = .ok hv st') {c : Int}
    (hc : (do needInt (← first hv) : Except Err Int) = .ok c) : 0 ≤ c := by
  obtain ⟨d, _, _, h1, _⟩ := structUnpackM_ok.1 hr
  unfold StructSer.applyActions at h1
  rw [ha, ht] at h1
  cases h1
  obtain ⟨v, h2, h3⟩ := Except.bind_ok' hc
  simp only [unpackToks, unpackTok, unpackMany, unpackOne, first, List.cons_append, List.nil_append] at h2
  cases h2
  simp only [needInt, Val.asIndex, decodeInt, Bool.false_and] at h3
  cases h3
  simp only [Bool.false_eq_true, ↓reduceIte]
  omega

theorem took_dynChar {i : SerId} {s : StructSer} {src : Src} {st st' : St} {vs : List Val} (hm : src.left st ≤ m)
    (h : dynCharUnpack env i s src st = .ok vs st') : Took S m (.dynChar i s) src st vs st' := by
  obtain ⟨hv, st1, h1, h2⟩ := M.bind_ok h
  obtain ⟨c, st2, h3, h4⟩ := M.bind_ok h2
  obtain ⟨u, st3, h5, h6⟩ := M.bind_ok h4
  obtain ⟨hc, rfl⟩ := lift_ok' h3
  obtain ⟨i1, i2⟩ := setSize_io h5
  obtain ⟨s1, s2, s3, _⟩ := struct_left (D := 0) h1
  have e : ∀ src : Src, src.left st3 = src.left st2 := fun _ => left_congr i1
  have sol : (Ser.dynChar i s).Solid S →
      (src.next ((s.size : Int) + c).toNat).left st2 + 1 ≤ src.left st := by
    intro hs
    simp only [Ser.Solid] at hs
    obtain ⟨a1, a2, w, a3⟩ := hs
    have := unsigned_first a2 a3 h1 hc
    have := s3 ((s.size : Int) + c).toNat (by omega)
    omega
  have chars : ∀ (s' : Option StructSer) (src' : Src) (st' : St) (vs : List Val), src'.left st3 ≤ m →
      singleChar.matmul c = .ok s' → structUnpackOpt env s' src' st3 = .ok vs st' →
      Val.WithinList m vs ∧ vs.length ≤ 1 := by
    intro s' src' st' vs hm' hs' hr
    cases s' with
    | none => cases hr; exact ⟨trivial, Nat.zero_le _⟩
    | some t =>
      have hpos : 0 < c := by
        by_cases h0 : c = 0
        · subst h0; cases hs'
        · by_cases hn : c < 0
          · rw [matmul_neg hn] at hs'; cases hs'
          · omega
      obtain ⟨k, rfl⟩ : ∃ k : Nat, c = k := ⟨c.toNat, by omega⟩
      obtain ⟨t', q1, q2, q3, q4⟩ := singleChar_matmul k (by omega)
      rw [hs'] at q1
      cases q1
      obtain ⟨_, _, _, r4, r5⟩ := struct_left (D := 0) hr
      refine ⟨r4 m (Nat.zero_le _) (slim_of_none q4) hm', ?_⟩
      have := r5 (slim_of_none q4)
      rw [q3] at this
      simpa [numVals, Tok.numVals] using this
  cases src with
  | buf b =>
    cases h6
    refine ⟨⟨by simp only [Val.Within, List.length_take, List.length_drop, Src.left] at *; omega, trivial⟩,
      by rw [e]; exact s2, fun hs sz st'' hz => ?_, fun _ => Nat.le_refl _⟩
    cases hz
    rw [i2, e]
    exact sol hs
  | «at» b o =>
    obtain ⟨s', st4, h7, h8⟩ := M.bind_ok h6
    obtain ⟨h9, rfl⟩ := lift_ok' h7
    obtain ⟨c1, c2⟩ := chars s' _ _ _ (by simp only [Src.left] at *; simp only [Src.next]; omega) h9 h8
    refine ⟨c1, Nat.le_refl _, fun hs sz st'' hz => ?_, fun _ => c2⟩
    cases hz
    rw [structUnpackOpt_cells h8, i2]
    exact sol hs
  | io =>
    obtain ⟨s', st4, h7, h8⟩ := M.bind_ok h6
    obtain ⟨h9, rfl⟩ := lift_ok' h7
    have o := opt_left h8
    have e1 := e Src.io
    simp only [Src.next] at o
    obtain ⟨c1, c2⟩ := chars s' _ _ _ (by simp only [Src.next]; omega) h9 h8
    refine ⟨c1, by omega, fun hs sz st'' hz => ?_, fun _ => c2⟩
    have := sol hs
    simp only [Src.next] at *
    omega

theorem termRead_left {t : Byte} : ∀ (k : Nat) (rest out : Bytes) (size : Nat) (d : Bytes) (sz : Nat),
    termReadLoop t k rest out size = some (d, sz) → d.length ≤ out.length + rest.length ∧ size + 1 ≤ sz ∧ 1 ≤ rest.length
  | 0, _, _, _, _, _, h => by cases h
  | k + 1, rest, out, size, d, sz, h => by
    unfold termReadLoop at h
    simp only at h
    by_cases hn : rest.take 256 = []
    · rw [if_pos hn] at h; cases h
    · rw [if_neg hn] at h
      have h1 : 1 ≤ rest.length := by
        cases rest with
        | nil => exact absurd rfl hn
        | cons _ _ => simp
      cases hf : findTerm t (rest.take 256) with
      | none =>
        rw [hf] at h
        obtain ⟨a1, a2, a3⟩ := termRead_left k _ _ _ _ _ h
        simp only [List.length_append, List.length_take, List.length_drop] at a1
        exact ⟨by omega, by omega, h1⟩
      | some o =>
        rw [hf] at h
        cases h
        simp only [List.length_append, List.length_take]
        exact ⟨by omega, by omega, h1⟩

theorem took_terminated {i : SerId} {t : Byte} {src : Src} {st st' : St} {vs : List Val} (hm : src.left st ≤ m)
    (h : terminatedUnpack i t src st = .ok vs st') : Took S m (.terminated i t) src st vs st' := by
  cases src with
  | buf b =>
    have h' : (match findTerm t b with
      | none => M.throw .valueError
      | some k => (do setSize i (k + 1); pure [.bytes (b.take k)] : M (List Val))) st = .ok vs st' := h
    cases hk : findTerm t b with
    | none => rw [hk] at h'; cases h'
    | some k =>
      rw [hk] at h'
      have hl := findTerm_lt hk
      obtain ⟨u, st1, h1, h2⟩ := M.bind_ok h'
      obtain ⟨i1, i2⟩ := setSize_io h1
      cases h2
      refine ⟨⟨by simp only [Val.Within, List.length_take, Src.left] at *; omega, trivial⟩, Nat.le_refl _,
        fun _ sz st'' hz => ?_, fun _ => Nat.le_refl _⟩
      cases hz
      rw [i2]
      simp only [Src.next, Src.left, List.length_drop]
      omega
  | «at» b o =>
    have h' : (match findTerm t (b.drop o) with
      | none => M.throw .valueError
      | some k => (do setSize i (o + k + 1); pure [.bytes ((b.drop o).take k)] : M (List Val))) st = .ok vs st' := h
    cases hk : findTerm t (b.drop o) with
    | none => rw [hk] at h'; cases h'
    | some k =>
      rw [hk] at h'
      have hl := findTerm_lt hk
      simp only [List.length_drop] at hl
      obtain ⟨u, st1, h1, h2⟩ := M.bind_ok h'
      obtain ⟨i1, i2⟩ := setSize_io h1
      cases h2
      refine ⟨⟨by simp only [Val.Within, List.length_take, List.length_drop, Src.left] at *; omega, trivial⟩, Nat.le_refl _,
        fun _ sz st'' hz => ?_, fun _ => Nat.le_refl _⟩
      cases hz
      rw [i2]
      simp only [Src.next, Src.left]
      omega
  | io =>
    obtain ⟨st0, st1, h0, h1⟩ := M.bind_ok h
    cases h0
    simp only at h1
    cases hk : termReadLoop t ((st.io.data.drop st.io.pos).length + 1) (st.io.data.drop st.io.pos) [] 0 with
    | none =>
      rw [hk] at h1
      obtain ⟨u, st2, h2, h3⟩ := M.bind_ok h1
      cases h3
    | some q =>
      rw [hk] at h1
      obtain ⟨d, sz⟩ := q
      obtain ⟨l1, l2, l3⟩ := termRead_left _ _ _ _ _ _ hk
      obtain ⟨u, st2, h2, h3⟩ := M.bind_ok h1
      obtain ⟨u, st3, h4, h5⟩ := M.bind_ok h3
      have e : Src.io.left st3 = Src.io.left st2 := left_congr (setSize_io h4).1
      have e2 : Src.io.left st2 + 1 ≤ Src.io.left st := by
        cases h2
        simp only [Src.left, List.length_drop] at *
        omega
      cases h5
      refine ⟨⟨?_, trivial⟩, by omega, fun _ sz st'' hz => ?_, fun _ => Nat.le_refl _⟩
      · simp only [Val.Within, Src.left, List.length_nil, List.length_drop] at *
        omega
      · simp only [Src.next]
        omega

theorem took_unpack (he : env.Slim S D) (hD : D ≤ m) : ∀ (n : Nat) (upd : Upd), TookN S D m (Verif.unpack env n upd)
  | 0, _, _, _, _, _, _, _, _, h => by cases h
  | n + 1, upd, s, src, st, vs, st', hs, hm, h => by
    have ih := took_unpack he hD n noUpd
    cases s with
    | null => cases h; exact ⟨trivial, Nat.le_refl _, fun h => h.elim, fun _ => Nat.zero_le _⟩
    | struct s =>
      obtain ⟨a1, a2, a3, a4, a5⟩ := struct_left (D := D) h
      simp only [Ser.Slim] at hs
      refine ⟨a4 m hD hs hm, a2, fun hsol sz st'' hz => ?_, fun h1 => ?_⟩
      · cases hz
        simp only [Ser.Solid] at hsol
        have := a3 s.size (Nat.le_refl _)
        omega
      · simp only [Ser.Single] at h1
        have := a5 hs
        omega
    | dynChar i s => exact took_dynChar hm h
    | consuming i =>
      cases src with
      | buf b =>
        obtain ⟨u, st1, h1, h2⟩ := M.bind_ok h
        cases h2
        exact ⟨⟨hm, trivial⟩, Nat.le_refl _, fun h => h.elim, fun _ => Nat.le_refl _⟩
      | «at» b o =>
        obtain ⟨u, st1, h1, h2⟩ := M.bind_ok h
        cases h2
        exact ⟨⟨by simp only [Val.Within, List.length_drop]; exact hm, trivial⟩, Nat.le_refl _, fun h => h.elim,
          fun _ => Nat.le_refl _⟩
      | io =>
        obtain ⟨d, st0, h0, h2⟩ := M.bind_ok h
        obtain ⟨u, st1, h1, h2⟩ := M.bind_ok h2
        have e : Src.io.left st1 = Src.io.left st0 := left_congr (setSize_io h1).1
        have p0 : d.length ≤ Src.io.left st ∧ Src.io.left st0 ≤ Src.io.left st := by
          cases h0
          constructor <;> simp only [Src.left, List.length_drop] <;> omega
        cases h2
        exact ⟨⟨by simp only [Val.Within]; omega, trivial⟩, by omega, fun h => h.elim, fun _ => Nat.le_refl _⟩
    | terminated i t => exact took_terminated hm h
    | net i => exact took_net hm h
    | unicode inner enc dec =>
      obtain ⟨ws, st1, h1, h2⟩ := M.bind_ok h
      have a := ih _ _ _ _ _ (by simpa only [Ser.Slim] using hs) hm h1
      obtain ⟨h3, rfl⟩ := lift_ok' h2
      have hv : ∃ x, vs = [.str x] := by
        unfold unicodeDecode at h3
        obtain ⟨v, _, h4⟩ := Except.bind_ok' h3
        cases v with
        | bytes b =>
          obtain ⟨x, _, h5⟩ := Except.bind_ok' h4
          cases h5; exact ⟨_, rfl⟩
        | _ => cases h4
      obtain ⟨x, rfl⟩ := hv
      exact ⟨⟨trivial, trivial⟩, a.less, fun hsol => a.solid (by simpa only [Ser.Solid] using hsol), fun _ => Nat.le_refl _⟩
    | array i hdr item sl =>
      simp only [Ser.Slim] at hs
      obtain ⟨g1, g2, g3⟩ := hs
      obtain ⟨hv, st1, h1, h⟩ := M.bind_ok h
      obtain ⟨q, st2, h2, h⟩ := M.bind_ok h
      obtain ⟨p, st3, h3, h⟩ := M.bind_ok h
      obtain ⟨item', st4, h4, h⟩ := M.bind_ok h
      obtain ⟨w, st5, h5, h⟩ := M.bind_ok h
      obtain ⟨_, st6, h6, h⟩ := M.bind_ok h
      obtain ⟨_, st7, h7, h⟩ := M.bind_ok h
      cases h
      obtain ⟨hc, rfl⟩ := lift_ok' h2
      have e3 := slim_getPart h3
      subst e3
      obtain ⟨k, ke⟩ := slim_preunpack (S := S) (D := D) h4
      have e4 : ∀ src : Src, src.left st4 = src.left st3 := fun _ => left_congr ke
      obtain ⟨_, rfl⟩ := lift_ok' h6
      obtain ⟨i1, i2⟩ := setSize_io h7
      have e7 : ∀ src : Src, src.left st' = src.left st6 := fun _ => left_congr i1
      have l1 := opt_left h1
      have l2 := left_next src (hdrSize hdr) st3
      obtain ⟨b1, b2, b3, b4, b5, b6⟩ := took_items ih (k.slim g1) (k.single g2) _ _ _ _ _ (by rw [e4]; omega) h5
      rw [e4] at b2 b4 b6
      have hdrl : ∀ h, hdr = some h → (src.next (hdrSize hdr)).left st3 + h.size ≤ src.left st := by
        intro h he
        subst he
        exact (struct_left (D := 0) h1).2.2.1 _ (Nat.le_refl _)
      have cnt : 0 ≤ sl → q.1 = sl := by
        intro h0
        unfold headerUnpackValues at hc
        rw [if_pos h0] at hc
        split at hc
        · obtain ⟨x, _, hc⟩ := Except.bind_ok' hc
          obtain ⟨y, _, hc⟩ := Except.bind_ok' hc
          cases hc; rfl
        · cases hc; rfl
      refine ⟨⟨⟨?_, b1⟩, trivial⟩, by rw [e7]; omega, fun hsol sz st'' hz => ?_, fun _ => Nat.le_refl _⟩
      · rcases g3 with g3 | ⟨g3, g4⟩
        · have := b6 (k.solid g3)
          omega
        · have := cnt g3
          omega
      · cases hz
        rw [e7, i2]
        simp only [Ser.Solid] at hsol
        rcases hsol with ⟨h, he, hsz⟩ | ⟨h0, hsol⟩
        · have := hdrl h he
          omega
        · have := b6 (k.solid hsol)
          have := cnt (by omega)
          omega
    | staticArr c k ser =>
      obtain ⟨ws, st1, h1, h⟩ := M.bind_ok h
      cases h
      simp only [Ser.Slim] at hs
      cases ser with
      | none =>
        cases h1
        exact ⟨⟨⟨Nat.zero_le _, trivial⟩, trivial⟩, Nat.le_refl _, fun h => (by obtain ⟨_, h, _⟩ := h; cases h), fun _ => Nat.le_refl _⟩
      | some s =>
        obtain ⟨g1, g2⟩ := hs s rfl
        obtain ⟨a1, a2, a3, a4, a5⟩ := struct_left (D := D) h1
        have := a5 g1
        refine ⟨⟨⟨?_, a4 m hD g1 hm⟩, trivial⟩, a2, fun hsol sz st'' hz => ?_, fun _ => Nat.le_refl _⟩
        · rcases g2 with g2 | g2
          · omega
          · have := spends_size g2
            omega
        · cases hz
          simp only [Ser.Solid] at hsol
          obtain ⟨s', hs', hsz⟩ := hsol
          cases hs'
          have := a3 s.size (Nat.le_refl _)
          simp only [Option.elim_some]
          omega
    | dynArr i cnt item =>
      simp only [Ser.Slim] at hs
      obtain ⟨g1, g2, g3, g4⟩ := hs
      obtain ⟨hv, st1, h1, h⟩ := M.bind_ok h
      obtain ⟨a1, a2, a3, _⟩ := struct_left (D := D) h1
      have tail : ∀ (c : Int) (stA st' : St) (vs : List Val), stA = st1 →
          (do let s ← M.lift (item.mul c)
              let vs ← structUnpackOpt env s (src.next cnt.size)
              setSize i (cnt.size + s.elim 0 StructSer.size)
              pure [.list vs] : M (List Val)) stA = .ok vs st' → Took S m (.dynArr i cnt item) src st vs st' := by
        intro c stA st' vs eA hh
        subst eA
        obtain ⟨s', st3, h3, h⟩ := M.bind_ok hh
        obtain ⟨ws, st4, h4, h⟩ := M.bind_ok h
        obtain ⟨_, st5, h5, h⟩ := M.bind_ok h
        cases h
        obtain ⟨h6, rfl⟩ := lift_ok' h3
        obtain ⟨i1, i2⟩ := setSize_io h5
        have e5 : ∀ src : Src, src.left st' = src.left st4 := fun _ => left_congr i1
        have l1 := opt_left h4
        have l2 := left_next src cnt.size st3
        have l3 : src.left st4 ≤ src.left st3 := by
          cases src with
          | io => exact l1
          | _ => exact Nat.le_refl _
        refine ⟨⟨?_, trivial⟩, by rw [e5]; omega, fun hsol sz st'' hz => ?_, fun _ => Nat.le_refl _⟩
        · cases s' with
          | none => cases h4; exact ⟨Nat.zero_le _, trivial⟩
          | some t =>
            obtain ⟨c1, c2, c3, c4, c5⟩ := struct_left (D := D) h4
            have ht := mul_slim g1 h6
            have := c5 ht
            have := mul_spends g2 g4 g3 h6
            exact ⟨by omega, c4 m hD ht (by omega)⟩
        · cases hz
          rw [e5, i2]
          simp only [Ser.Solid] at hsol
          have := a3 (cnt.size + s'.elim 0 StructSer.size) (by omega)
          have := left_next_io src (cnt.size + s'.elim 0 StructSer.size) l3
          omega
      match hv, h with
      | [c], h =>
        obtain ⟨c', st2, h2, k⟩ := M.bind_ok h
        obtain ⟨_, rfl⟩ := lift_ok' h2
        exact tail _ _ _ _ rfl k
      | [], h => cases h
      | _ :: _ :: _, h => cases h
    | tuple i inner =>
      simp only [Ser.Slim] at hs
      obtain ⟨p, st1, h1, k1⟩ := M.bind_ok h
      obtain ⟨inner', st2, h2, k2⟩ := M.bind_ok k1
      have e1 := slim_getPart h1
      subst e1
      obtain ⟨k, ke⟩ := slim_preunpack (S := S) (D := D) h2
      have e2 : src.left st2 = src.left st1 := left_congr ke
      by_cases hl : inner'.isLazy = true
      · simp only [if_pos hl] at k2
        cases k2
        refine ⟨⟨trivial, trivial⟩, by omega, fun hsol => ?_, fun _ => Nat.le_refl _⟩
        simp only [Ser.Solid] at hsol
        rw [k.eager hsol.2 hsol.1] at hl
        cases hl
      · simp only [if_neg hl] at k2
        obtain ⟨ws, st3, h3, k3⟩ := M.bind_ok k2
        cases k3
        have a := ih _ _ _ _ _ (k.slim hs) (by omega) h3
        have := a.less
        refine ⟨⟨a.within, trivial⟩, by omega, fun hsol sz st'' hz => ?_, fun _ => Nat.le_refl _⟩
        simp only [Ser.Solid] at hsol
        have := a.solid (k.solid hsol.2) _ _ (k.size _ _ _ hz)
        omega
    | lookback i dec keys opts dflt =>
      simp only [Ser.Slim] at hs
      obtain ⟨p, st1, h1, k1⟩ := M.bind_ok h
      obtain ⟨r, st2, h2, k2⟩ := M.bind_ok k1
      obtain ⟨s, st3, h3, k3⟩ := M.bind_ok k2
      have e1 := slim_getPart h1
      subst e1
      obtain ⟨_, rfl⟩ := lift_ok' h2
      obtain ⟨g1, g2, g3, g4⟩ := slim_getSerializer (S := S) (D := D) h3
      have e3 : src.left st3 = src.left st2 := left_congr g1
      obtain ⟨b1, b2, b3, b4⟩ := took_union ih (g2 hs.1 hs.2) (by omega) k3
      refine ⟨b1, by omega, fun hsol sz st'' hz => ?_, fun h1 => ?_⟩
      · cases hz
        simp only [Ser.Solid] at hsol
        have := g3 hsol.1 hsol.2
        have := b4 this.1 this.2
        omega
      · simp only [Ser.Single] at h1
        exact b3 (g4 h1.1 h1.2)
    | lookahead i ra dec keys opts dflt =>
      simp only [Ser.Slim] at hs
      obtain ⟨⟨sr, rfl⟩, hs⟩ := hs
      obtain ⟨hv, st1, h1, k1⟩ := M.bind_ok h
      obtain ⟨r, st2, h2, k2⟩ := M.bind_ok k1
      obtain ⟨_, st3, h3, k4⟩ := M.bind_ok k2
      obtain ⟨s, st4, h4, k3⟩ := M.bind_ok k4
      obtain ⟨_, rfl⟩ := lift_ok' h2
      have e0 : src.left st3 = src.left st := by
        cases n with
        | zero => cases h1
        | succ n =>
          obtain ⟨d, _, _, _, e⟩ := structUnpackM_ok.1 (show structUnpackM env sr src st = .ok hv st2 from h1)
          cases src with
          | io =>
            obtain ⟨sz, st5, h5, h6⟩ := M.bind_ok h3
            cases h5
            cases h6
            rw [e]
            simp only [stepped, Stream.seekCur, Src.left]
            omega
          | _ => rfl
      obtain ⟨g1, g2, g3, g4⟩ := slim_getSerializer (S := S) (D := D) h4
      have e3 : src.left st4 = src.left st3 := left_congr g1
      obtain ⟨b1, b2, b3, b4⟩ := took_union ih (g2 hs.1 hs.2) (by omega) k3
      refine ⟨b1, by omega, fun hsol sz st'' hz => ?_, fun h1 => ?_⟩
      · cases hz
        simp only [Ser.Solid] at hsol
        have := g3 hsol.1 hsol.2
        have := b4 this.1 this.2
        omega
      · simp only [Ser.Single] at h1
        exact b3 (g4 h1.1 h1.2)
    | cond s c d => cases h
    | skip vals =>
      cases h
      exact ⟨withinList_mono hD _ (by simpa only [Ser.Slim] using hs), Nat.le_refl _, fun h => h.elim, fun h => h.elim⟩
    | structured i cls =>
      obtain ⟨q, st1, h1, h⟩ := M.bind_ok h
      obtain ⟨sz, st2, h2, h⟩ := M.bind_ok h
      obtain ⟨_, st3, h3, h⟩ := M.bind_ok h
      cases h
      obtain ⟨a1, a2, a3⟩ := took_create he hD (fun upd => took_unpack he hD n upd) hm h1
      have := readSize_cells _ h2
      subst this
      obtain ⟨i1, i2⟩ := setSize_io h3
      have e3 : ∀ src : Src, src.left st' = src.left st2 := fun _ => left_congr i1
      refine ⟨⟨a1, trivial⟩, by rw [e3]; exact a2, fun hsol sz st'' hz => ?_, fun _ => Nat.le_refl _⟩
      cases hz
      rw [e3, i2]
      exact a3 hsol _ _ h2
    | selfT i => cases h
    | compound i ss =>
      obtain ⟨q, st1, h1, h⟩ := M.bind_ok h
      obtain ⟨_, st2, h2, h⟩ := M.bind_ok h
      cases h
      obtain ⟨a1, a2, a3, a4, a5⟩ := took_loop ih ss 0 _ _ _ (by simpa only [Ser.Slim] using hs)
        (Nat.le_trans (left_next _ _ _) hm) h1
      obtain ⟨i1, i2⟩ := setSize_io h2
      have e : ∀ src : Src, src.left st' = src.left st1 := fun _ => left_congr i1
      refine ⟨a1, by rw [e]; exact a2, fun hsol sz st'' hz => ?_, fun h => h.elim⟩
      cases hz
      rw [e, i2]
      have := a5 (by simpa only [Ser.Solid] using hsol)
      have := left_next src 0 st
      omega
    | specialized i p ss =>
      obtain ⟨q, st1, h1, h⟩ := M.bind_ok h
      obtain ⟨_, st2, h2, h⟩ := M.bind_ok h
      cases h
      obtain ⟨a1, a2, a3, a4, a5⟩ := took_loopSpec ih ss _ _ 0 _ _ _ (by simpa only [Ser.Slim] using hs)
        (Nat.le_trans (left_next _ _ _) hm) h1
      obtain ⟨i1, i2⟩ := setSize_io h2
      have e : ∀ src : Src, src.left st' = src.left st1 := fun _ => left_congr i1
      refine ⟨a1, by rw [e]; exact a2, fun hsol sz st'' hz => ?_, fun h => h.elim⟩
      cases hz
      rw [e, i2]
      have := a5 (by simpa only [Ser.Solid] using hsol)
      have := left_next src 0 st
      omega

end Verif.Wide
