import Verif.Rest
import Verif.Samples
/-
Helper lemmas for C48: the loops over the fields of a class, with one more field at the end.
-/
namespace Verif
set_option linter.unusedSimpArgs false
open Samples

/-- Run one action after another; the state goes on. -/
def Res.andThen (r : Res α) (f : α → M β) : Res β :=
  match r with
  | .ok a st => f a st
  | .err e st => .err e st

theorem bind_andThen (x : M α) (f : α → M β) (st : St) : (x >>= f) st = (x st).andThen f := rfl

theorem packLoop_snoc (packN : Ser → List Val → M Bytes) (pre : Ser → M Ser) (s : Ser) (ws : List Val) :
    ∀ (ss : List Ser) (vs : List Val), (∀ x ∈ ss, ∀ st x' st', pre x st = .ok x' st' → x'.numValues = x.numValues) →
      vs.length = Ser.numValuesList ss → ∀ st,
      packLoop packN pre (ss ++ [s]) (vs ++ ws) st =
        (packLoop packN pre ss vs st).andThen fun (b, t) st1 => (packLoop packN pre [s] ws st1).andThen fun (b', t') => M.pure (b ++ b', t + t')
  | [], vs, _, hl, st => by
    have : vs = [] := List.eq_nil_of_length_eq_zero hl
    subst this
    show packLoop packN pre [s] ws st = (packLoop packN pre [s] ws st).andThen fun (b', t') => M.pure ([] ++ b', 0 + t')
    cases packLoop packN pre [s] ws st with
    | ok a st1 => obtain ⟨b, t⟩ := a; simp [Res.andThen, M.pure]
    | err e st1 => rfl
  | x :: ss, vs, hp, hl, st => by
    have ih := packLoop_snoc packN pre s ws ss (vs.drop x.numValues) (fun y hy => hp y (by simp [hy]))
      (by simp only [Ser.numValuesList] at hl; simp; omega)
    simp only [List.cons_append, packLoop, bind_andThen]
    cases hx : pre x st with
    | err e st1 => rfl
    | ok x' st1 =>
      have hn := hp x (by simp) _ _ _ hx
      have hle : x.numValues ≤ vs.length := by simp only [Ser.numValuesList] at hl; omega
      simp only [Res.andThen, bind_andThen, hn]
      rw [List.take_append_of_le_length hle, List.drop_append_of_le_length hle]
      cases packN x' (vs.take x.numValues) st1 with
      | err e st2 => rfl
      | ok b st2 =>
        simp only [Res.andThen, bind_andThen]
        cases x'.readSize st2 with
        | err e st3 => rfl
        | ok sz st3 =>
          simp only [Res.andThen, bind_andThen]
          rw [ih st3]
          cases packLoop packN pre ss (vs.drop x.numValues) st3 with
          | err e st4 => rfl
          | ok a st4 =>
            obtain ⟨bs, t⟩ := a
            simp only [Res.andThen, packLoop, bind_andThen, pure, M.pure]
            cases pre s st4 with
            | err e st5 => rfl
            | ok s' st5 =>
              simp only [Res.andThen, bind_andThen]
              cases packN s' (ws.take s'.numValues) st5 with
              | err e st6 => rfl
              | ok b6 st6 =>
                simp only [Res.andThen, bind_andThen]
                cases s'.readSize st6 with
                | err e st7 => rfl
                | ok s7 st7 => simp [Res.andThen, bind_andThen, pure, M.pure, List.append_assoc, Nat.add_assoc]

theorem unpackLoop_snoc (unpackN : Ser → Src → M (List Val)) (src : Src) (s : Ser) :
    ∀ (ss : List Ser) (size : Nat) (st : St),
      unpackLoop unpackN src size (ss ++ [s]) st =
        (unpackLoop unpackN src size ss st).andThen fun (vs, t) st1 => (unpackLoop unpackN src t [s] st1).andThen fun (ws, t') => M.pure (vs ++ ws, t')
  | [], size, st => by
    show unpackLoop unpackN src size [s] st = (unpackLoop unpackN src size [s] st).andThen fun (ws, t') => M.pure ([] ++ ws, t')
    cases unpackLoop unpackN src size [s] st with
    | ok a st1 => rfl
    | err e st1 => rfl
  | x :: ss, size, st => by
    have ih := unpackLoop_snoc unpackN src s ss
    simp only [List.cons_append, unpackLoop, bind_andThen]
    cases unpackN x (src.next size) st with
    | err e st2 => rfl
    | ok vs st2 =>
      simp only [Res.andThen, bind_andThen]
      cases x.readSize st2 with
      | err e st3 => rfl
      | ok sz st3 =>
        simp only [Res.andThen, bind_andThen]
        rw [ih]
        cases unpackLoop unpackN src (size + sz) ss st3 with
        | err e st4 => rfl
        | ok a st4 =>
          obtain ⟨bs, t⟩ := a
          simp only [Res.andThen, unpackLoop, bind_andThen, pure, M.pure]
          cases unpackN s (src.next t) st4 with
          | err e st5 => rfl
          | ok w st5 =>
            simp only [Res.andThen, bind_andThen]
            cases s.readSize st5 with
            | err e st6 => rfl
            | ok s6 st6 => simp [Res.andThen, bind_andThen, M.pure, List.append_assoc]

/-- With a consumer that may refuse the values: if the longer loop succeeds, so does the shorter one, and the last field was
read from where it stopped. -/
theorem unpackLoopSpec_snoc (unpackN : Ser → Src → M (List Val)) (upd : Upd) (src : Src) (c : SerId) :
    ∀ (ss : List Ser) (p : PObj) (done size : Nat) (st : St) (ws : List Val) (total : Nat) (st' : St),
      unpackLoopSpec unpackN upd src p done size (ss ++ [.consuming c]) st = .ok (ws, total) st' →
      ∃ vs t st1 us, unpackLoopSpec unpackN upd src p done size ss st = .ok (vs, t) st1 ∧
        unpackN (.consuming c) (src.next t) st1 = .ok us st' ∧ ws = vs ++ us ∧ total = t + (st'.cells c).size
  | [], p, done, size, st, ws, total, st', h => by
    simp only [List.nil_append, unpackLoopSpec, bind_andThen, Ser.preunpack, Ser.prepack, pure, M.pure, Res.andThen] at h
    cases hu : unpackN (.consuming c) (src.next size) st with
    | err e st2 => rw [hu] at h; cases h
    | ok us st2 =>
      rw [hu] at h
      simp only [bind_andThen, M.lift] at h
      cases hp : upd p done us with
      | error e => rw [hp] at h; cases h
      | ok p' =>
        rw [hp] at h
        cases h
        exact ⟨[], size, st, us, rfl, hu, by simp, rfl⟩
  | x :: ss, p, done, size, st, ws, total, st', h => by
    have ih := unpackLoopSpec_snoc unpackN upd src c ss
    simp only [List.cons_append, unpackLoopSpec, bind_andThen] at h
    simp only [unpackLoopSpec, bind_andThen]
    cases hx : x.preunpack p st with
    | err e st1 => rw [hx] at h; cases h
    | ok x' st1 =>
      rw [hx] at h
      simp only [Res.andThen, bind_andThen] at h
      simp only [Res.andThen, bind_andThen]
      cases hu : unpackN x' (src.next size) st1 with
      | err e st2 => rw [hu] at h; cases h
      | ok vs st2 =>
        rw [hu] at h
        simp only [bind_andThen, M.lift] at h
        simp only [bind_andThen, M.lift]
        cases hp : upd p done vs with
        | error e => rw [hp] at h; cases h
        | ok p' =>
          rw [hp] at h
          simp only [Res.andThen, bind_andThen] at h
          simp only [Res.andThen, bind_andThen]
          cases hs : x'.readSize st2 with
          | err e st3 => rw [hs] at h; cases h
          | ok sz st3 =>
            rw [hs] at h
            simp only [bind_andThen] at h
            simp only [bind_andThen]
            cases hl : unpackLoopSpec unpackN upd src p' (done + vs.length) (size + sz) (ss ++ [.consuming c]) st3 with
            | err e st4 => rw [hl] at h; cases h
            | ok a st4 =>
              obtain ⟨ws', t'⟩ := a
              rw [hl] at h
              cases h
              obtain ⟨vs', t, st5, us, h1, h2, h3, h4⟩ := ih _ _ _ _ _ _ _ hl
              refine ⟨vs ++ vs', t, st5, us, ?_, h2, by rw [h3, List.append_assoc], h4⟩
              rw [h1]
              rfl

theorem bytesOf_iff (vs : List Val) (b : Bytes) : Rest.bytesOf vs = .ok b ↔ vs.map Val.asIndex = b.map (fun x => some (x.toNat : Int)) := by
  induction vs generalizing b with
  | nil => cases b <;> simp [Rest.bytesOf]
  | cons v vs ih =>
    simp only [Rest.bytesOf, Rest.byteOf]
    cases hv : v.asIndex with
    | none => cases b <;> simp [bind, Except.bind, hv]
    | some i =>
      by_cases hi : 0 ≤ i ∧ i < 256
      · simp only [if_pos hi]
        cases hb : Rest.bytesOf vs with
        | error e =>
          cases b with
          | nil => simp [bind, Except.bind]
          | cons x b =>
            have := ih b
            rw [hb] at this
            simp only [reduceCtorEq, false_iff] at this
            simp [bind, Except.bind, this]
        | ok b' =>
          cases b with
          | nil => simp [bind, Except.bind]
          | cons x b =>
            have h2 := ih b
            rw [hb] at h2
            simp only [Except.ok.injEq] at h2
            simp only [bind, Except.bind, Except.ok.injEq, List.cons.injEq, List.map_cons, hv, Option.some.injEq, h2]
            refine and_congr_left fun _ => ?_
            constructor
            · intro h; rw [← h]; simp; omega
            · intro h; rw [h]; simp
      · simp only [if_neg hi]
        cases b with
        | nil => simp [bind, Except.bind]
        | cons x b =>
          simp only [bind, Except.bind, List.map_cons, hv, List.cons.injEq, Option.some.injEq, reduceCtorEq, false_iff, not_and]
          intro h
          exact absurd ⟨by omega, by have := x.toNat_lt; omega⟩ hi

theorem bytesOf_append_bad {front : List Val} {pre : Bytes} (h : Rest.bytesOf front = .ok pre) (vs : List Val) :
    Rest.bytesOf (front ++ vs) = (Rest.bytesOf vs >>= fun b => .ok (pre ++ b)) := by
  induction front generalizing pre with
  | nil => cases h; simp [bind, Except.bind]; cases Rest.bytesOf vs <;> rfl
  | cons v front ih =>
    simp only [Rest.bytesOf, List.cons_append] at h ⊢
    cases hv : Rest.byteOf v with
    | error e => rw [hv] at h; cases h
    | ok b =>
      rw [hv] at h
      cases hf : Rest.bytesOf front with
      | error e => rw [hf] at h; cases h
      | ok bs =>
        rw [hf] at h
        cases h
        rw [ih hf]
        cases Rest.bytesOf vs <;> rfl

end Verif
