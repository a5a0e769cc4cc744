import Verif.Proofs.ZipLemmas
import Verif.Samples
/-
C41: `zips` on Python 3.9, and what its error costs the methods of `Structured`.
-/
namespace Verif.Zips
open Verif.Samples

variable {α : Type}

/-- **C41** (tuples).  The `i`-th tuple has the `i`-th value of each iterable, and there is one as long as all of them
have one. -/
theorem C41_tuples (strict : Bool) (its : List (List α)) (hn : its ≠ []) (i : Nat) :
    (zips39 strict its).1[i]? = its.mapM (fun it => it[i]?) := by
  obtain ⟨m, h1, h2⟩ := exists_min its hn
  rw [zips_fst]
  exact zipAll_tuples m its hn h1 h2 i

example : (zips39 true [[1, 2, 3], [4, 5]]).1 = [[1, 4], [2, 5]] := by rfl
example : (zips39 true [[1, 2, 3], [4, 5], [6, 7, 8]]).1[1]? = some [2, 5, 7] := C41_tuples true _ (by simp) 1

/-- **C41** (not strict).  Without `strict` nothing is raised. -/
theorem C41_not_strict (its : List (List α)) : (zips39 false its).2 = Option.none := by
  simp [zips39]

example : zips39 false [[1, 2, 3], [4]] = ([[1, 4]], Option.none) := by rfl

/-- **C41** (equal lengths).  Iterables of the same length never raise. -/
theorem C41_equal {its : List (List α)} {n : Nat} (h : ∀ it ∈ its, it.length = n) : (zips39 true its).2 = Option.none := by
  by_cases hn : its = []
  · subst hn; rfl
  obtain ⟨pre, it, post, hs⟩ := shortest_exists its hn
  have hi : it.length = n := h it (by simp [hs.eq])
  rcases error_cases true its with h1 | h1
  · exact h1
  · rcases (raises_iff hs).1 h1 with ⟨p, hp, hl⟩ | ⟨p, hp, hl⟩
    · have := h p (by simp [hs.eq, hp]); omega
    · have := h p (by simp [hs.eq, hp]); omega

example : zips39 true [[1, 2], [3, 4], [5, 6]] = ([[1, 3, 5], [2, 4, 6]], Option.none) := by rfl

/-- **C41** (exactly when it raises), with the iterables split at the first of the shortest: an iterable after it
is longer, or one before it is longer by at least two.  That one of the first ones is longer by one goes unnoticed: `zip` has
taken its last value before finding the shortest exhausted. -/
theorem C41_raises (its pre : List (List α)) (it : List α) (post : List (List α)) (he : its = pre ++ it :: post)
    (h1 : ∀ p ∈ pre, it.length < p.length) (h2 : ∀ q ∈ post, it.length ≤ q.length) :
    (zips39 true its).2 = some Err.valueError ↔
      (∃ p ∈ pre, it.length + 1 < p.length) ∨ (∃ q ∈ post, it.length < q.length) :=
  raises_iff ⟨he, h1, h2⟩

example : (zips39 true [[1, 2], [3, 4, 5], [6]]).2 = some Err.valueError :=
  (C41_raises _ [[1, 2], [3, 4, 5]] [6] [] rfl (by simp) (by simp)).2 (.inl ⟨[3, 4, 5], by simp, by simp⟩)
example : (zips39 true [[1, 2], [6], [3, 4]]).2 = some Err.valueError :=
  (C41_raises _ [[1, 2]] [6] [[3, 4]] rfl (by simp) (by simp)).2 (.inr ⟨[3, 4], by simp, by simp⟩)
example : (zips39 true [[1, 2], [3, 4], [6]]).2 = Option.none := by rfl

/-- **C41, partial.**  Iterables of different lengths raise `ValueError` unless all that are longer than the shortest
come before it and are longer by exactly one.  Missing, and false: those (`C41_is_false`). -/
theorem C41_partial {its : List (List α)} {a b : List α} (ha : a ∈ its) (hb : b ∈ its) (hl : a.length + 1 < b.length) :
    (zips39 true its).2 = some Err.valueError := by
  have hn : its ≠ [] := by rintro rfl; cases ha
  obtain ⟨pre, it, post, hs⟩ := shortest_exists its hn
  have hm : it.length ≤ a.length := by
    have := ha
    rw [hs.eq] at this
    rcases List.mem_append.1 this with h | h
    · exact Nat.le_of_lt (hs.before a h)
    · rcases List.mem_cons.1 h with h | h
      · subst h; exact Nat.le_refl _
      · exact hs.after a h
  refine (raises_iff hs).2 ?_
  have := hb
  rw [hs.eq] at this
  rcases List.mem_append.1 this with h | h
  · exact .inl ⟨b, h, by omega⟩
  · rcases List.mem_cons.1 h with h | h
    · subst h; omega
    · exact .inr ⟨b, h, by omega⟩

example : (zips39 true [[1, 2, 3], [4]]).2 = some Err.valueError :=
  C41_partial (a := [4]) (b := [1, 2, 3]) (by simp) (by simp) (by simp)

/-- **C41** (the two iterables of every call in the library). -/
theorem C41_two (as bs : List α) :
    (zips39 true [as, bs]).2 = some Err.valueError ↔ as.length ≠ bs.length ∧ as.length ≠ bs.length + 1 :=
  two_iff as bs

example : (zips39 true [[1], [2, 3]]).2 = some Err.valueError := (C41_two _ _).2 (by simp)

/-- **C41 is false in full.**  The first iterable is one longer, and nothing is raised. -/
theorem C41_is_false : ¬ ∀ as bs : List Nat, (zips39 true [as, bs]).2 = some Err.valueError ↔ as.length ≠ bs.length :=
  fun h => by have := (h [1, 2] [1]).2 (by simp); cases this

/-- **C41** (objects, nothing wrong added).  Where `obj.unpack`, `obj.unpack_from` or `obj.unpack_read` succeed on later
versions, they do the same on Python 3.9. -/
theorem C41_unpack (env : Env) (n : Nat) (v w : Val) (src : Src) (st st' : St)
    (h : Obj.unpack env n v src st = .ok w st') : unpack39 env n v src st = .ok w st' := by
  unfold Obj.unpack at h
  unfold unpack39
  split at h
  · rename_i cls bo attrs
    obtain ⟨⟨ci, ser⟩, s1, h1, h⟩ := M.bind_ok h
    obtain ⟨s, s2, h2, h⟩ := M.bind_ok h
    obtain ⟨vals, s3, h3, h⟩ := M.bind_ok h
    refine (bind_run h1).trans ((bind_run h2).trans ((bind_run h3).trans ?_))
    rw [assign_eq]
    by_cases hc : vals.length = ci.attrs.length
    · rw [if_pos hc] at h
      rw [if_pos (.inl hc.symm)]
      exact h
    · rw [if_neg hc] at h; cases h
  · cases h

/-- `m.unpack_from(b'\x01\x02BC\x00')` with no points. -/
example : result (unpack39 env 5 (msg 9 [65] []) (.at [1, 2, 66, 67, 0] 0) st0) = .ok (msg 1 [66, 67] []) := by
  have h : result (Obj.unpack env 5 (msg 9 [65] []) (.at [1, 2, 66, 67, 0] 0) st0) = .ok (msg 1 [66, 67] []) := by rfl
  cases hr : Obj.unpack env 5 (msg 9 [65] []) (.at [1, 2, 66, 67, 0] 0) st0 with
  | err e s => rw [hr] at h; cases h
  | ok w s => rw [C41_unpack _ _ _ _ _ _ _ hr, ← h, hr]

/-- **C41** (objects).  What succeeds on Python 3.9 succeeds with the same result on later versions, or raises
`ValueError` there: exactly one value was missing. -/
theorem C41_unpack_only (env : Env) (n : Nat) (v w : Val) (src : Src) (st st' : St)
    (h : unpack39 env n v src st = .ok w st') :
    Obj.unpack env n v src st = .ok w st' ∨ Obj.unpack env n v src st = .err .valueError st' := by
  unfold unpack39 at h
  split at h
  · rename_i cls bo attrs
    obtain ⟨⟨ci, ser⟩, s1, h1, h⟩ := M.bind_ok h
    obtain ⟨s, s2, h2, h⟩ := M.bind_ok h
    obtain ⟨vals, s3, h3, h⟩ := M.bind_ok h
    have e : ∀ r, (if vals.length = ci.attrs.length then
        pure (Val.obj cls bo ((ci.attrs.zip vals).foldl (fun as nv => setAttr as nv.1 nv.2) attrs))
        else M.throw Err.valueError : M Val) s3 = r → Obj.unpack env n (.obj cls bo attrs) src st = r := fun r hr =>
      (bind_run h1).trans ((bind_run h2).trans ((bind_run h3).trans hr))
    rw [assign_eq] at h
    by_cases hc : vals.length = ci.attrs.length
    · rw [if_pos (.inl hc.symm)] at h
      exact .inl (e _ (by rw [if_pos hc]; exact h))
    · by_cases hl : ci.attrs.length = vals.length + 1
      · rw [if_pos (.inr hl)] at h
        cases h
        exact .inr (e _ (by rw [if_neg hc]; rfl))
      · rw [if_neg (by omega)] at h
        cases h
  · cases h

/-- **C41** (new objects).  `create_unpack` and its variants succeed on Python 3.9 exactly when they do on later versions,
with the same result: an attribute left out is missing from the proxy, which raises `AttributeError`. -/
theorem C41_create (env : Env) (n : Nat) (cls : ClassId) (src : Src) (st st' : St) (w : Val)
    (hn : ∀ ci, env.classes cls = some ci → ci.attrs.Nodup) :
    createUnpack39 env n cls src st = .ok w st' ↔ createUnpack env n cls src st = .ok w st' := by
  unfold createUnpack39 createUnpack createUnpackWith
  cases hc : env.classes cls with
  | none => simp [M.throw, bind, M.bind]
  | some ci =>
    have hd := hn ci hc
    simp only [bind, M.bind]
    cases ci.serializer.preunpack ⟨cls, true, []⟩ st with
    | err e s1 => simp
    | ok s s1 =>
      simp only
      cases Verif.unpack env n (assignVals ci.attrs) s src s1 with
      | err e s2 => simp
      | ok vals s2 =>
        simp only
        rw [assign_eq]
        obtain ⟨hp, hq⟩ := getAttrs_proxy hd vals
        by_cases he : ci.attrs.length = vals.length
        · rw [if_pos (.inl he)]
          show M.bind (M.lift (getAttrs (setAll [] (ci.attrs.zip vals)) ci.attrs)) _ s2 = _ ↔ _
          rw [hp he]
          simp only [M.bind, M.lift]
          cases construct cls ci vals <;> simp [pure, M.pure]
        · have hf : construct cls ci vals = .error .valueError := by
            rw [construct, if_neg (fun h => he h.symm)]
          rw [hf]
          simp only [M.lift, reduceCtorEq, iff_false]
          by_cases hl : ci.attrs.length = vals.length + 1
          · rw [if_pos (.inr hl)]
            show ¬ M.bind (M.lift (getAttrs (setAll [] (ci.attrs.zip vals)) ci.attrs)) _ s2 = _
            obtain ⟨e, hg⟩ := hq (by omega)
            rw [hg]
            intro h; cases h
          · rw [if_neg (by omega)]
            intro h; cases h

example : result (createUnpack39 env 5 1 (.at [1, 2, 66, 67, 0] 0) st0) = .ok (msg 1 [66, 67] []) := by rfl
example : result (createUnpack39 env 5 1 (.at [1, 0, 0] 0) st0) = .error .attributeError := by rfl
example : result (createUnpack env 5 1 (.at [1, 0, 0] 0) st0) = .error .valueError := by rfl

/-- **C41 is false for objects.**  `unpack_from` gives no value for an empty length-prefixed string, which later versions
notice.  On Python 3.9 the list of points becomes the name, and the points are those of before. -/
theorem C41_stale_is_false :
    result (Obj.unpack env 5 (msg 9 [65] [point 1 2]) (.at [1, 0, 0] 0) st0) = .error .valueError ∧
    result (unpack39 env 5 (msg 9 [65] [point 1 2]) (.at [1, 0, 0] 0) st0) =
      .ok (.obj 1 Option.none [("tag", .int 1), ("name", .list []), ("points", .list [point 1 2])]) :=
  ⟨rfl, rfl⟩

/-- **C41** (no objects).  What is no object has no `unpack`. -/
theorem C41_no_object {v : Val} (hv : ∀ c b as, v ≠ .obj c b as) (env : Env) (n : Nat) (src : Src) (st : St) :
    unpack39 env n v src st = .err .attributeError st ∧ Obj.unpack env n v src st = .err .attributeError st := by
  cases v with
  | obj c b as => exact absurd rfl (hv c b as)
  | _ => exact ⟨rfl, rfl⟩

example : result (unpack39 env 3 (.list []) (.buf [1]) st0) = .error .attributeError := by rfl

/-- **C41** (no class). -/
theorem C41_no_class (env : Env) (n : Nat) {cls : ClassId} (h : env.classes cls = Option.none) (src : Src) (st : St) :
    createUnpack39 env n cls src st = .err .attributeError st ∧ createUnpack env n cls src st = .err .attributeError st := by
  constructor
  · unfold createUnpack39; rw [h]; rfl
  · show (createUnpackWith env (Verif.unpack env n) cls src >>= fun _ => _) st = _
    unfold createUnpackWith
    rw [h]; rfl

example : result (createUnpack39 env 3 99 (.buf [1]) st0) = .error .attributeError := by rfl

/-- **C41** (nothing to pair).  No iterables give no tuples and raise nothing. -/
theorem C41_none (strict : Bool) : zips39 strict ([] : List (List α)) = ([], Option.none) := by
  cases strict <;> rfl

example : zips39 true ([] : List (List Nat)) = ([], Option.none) := C41_none true

end Verif.Zips
