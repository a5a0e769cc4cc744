import Verif.Proofs.RefineInto
/-
The partial object while a class is unpacked.
-/
namespace Verif

/-- `setattr` for each name in turn. -/
def setAll (as : List (Name × Val)) (nvs : List (Name × Val)) : List (Name × Val) :=
  nvs.foldl (fun as nv => setAttr as nv.1 nv.2) as

theorem setAttr_new {as : List (Name × Val)} {a : Name} {v : Val} (h : a ∉ as.map Prod.fst) : setAttr as a v = as ++ [(a, v)] := by
  induction as with
  | nil => rfl
  | cons x xs ih =>
    obtain ⟨b, w⟩ := x
    simp only [List.map_cons, List.mem_cons, not_or] at h
    rw [setAttr, if_neg (by simp [Ne.symm h.1]), ih h.2]
    rfl

theorem setAll_new {as nvs : List (Name × Val)} (h1 : (nvs.map Prod.fst).Nodup)
    (h2 : ∀ a ∈ nvs.map Prod.fst, a ∉ as.map Prod.fst) : setAll as nvs = as ++ nvs := by
  induction nvs generalizing as with
  | nil => simp [setAll]
  | cons x xs ih =>
    obtain ⟨a, v⟩ := x
    simp only [List.map_cons, List.nodup_cons] at h1
    have h3 : setAttr as a v = as ++ [(a, v)] := setAttr_new (h2 a (by simp))
    show setAll (setAttr as a v) xs = _
    rw [h3, ih h1.2]
    · simp
    · intro b hb
      simp only [List.map_append, List.mem_append, not_or]
      exact ⟨h2 b (by simp only [List.map_cons, List.mem_cons]; exact .inr hb), by
        simp only [List.map_cons, List.map_nil, List.mem_singleton]
        rintro rfl; exact h1.1 hb⟩

theorem zip_fst_sublist {α β : Type} : ∀ (xs : List α) (ys : List β), ((xs.zip ys).map Prod.fst).Sublist xs
  | [], _ => by simp
  | _ :: _, [] => by simp
  | x :: xs, y :: ys => by simpa using zip_fst_sublist xs ys

theorem setAll_zip {names : List Name} (hn : names.Nodup) (vs : List Val) : setAll [] (names.zip vs) = names.zip vs := by
  rw [setAll_new ((zip_fst_sublist names vs).nodup hn) (by simp)]
  rfl

theorem setAll_append (as xs ys : List (Name × Val)) : setAll as (xs ++ ys) = setAll (setAll as xs) ys := by
  simp [setAll]

theorem zip_split {names : List Name} {vs ws : List Val} (h : vs.length ≤ names.length) :
    names.zip (vs ++ ws) = names.zip vs ++ (names.drop vs.length).zip ws := by
  induction vs generalizing names with
  | nil => simp
  | cons v vs ih =>
    cases names with
    | nil => simp at h
    | cons a names => simp at h; simp [ih h]

theorem assignVals_set {names : List Name} {p p' : PObj} {k : Nat} {vs : List Val} (h : assignVals names p k vs = .ok p') :
    vs.length ≤ (names.drop k).length ∧ p' = { p with attrs := setAll p.attrs ((names.drop k).zip vs) } := by
  unfold assignVals at h
  simp only at h
  split at h
  · cases h
  · rename_i hl; cases h; exact ⟨by omega, rfl⟩

/-- The loop over `pre ++ post` is the loop over `pre`, then that over `post` with the values read so far set on the
partial object. -/
theorem unpackLoopSpec_append {f : Ser → Src → M (List Val)} {names : List Name} {src : Src} {post : List Ser} :
    ∀ {pre : List Ser} {p : PObj} {done size : Nat} {st st' : St} {r : List Val × Nat}, done ≤ names.length →
    unpackLoopSpec f (assignVals names) src p done size pre st = .ok r st' →
    unpackLoopSpec f (assignVals names) src p done size (pre ++ post) st =
      (unpackLoopSpec f (assignVals names) src { p with attrs := setAll p.attrs ((names.drop done).zip r.1) }
        (done + r.1.length) r.2 post >>= fun q => pure (r.1 ++ q.1, q.2)) st'
  | [], p, done, size, st, st', r, _, h => by
    cases h
    simp only [List.nil_append, List.zip_nil_right, List.length_nil, Nat.add_zero]
    show _ = (unpackLoopSpec f (assignVals names) src p done size post >>= fun q => pure q) st
    simp only [bind, M.bind]
    cases unpackLoopSpec f (assignVals names) src p done size post st <;> rfl
  | s :: pre, p, done, size, st, st', r, hd, h => by
    rw [unpackLoopSpec] at h
    obtain ⟨s', t1, h1, h⟩ := M.bind_ok h
    obtain ⟨vs, t2, h2, h⟩ := M.bind_ok h
    obtain ⟨p', t3, h3, h⟩ := M.bind_ok h
    obtain ⟨z, t4, h4, h⟩ := M.bind_ok h
    obtain ⟨q, t5, h5, h⟩ := M.bind_ok h
    cases h
    have h6 : assignVals names p done vs = .ok p' ∧ t3 = t2 := by
      simp only [M.lift] at h3
      split at h3
      · rename_i h6; cases h3; exact ⟨h6, rfl⟩
      · cases h3
    obtain ⟨hl, rfl⟩ := assignVals_set h6.1
    simp only [List.length_drop] at hl
    have ih := unpackLoopSpec_append (post := post) (by omega) h5
    rw [List.cons_append, unpackLoopSpec, M.bind_eq h1, M.bind_eq h2, M.bind_eq h3, M.bind_eq h4]
    simp only [bind, M.bind, ih]
    have hz : (names.drop done).zip (vs ++ q.1) = (names.drop done).zip vs ++ (names.drop (done + vs.length)).zip q.1 := by
      rw [zip_split (by simp; omega), List.drop_drop]
    rw [hz, setAll_append]
    simp only [List.length_append, Nat.add_assoc]
    cases unpackLoopSpec f (assignVals names) src _ _ _ post st' with
    | ok a s => simp [pure, M.pure]
    | err e s => rfl

end Verif
