import Verif.InPlace
import Verif.Proofs.RefineInto
/-
Helper lemmas about the in-place loops of `obj.unpack*`.
-/
namespace Verif

theorem setPairs_append (as : List (Name × Val)) (names : List Name) (vs ws : List Val) (h : vs.length ≤ names.length) :
    setPairs (setPairs as names vs) (names.drop vs.length) ws = setPairs as names (vs ++ ws) := by
  have e : names.zip (vs ++ ws) = names.zip vs ++ (names.drop vs.length).zip ws := by
    conv => lhs; rw [← List.take_append_drop vs.length names]
    rw [List.zip_append (by simp [h])]
    congr 1
    rw [show names.zip vs = (names.take vs.length ++ names.drop vs.length).zip (vs ++ []) by simp,
      List.zip_append (by simp [h])]
    simp
  unfold setPairs
  rw [e, List.foldl_append]

theorem setPairs_nil (as : List (Name × Val)) (names : List Name) : setPairs as names [] = as := by
  simp [setPairs]

theorem setPairs_take (as : List (Name × Val)) (names : List Name) (vs : List Val) :
    setPairs as names (vs.take names.length) = setPairs as names vs := by
  unfold setPairs
  congr 1
  induction names generalizing vs with
  | nil => simp
  | cons a names ih =>
    cases vs with
    | nil => rfl
    | cons v vs => simp [ih]

/-- What the end of the loop does with the attributes that are left. -/
def endInPlace (id : SerId) (left total : Nat) : M Unit := do
  setSize id total
  if left = 0 then pure () else M.throw .valueError

/-- Whatever happens, some values were assigned to the first attributes. -/
theorem inPlaceLoop_prefix {unpackN : Ser → Src → M (List Val)} {pre : List (Name × Val) → Ser → M Ser} {id : SerId} {src : Src} :
    ∀ (ss : List Ser) (as : List (Name × Val)) (names : List Name) (size : Nat) (st : St),
    ∃ vs, vs.length ≤ names.length ∧ (inPlaceLoop unpackN pre id src as names size ss st).1 = setPairs as names vs
  | [], as, names, size, st => ⟨[], by simp, (setPairs_nil as names).symm⟩
  | s :: ss, as, names, size, st => by
    simp only [inPlaceLoop]
    cases h1 : pre as s st with
    | err e st1 => exact ⟨[], by simp, (setPairs_nil as names).symm⟩
    | ok s' st1 =>
      simp only
      cases h2 : unpackN s' (src.next size) st1 with
      | err e st2 => exact ⟨[], by simp, (setPairs_nil as names).symm⟩
      | ok vs st2 =>
        simp only
        by_cases hc : names.length < vs.length
        · simp only [if_pos hc]
          exact ⟨vs.take names.length, by simp; omega, (setPairs_take as names vs).symm⟩
        · simp only [if_neg hc]
          cases h3 : s'.readSize st2 with
          | err e st3 => exact ⟨vs, by omega, rfl⟩
          | ok sz st3 =>
            simp only
            obtain ⟨ws, hw, e⟩ := inPlaceLoop_prefix (unpackN := unpackN) (pre := pre) (id := id) (src := src) ss
              (setPairs as names vs) (names.drop vs.length) (size + sz) st3
            refine ⟨vs ++ ws, ?_, ?_⟩
            · simp only [List.length_drop] at hw
              simp only [List.length_append]
              omega
            · rw [e, setPairs_append as names vs ws (by omega)]

/-- A run of the generator that gives all its values. -/
theorem inPlaceLoop_spec_ok {unpackN : Ser → Src → M (List Val)} {id : SerId} {src : Src} {A : List Name} :
    ∀ (ss : List Ser) (p : PObj) (done size : Nat) (st st' : St) (vs : List Val) (total : Nat),
    unpackLoopSpec unpackN (assignVals A) src p done size ss st = .ok (vs, total) st' →
    vs.length ≤ (A.drop done).length ∧
    inPlaceLoop unpackN (fun as s => s.preunpack { p with attrs := as }) id src p.attrs (A.drop done) size ss st =
      (setPairs p.attrs (A.drop done) vs, endInPlace id ((A.drop done).length - vs.length) total st')
  | [], p, done, size, st, st', vs, total, h => by
    cases h
    exact ⟨by simp, by simp [inPlaceLoop, setPairs_nil, endInPlace]⟩
  | s :: ss, p, done, size, st, st', vs, total, h => by
    simp only [unpackLoopSpec] at h
    obtain ⟨s', st1, h1, h⟩ := M.bind_ok h
    obtain ⟨ws, st2, h2, h⟩ := M.bind_ok h
    obtain ⟨p', st3, h3, h⟩ := M.bind_ok h
    obtain ⟨sz, st4, h4, h⟩ := M.bind_ok h
    obtain ⟨⟨rest, t⟩, st5, h5, h⟩ := M.bind_ok h
    cases h
    have h3' : ¬ (A.drop done).length < ws.length ∧ p' = { p with attrs := setPairs p.attrs (A.drop done) ws } ∧ st3 = st2 := by
      simp only [assignVals, M.lift] at h3
      by_cases hc : (A.drop done).length < ws.length
      · simp only [if_pos hc] at h3; cases h3
      · simp only [if_neg hc] at h3
        cases h3
        exact ⟨hc, rfl, rfl⟩
    obtain ⟨hl, rfl, rfl⟩ := h3'
    obtain ⟨g1, g2⟩ := inPlaceLoop_spec_ok (unpackN := unpackN) (id := id) (src := src) (A := A) ss _ _ _ _ _ _ _ h5
    have e1 : A.drop (done + ws.length) = (A.drop done).drop ws.length := by rw [List.drop_drop]
    rw [e1] at g1 g2
    simp only [List.length_drop] at g1 hl ⊢
    refine ⟨by simp only [List.length_append]; omega, ?_⟩
    simp only [inPlaceLoop, h1, h2, List.length_drop, if_neg hl, h4]
    rw [g2, setPairs_append _ _ _ _ (by simp; omega)]
    simp only [List.length_drop, List.length_append]
    rw [show A.length - done - ws.length - rest.length = A.length - done - (ws.length + rest.length) by omega]

/-- A run of the generator that raises. -/
theorem inPlaceLoop_spec_err {unpackN : Ser → Src → M (List Val)} {id : SerId} {src : Src} {A : List Name} :
    ∀ (ss : List Ser) (p : PObj) (done size : Nat) (st st' : St) (e : Err),
    unpackLoopSpec unpackN (assignVals A) src p done size ss st = .err e st' →
    (inPlaceLoop unpackN (fun as s => s.preunpack { p with attrs := as }) id src p.attrs (A.drop done) size ss st).2 = .err e st'
  | [], p, done, size, st, st', e, h => by cases h
  | s :: ss, p, done, size, st, st', e, h => by
    simp only [unpackLoopSpec] at h
    simp only [inPlaceLoop]
    change M.bind _ _ st = _ at h
    unfold M.bind at h
    cases h1 : s.preunpack p st with
    | err e1 st1 => simp only [h1] at h; cases h; rfl
    | ok s' st1 =>
      simp only [h1] at h ⊢
      change M.bind _ _ st1 = _ at h
      unfold M.bind at h
      cases h2 : unpackN s' (src.next size) st1 with
      | err e1 st2 => simp only [h2] at h; cases h; rfl
      | ok ws st2 =>
        simp only [h2] at h ⊢
        change M.bind _ _ st2 = _ at h
        unfold M.bind at h
        by_cases hc : (A.drop done).length < ws.length
        · simp only [assignVals, M.lift, if_pos hc] at h
          cases h
          simp only [if_pos hc]
        · have h3 : assignVals A p done ws = .ok { p with attrs := setPairs p.attrs (A.drop done) ws } := by
            simp only [assignVals, if_neg hc, setPairs]
          simp only [h3, M.lift] at h
          simp only [if_neg hc]
          change M.bind _ _ st2 = _ at h
          unfold M.bind at h
          cases h4 : s'.readSize st2 with
          | err e1 st4 => simp only [h4] at h; cases h; rfl
          | ok sz st4 =>
            simp only [h4] at h ⊢
            change M.bind _ _ st4 = _ at h
            unfold M.bind at h
            have e1 : A.drop (done + ws.length) = (A.drop done).drop ws.length := by rw [List.drop_drop]
            cases h5 : unpackLoopSpec unpackN (assignVals A) src { p with attrs := setPairs p.attrs (A.drop done) ws }
                (done + ws.length) (size + sz) ss st4 with
            | ok r st5 =>
              rw [h5] at h
              cases h
            | err e2 st5 =>
              rw [h5] at h
              cases h
              have := inPlaceLoop_spec_err (unpackN := unpackN) (id := id) (src := src) (A := A) ss _ _ _ _ _ _ h5
              rw [e1] at this
              exact this

/-- The same for compounds that do not need the object. -/
theorem inPlaceLoop_plain_ok {unpackN : Ser → Src → M (List Val)} {id : SerId} {src : Src} :
    ∀ (ss : List Ser) (as : List (Name × Val)) (names : List Name) (size : Nat) (st st' : St) (vs : List Val) (total : Nat),
    unpackLoop unpackN src size ss st = .ok (vs, total) st' → vs.length ≤ names.length →
    inPlaceLoop unpackN (fun _ s st => .ok s st) id src as names size ss st =
      (setPairs as names vs, endInPlace id (names.length - vs.length) total st')
  | [], as, names, size, st, st', vs, total, h, _ => by
    cases h
    simp [inPlaceLoop, setPairs_nil, endInPlace]
  | s :: ss, as, names, size, st, st', vs, total, h, hl => by
    simp only [unpackLoop] at h
    obtain ⟨ws, st2, h2, h⟩ := M.bind_ok h
    obtain ⟨sz, st4, h4, h⟩ := M.bind_ok h
    obtain ⟨⟨rest, t⟩, st5, h5, h⟩ := M.bind_ok h
    cases h
    simp only [List.length_append] at hl
    have g2 := inPlaceLoop_plain_ok (unpackN := unpackN) (id := id) (src := src) ss (setPairs as names ws) (names.drop ws.length)
      _ _ _ _ _ h5 (by simp only [List.length_drop]; omega)
    have hc : ¬ names.length < ws.length := by omega
    simp only [inPlaceLoop]
    simp only [h2, if_neg hc, h4]
    rw [g2, setPairs_append _ _ _ _ (by omega)]
    simp only [List.length_drop, List.length_append]
    rw [show names.length - ws.length - rest.length = names.length - (ws.length + rest.length) by omega]

theorem inPlaceLoop_plain_long {unpackN : Ser → Src → M (List Val)} {id : SerId} {src : Src} :
    ∀ (ss : List Ser) (as : List (Name × Val)) (names : List Name) (size : Nat) (st st' : St) (vs : List Val) (total : Nat),
    unpackLoop unpackN src size ss st = .ok (vs, total) st' → names.length < vs.length →
    ∃ e st'', (inPlaceLoop unpackN (fun _ s st => .ok s st) id src as names size ss st).2 = .err e st''
  | [], as, names, size, st, st', vs, total, h, hl => by
    cases h
    simp at hl
  | s :: ss, as, names, size, st, st', vs, total, h, hl => by
    simp only [unpackLoop] at h
    obtain ⟨ws, st2, h2, h⟩ := M.bind_ok h
    obtain ⟨sz, st4, h4, h⟩ := M.bind_ok h
    obtain ⟨⟨rest, t⟩, st5, h5, h⟩ := M.bind_ok h
    cases h
    simp only [List.length_append] at hl
    simp only [inPlaceLoop]
    simp only [h2]
    by_cases hc : names.length < ws.length
    · simp only [if_pos hc]
      exact ⟨_, _, rfl⟩
    · simp only [if_neg hc, h4]
      exact inPlaceLoop_plain_long (unpackN := unpackN) (id := id) (src := src) ss (setPairs as names ws) (names.drop ws.length)
        _ _ _ _ _ h5 (by simp only [List.length_drop]; omega)

theorem inPlaceLoop_plain_err {unpackN : Ser → Src → M (List Val)} {id : SerId} {src : Src} :
    ∀ (ss : List Ser) (as : List (Name × Val)) (names : List Name) (size : Nat) (st st' : St) (e : Err),
    unpackLoop unpackN src size ss st = .err e st' →
    ∃ e st'', (inPlaceLoop unpackN (fun _ s st => .ok s st) id src as names size ss st).2 = .err e st''
  | [], as, names, size, st, st', e, h => by cases h
  | s :: ss, as, names, size, st, st', e, h => by
    simp only [unpackLoop] at h
    simp only [inPlaceLoop]
    change M.bind _ _ st = _ at h
    unfold M.bind at h
    cases h2 : unpackN s (src.next size) st with
    | err e1 st2 => exact ⟨_, _, rfl⟩
    | ok ws st2 =>
      simp only [h2] at h ⊢
      by_cases hc : names.length < ws.length
      · simp only [if_pos hc]
        exact ⟨_, _, rfl⟩
      · simp only [if_neg hc]
        change M.bind _ _ st2 = _ at h
        unfold M.bind at h
        cases h4 : s.readSize st2 with
        | err e1 st4 => exact ⟨_, _, rfl⟩
        | ok sz st4 =>
          simp only [h4] at h ⊢
          change M.bind _ _ st4 = _ at h
          unfold M.bind at h
          cases h5 : unpackLoop unpackN src (size + sz) ss st4 with
          | ok r st5 => simp only [h5] at h; cases h
          | err e2 st5 =>
            exact inPlaceLoop_plain_err (unpackN := unpackN) (id := id) (src := src) ss _ _ _ _ _ _ h5

end Verif
