import Verif.Proofs.ReadExt2
/-
Without length-prefixed strings every reading method computes the same, including its exceptions, and
never reports more bytes than there are.
-/
namespace Verif
open Sem

variable {env : Env} {t : Bool}

theorem Out.okE_bind {a : α} {f : α → Out β} : (Out.ofE (.ok a) >>= f) = f a := rfl

/-- The same outcome, from another source. -/
def moveOut (src : PSrc) : Out Dec → Out Dec
  | .ok r => .ok (r.moved src)
  | .err e => .err e
  | .stuck => .stuck

theorem steadyList_mem {ss : List Ser} : Ser.steadyList t ss = true ↔ ∀ s ∈ ss, s.steady t = true := by
  induction ss with
  | nil => simp [Ser.steadyList]
  | cons s ss ih => simp [Ser.steadyList, ih]

theorem preU_steady {s s' : Ser} {p : PObj} {q : Option PObj} (ha : s.steady t = true) (h : preU s p = .ok (s', q)) :
    s'.steady t = true := by
  rcases preU_cases s p with ⟨id, rfl⟩ | ⟨_, h2⟩
  · obtain ⟨c, h1, h⟩ := Except.bind_ok' h
    cases h
    rfl
  · rw [h2] at h
    cases s with
    | cond ser c defs =>
      obtain ⟨r, h1, h⟩ := Except.bind_ok' h
      obtain ⟨s2, h2, h⟩ := Except.bind_ok' h
      cases h
      rcases condPick_cases h2 with rfl | rfl
      · simpa [Ser.steady] using ha
      · rfl
    | compound id ss =>
      simp only [Sem.pre, Except.ok.injEq, Prod.mk.injEq] at h
      obtain ⟨h1, h2⟩ := h
      split at h1
      · subst h1; simpa [Ser.steady] using ha
      · subst h1; exact ha
    | _ => cases h; first | exact ha | rfl

theorem unionPick_steady {keys : List Val} {opts : List Ser} {dflt s : Ser} {r : Val}
    (h : unionPick keys opts dflt r = .ok s) (ho : Ser.steadyList t opts = true) (hd : dflt.steady t = true) :
    s.steady t = true := by
  rcases unionPick_mem h with h | rfl
  · exact steadyList_mem.1 ho s h
  · exact hd

theorem Views.nil {src : PSrc} {b : Bytes} {k : Nat} (h : Views src b) (hk : k ≤ b.length) :
    Views (src.next k (src.ahead k)) (b.drop k) := by
  have := Views.next (rest := []) (by rwa [List.append_nil]) hk
  rwa [List.append_nil] at this

/-! ### Leaves -/

theorem structDec_same {s : StructSer} {src : PSrc} {b : Bytes} (hv : Views src b) :
    structDec env s src = (structDec env s (.buf b)).map (fun r => (r.1, src.ahead s.size)) := by
  by_cases hl : s.size ≤ b.length
  · rw [structDec_views hv hl, structDec_views (src := .buf b) rfl hl]
    cases s.applyActions _ <;> rfl
  · have hb : ∀ off, ¬ (off + s.size ≤ off + b.length) := fun off => by omega
    have short : ∀ (x : Bytes), x.length < s.size → structUnpack env.plat s.byteOrder s.toks x = .error .structError := by
      intro x hx
      unfold structUnpack
      rw [if_neg (by rw [show sizeToks s.byteOrder.isNative s.toks = s.size from rfl]; omega)]
    have e0 : structDec env s (.buf b) = .error .structError := by
      simp only [structDec, StructSer.unpack]
      rw [short _ (by rw [List.length_take]; omega)]
      rfl
    rw [e0]
    cases src with
    | buf x => cases hv; exact e0
    | «at» x off =>
      obtain ⟨h1, h2⟩ := hv
      simp only [structDec, StructSer.unpackFrom, structUnpackFrom]
      have hx : x.length - off = b.length := by rw [← List.length_drop, h2]
      rw [if_neg (by rw [show sizeToks s.byteOrder.isNative s.toks = s.size from rfl]; omega)]
      rfl
    | io data pos =>
      have hv : data.drop pos = b := hv
      simp only [structDec, StructSer.unpackRead, hv]
      rw [short _ (by rw [List.length_take]; omega)]
      rfl

theorem structDecOpt_same {s : Option StructSer} {src : PSrc} {b : Bytes} (hv : Views src b) :
    structDecOpt env s src = (structDecOpt env s (.buf b)).map (fun r => (r.1, src.ahead (hdrSize s))) := by
  cases s with
  | none => simp [structDecOpt, Except.map, hdrSize, ahead_zero]
  | some s => exact structDec_same hv

/-- From every source the same outcome as from a buffer with the bytes it shows, and within them. -/
def Same (t : Bool) (decN : Upd → Ser → Option PObj → PSrc → Out Dec) : Prop :=
  ∀ upd s q src b, s.steady t = true → Views src b → (t = true → src.isAt = false) →
    decN upd s q src = moveOut src (decN upd s q (.buf b)) ∧
    ∀ r, decN upd s q (.buf b) = .ok r → r.size ≤ b.length

section loops
variable {decN : Upd → Ser → Option PObj → PSrc → Out Dec} {src : PSrc} {b : Bytes}

theorem decLoop_same (hN : Same t decN) (hv : Views src b) (hat : t = true → src.isAt = false) {upd : Upd} :
    ∀ ss size pos, Ser.steadyList t ss = true → size ≤ b.length →
      decLoop (decN upd) src size (src.ahead size) ss = moveOut src (decLoop (decN upd) (.buf b) size pos ss) ∧
      ∀ r, decLoop (decN upd) (.buf b) size pos ss = .ok r → r.size ≤ b.length := by
  intro ss
  induction ss with
  | nil => intro size pos _ hl; exact ⟨rfl, fun r h => by cases h; exact hl⟩
  | cons s ss ih =>
    intro size pos ha hl
    simp only [Ser.steadyList, Bool.and_eq_true] at ha
    obtain ⟨e1, e2⟩ := hN upd s none (src.next size (src.ahead size)) (b.drop size) ha.1 (hv.nil hl)
      (fun ht => by rw [isAt_next]; exact hat ht)
    rw [decLoop, decLoop, e1]
    have e0 : (PSrc.buf b).next size pos = .buf (b.drop size) := rfl
    rw [e0]
    cases h : decN upd s none (.buf (b.drop size)) with
    | err e => exact ⟨rfl, fun r h => by cases h⟩
    | stuck => exact ⟨rfl, fun r h => by cases h⟩
    | ok a =>
      have hsz := e2 a h
      rw [List.length_drop] at hsz
      simp only [moveOut, Out.ok_bind, Dec.moved, ahead_next]
      split
      · exact ⟨rfl, fun r h => by cases h⟩
      · obtain ⟨f1, f2⟩ := ih (size + a.size) a.pos ha.2 (by omega)
        rw [f1]
        cases h' : decLoop (decN upd) (.buf b) (size + a.size) a.pos ss with
        | err e => exact ⟨rfl, fun r h => by cases h⟩
        | stuck => exact ⟨rfl, fun r h => by cases h⟩
        | ok r' => exact ⟨rfl, fun r h => by cases h; exact f2 r' h'⟩

theorem decLoopSpec_same (hN : Same t decN) (hv : Views src b) (hat : t = true → src.isAt = false) {upd upd' : Upd} :
    ∀ ss p done size pos, Ser.steadyList t ss = true → size ≤ b.length →
      decLoopSpec (decN upd) upd' src p done size (src.ahead size) ss =
        moveOut src (decLoopSpec (decN upd) upd' (.buf b) p done size pos ss) ∧
      ∀ r, decLoopSpec (decN upd) upd' (.buf b) p done size pos ss = .ok r → r.size ≤ b.length := by
  intro ss
  induction ss with
  | nil => intro p done size pos _ hl; exact ⟨rfl, fun r h => by cases h; exact hl⟩
  | cons s ss ih =>
    intro p done size pos ha hl
    simp only [Ser.steadyList, Bool.and_eq_true] at ha
    rw [decLoopSpec, decLoopSpec]
    cases h0 : preU s p with
    | error e => exact ⟨rfl, fun r h => by cases h⟩
    | ok x =>
      obtain ⟨s', q⟩ := x
      simp only [Out.okE_bind]
      obtain ⟨e1, e2⟩ := hN upd s' q (src.next size (src.ahead size)) (b.drop size) (preU_steady ha.1 h0) (hv.nil hl)
        (fun ht => by rw [isAt_next]; exact hat ht)
      rw [e1]
      have e0 : (PSrc.buf b).next size pos = .buf (b.drop size) := rfl
      rw [e0]
      cases h : decN upd s' q (.buf (b.drop size)) with
      | err e => exact ⟨rfl, fun r h => by cases h⟩
      | stuck => exact ⟨rfl, fun r h => by cases h⟩
      | ok a =>
        have hsz := e2 a h
        rw [List.length_drop] at hsz
        simp only [moveOut, Out.ok_bind, Dec.moved, ahead_next]
        cases h3 : upd' p done a.vals with
        | error e => exact ⟨rfl, fun r h => by cases h⟩
        | ok p' =>
          simp only [Out.okE_bind]
          split
          · exact ⟨rfl, fun r h => by cases h⟩
          · obtain ⟨f1, f2⟩ := ih p' (done + a.vals.length) (size + a.size) a.pos ha.2 (by omega)
            rw [f1]
            cases h' : decLoopSpec (decN upd) upd' (.buf b) p' (done + a.vals.length) (size + a.size) a.pos ss with
            | err e => exact ⟨rfl, fun r h => by cases h⟩
            | stuck => exact ⟨rfl, fun r h => by cases h⟩
            | ok r' => exact ⟨rfl, fun r h => by cases h; exact f2 r' h'⟩

theorem decItems_same (hN : Same t decN) (hv : Views src b) (hat : t = true → src.isAt = false) {upd : Upd}
    {item : Ser} {q : Option PObj} (ha : item.steady t = true) :
    ∀ n size pos, size ≤ b.length →
      decItems (decN upd) item q src size (src.ahead size) n = moveOut src (decItems (decN upd) item q (.buf b) size pos n) ∧
      ∀ r, decItems (decN upd) item q (.buf b) size pos n = .ok r → r.size ≤ b.length := by
  intro n
  induction n with
  | zero => intro size pos hl; exact ⟨rfl, fun r h => by cases h; exact hl⟩
  | succ n ih =>
    intro size pos hl
    obtain ⟨e1, e2⟩ := hN upd item q (src.next size (src.ahead size)) (b.drop size) ha (hv.nil hl)
      (fun ht => by rw [isAt_next]; exact hat ht)
    rw [decItems, decItems, e1]
    have e0 : (PSrc.buf b).next size pos = .buf (b.drop size) := rfl
    rw [e0]
    cases h : decN upd item q (.buf (b.drop size)) with
    | err e => exact ⟨rfl, fun r h => by cases h⟩
    | stuck => exact ⟨rfl, fun r h => by cases h⟩
    | ok a =>
      have hsz := e2 a h
      rw [List.length_drop] at hsz
      simp only [moveOut, Out.ok_bind, Dec.moved, ahead_next]
      split
      · exact ⟨rfl, fun r h => by cases h⟩
      · split
        · exact ⟨rfl, fun r h => by cases h⟩
        · obtain ⟨f1, f2⟩ := ih (size + a.size) a.pos (by omega)
          rw [f1]
          cases h' : decItems (decN upd) item q (.buf b) (size + a.size) a.pos n with
          | err e => exact ⟨rfl, fun r h => by cases h⟩
          | stuck => exact ⟨rfl, fun r h => by cases h⟩
          | ok r' => exact ⟨rfl, fun r h => by cases h; exact f2 r' h'⟩

theorem decUnion_same (hN : Same t decN) (hv : Views src b) (hat : t = true → src.isAt = false) {upd : Upd}
    {keys : List Val} {opts : List Ser} {dflt : Ser} {p : PObj} {v : Val}
    (ho : Ser.steadyList t opts = true) (hd : dflt.steady t = true) :
    decUnion (decN upd) keys opts dflt p v src = moveOut src (decUnion (decN upd) keys opts dflt p v (.buf b)) ∧
    ∀ r, decUnion (decN upd) keys opts dflt p v (.buf b) = .ok r → r.size ≤ b.length := by
  unfold decUnion
  cases h1 : unionPick keys opts dflt v with
  | error e => exact ⟨rfl, fun r h => by cases h⟩
  | ok s =>
    simp only [Out.okE_bind]
    cases h2 : preU s p with
    | error e => exact ⟨rfl, fun r h => by cases h⟩
    | ok x =>
      obtain ⟨s', q⟩ := x
      simp only [Out.okE_bind]
      split
      · exact ⟨rfl, fun r h => by cases h⟩
      · obtain ⟨e1, e2⟩ := hN upd s' q src b (preU_steady (unionPick_steady h1 ho hd) h2) hv hat
        rw [e1]
        cases h : decN upd s' q (.buf b) with
        | err e => exact ⟨rfl, fun r h => by cases h⟩
        | stuck => exact ⟨rfl, fun r h => by cases h⟩
        | ok a =>
          simp only [moveOut, Out.ok_bind]
          split
          · exact ⟨rfl, fun r h => by cases h⟩
          · exact ⟨rfl, fun r h' => by cases h'; exact e2 a h⟩

theorem decObj_same (he : env.steady t) (hN : Same t decN) (hv : Views src b) (hat : t = true → src.isAt = false)
    (cls : ClassId) :
    decObj env decN cls src = (match decObj env decN cls (.buf b) with
      | .ok (v, r, ser) => .ok (v, r.moved src, ser)
      | .err e => .err e
      | .stuck => .stuck) ∧
    ∀ v r ser, decObj env decN cls (.buf b) = .ok (v, r, ser) → r.size ≤ b.length := by
  unfold decObj
  cases hci : env.classes cls with
  | none => exact ⟨rfl, fun _ _ _ h => by cases h⟩
  | some ci =>
    simp only
    cases h1 : preU ci.serializer ⟨cls, true, []⟩ with
    | error e => exact ⟨rfl, fun _ _ _ h => by cases h⟩
    | ok x =>
      obtain ⟨s, q⟩ := x
      simp only [Out.okE_bind]
      obtain ⟨e1, e2⟩ := hN (assignVals ci.attrs) s q src b (preU_steady (he cls ci hci) h1) hv hat
      rw [e1]
      cases h : decN (assignVals ci.attrs) s q (.buf b) with
      | err e => exact ⟨rfl, fun _ _ _ h => by cases h⟩
      | stuck => exact ⟨rfl, fun _ _ _ h => by cases h⟩
      | ok a =>
        simp only [moveOut, Out.ok_bind]
        have : (a.moved src).vals = a.vals := rfl
        rw [this]
        cases h3 : construct cls ci a.vals with
        | error e => exact ⟨rfl, fun _ _ _ h => by cases h⟩
        | ok v => exact ⟨rfl, fun _ _ _ h' => by cases h'; exact e2 a h⟩

end loops

theorem dec_same (he : env.steady t) : ∀ n, Same t (dec env n) := by
  intro n
  induction n with
  | zero => intro upd s q src b _ _ _; exact ⟨rfl, fun r h => by cases h⟩
  | succ n ih =>
    intro upd s q src b ha hv hat
    cases s with
    | null => simp only [dec]; exact ⟨by simp [moveOut, Dec.moved, ahead_zero], fun r h => by cases h; simp⟩
    | skip vals => simp only [dec]; exact ⟨by simp [moveOut, Dec.moved, ahead_zero], fun r h => by cases h; simp⟩
    | dynChar id st => cases ha
    | net id => cases ha
    | cond => exact ⟨rfl, fun r h => by cases h⟩
    | selfT => exact ⟨rfl, fun r h => by cases h⟩
    | struct st =>
      simp only [dec]
      rw [structDec_same hv]
      cases h : structDec env st (.buf b) with
      | error e => exact ⟨rfl, fun r h => by cases h⟩
      | ok x => exact ⟨rfl, fun r h' => by cases h'; exact (structDec_buf h).1⟩
    | staticArr count item ser =>
      simp only [dec]
      rw [structDecOpt_same hv]
      cases h : structDecOpt env ser (.buf b) with
      | error e => exact ⟨rfl, fun r h => by cases h⟩
      | ok x => exact ⟨rfl, fun r h' => by cases h'; exact (structDecOpt_ext (src := .buf (b ++ [])) (rest := []) h rfl).2⟩
    | dynArr id cnt item =>
      simp only [dec]
      rw [structDec_same hv]
      cases h : structDec env cnt (.buf b) with
      | error e => exact ⟨rfl, fun r h => by cases h⟩
      | ok x =>
        obtain ⟨hv', pos⟩ := x
        have hl := (structDec_buf h).1
        simp only [Except.map, bind, Except.bind]
        split
        · cases h2 : needInt _ with
          | error e => exact ⟨rfl, fun r h => by cases h⟩
          | ok c =>
            simp only
            cases h3 : item.mul c with
            | error e => exact ⟨rfl, fun r h => by cases h⟩
            | ok s =>
              simp only
              rw [structDecOpt_same (hv.nil hl)]
              have e0 : (PSrc.buf b).next cnt.size pos = .buf (b.drop cnt.size) := rfl
              rw [e0]
              cases h4 : structDecOpt env s (.buf (b.drop cnt.size)) with
              | error e => exact ⟨rfl, fun r h => by cases h⟩
              | ok x =>
                have hl2 := (structDecOpt_ext (src := .buf (b.drop cnt.size ++ [])) (rest := []) h4 rfl).2
                rw [List.length_drop] at hl2
                refine ⟨by simp [Except.map, Out.ofE, moveOut, Dec.moved, ahead_next, hdrSize], fun r h' => ?_⟩
                cases h'
                simp only; omega
        · exact ⟨rfl, fun r h => by cases h⟩
    | consuming id =>
      simp only [dec]
      rw [consuming_ext hv]
      exact ⟨rfl, fun r h => by cases h; exact Nat.le_refl _⟩
    | terminated id term =>
      simp only [Ser.steady] at ha
      simp only [dec]
      have hb : ∀ r, Out.ofE (terminatedDec term (.buf b)) = .ok r → r.size ≤ b.length := by
        intro r h
        have h := ofE_ok h
        simp only [terminatedDec] at h
        split at h
        · cases h
        · rename_i k hk
          cases h
          exact findTerm_lt hk
      refine ⟨?_, hb⟩
      cases h : terminatedDec term (.buf b) with
      | ok r => rw [terminated_ext (rest := []) h (by rwa [List.append_nil]) (hat ha)]; rfl
      | error e =>
        simp only [terminatedDec] at h
        split at h
        · rename_i hk
          cases h
          cases src with
          | buf x => cases hv; simp [terminatedDec, hk, Out.ofE, moveOut]
          | «at» => exact absurd (hat ha) (by simp [PSrc.isAt])
          | io data pos =>
            have hv : data.drop pos = b := hv
            simp only [terminatedDec, hv]
            rw [termReadLoop_eq term _ _ _ _ (Nat.lt_succ_self _), hk]
            rfl
        · cases h
    | unicode inner en de =>
      simp only [Ser.steady] at ha
      rw [dec, dec]
      obtain ⟨e1, e2⟩ := ih noUpd inner none src b ha hv hat
      rw [e1]
      cases h : dec env n noUpd inner none (.buf b) with
      | err e => exact ⟨rfl, fun r h => by cases h⟩
      | stuck => exact ⟨rfl, fun r h => by cases h⟩
      | ok a =>
        simp only [moveOut, Out.ok_bind]
        have : (a.moved src).vals = a.vals := rfl
        rw [this]
        cases h2 : unicodeDecode de a.vals with
        | error e => exact ⟨rfl, fun r h => by cases h⟩
        | ok vs => exact ⟨rfl, fun r h' => by cases h'; exact e2 a h⟩
    | array id hdr item sl =>
      simp only [Ser.steady] at ha
      simp only [dec]
      rw [structDecOpt_same hv]
      cases h1 : structDecOpt env hdr (.buf b) with
      | error e => exact ⟨rfl, fun r h => by cases h⟩
      | ok x =>
        obtain ⟨hv', pos⟩ := x
        have hl := (structDecOpt_ext (src := .buf (b ++ [])) (rest := []) h1 rfl).2
        simp only [Except.map, Out.okE_bind]
        cases h2 : headerUnpackValues hdr sl hv' with
        | error e => exact ⟨rfl, fun r h => by cases h⟩
        | ok y =>
          obtain ⟨c, d⟩ := y
          simp only [Out.okE_bind]
          cases q with
          | none => exact ⟨rfl, fun r h => by cases h⟩
          | some p =>
            simp only
            cases h3 : preU item p with
            | error e => exact ⟨rfl, fun r h => by cases h⟩
            | ok z =>
              obtain ⟨item', qi⟩ := z
              simp only [Out.okE_bind]
              obtain ⟨e1, e2⟩ := decItems_same (upd := noUpd) (q := qi) ih hv hat (preU_steady ha h3) c.toNat (hdrSize hdr) pos hl
              rw [e1]
              cases h4 : decItems (dec env n noUpd) item' qi (.buf b) (hdrSize hdr) pos c.toNat with
              | err e => exact ⟨rfl, fun r h => by cases h⟩
              | stuck => exact ⟨rfl, fun r h => by cases h⟩
              | ok a =>
                simp only [moveOut, Out.ok_bind]
                have : (a.moved src).size = a.size := rfl
                rw [this]
                cases h5 : checkDataSize d (a.size - hdrSize hdr) with
                | error e => exact ⟨rfl, fun r h => by cases h⟩
                | ok u => exact ⟨rfl, fun r h' => by cases h'; exact e2 a h4⟩
    | tuple id inner =>
      simp only [Ser.steady] at ha
      cases q with
      | none => exact ⟨rfl, fun r h => by cases h⟩
      | some p =>
        simp only [dec]
        cases h1 : preU inner p with
        | error e => exact ⟨rfl, fun r h => by cases h⟩
        | ok x =>
          obtain ⟨s', q'⟩ := x
          simp only [Out.okE_bind]
          split
          · exact ⟨rfl, fun r h => by cases h⟩
          · obtain ⟨e1, e2⟩ := ih noUpd s' q' src b (preU_steady ha h1) hv hat
            rw [e1]
            cases h : dec env n noUpd s' q' (.buf b) with
            | err e => exact ⟨rfl, fun r h => by cases h⟩
            | stuck => exact ⟨rfl, fun r h => by cases h⟩
            | ok a => exact ⟨rfl, fun r h' => by cases h'; exact e2 a h⟩
    | lookback id decider keys opts dflt =>
      simp only [Ser.steady, Bool.and_eq_true] at ha
      cases q with
      | none => exact ⟨rfl, fun r h => by cases h⟩
      | some p =>
        simp only [dec]
        cases h1 : decider p with
        | error e => exact ⟨rfl, fun r h => by cases h⟩
        | ok v =>
          simp only [Out.okE_bind]
          exact decUnion_same ih hv hat ha.1 ha.2
    | lookahead id ra decider keys opts dflt =>
      simp only [Ser.steady, Bool.and_eq_true] at ha
      rw [dec, dec]
      obtain ⟨e1, e2⟩ := ih noUpd ra none src b ha.1.1.2 hv hat
      rw [e1]
      cases h : dec env n noUpd ra none (.buf b) with
      | err e => exact ⟨rfl, fun r h => by cases h⟩
      | stuck => exact ⟨rfl, fun r h => by cases h⟩
      | ok a =>
        simp only [moveOut, Out.ok_bind]
        have hvl : (a.moved src).vals = a.vals := rfl
        rw [hvl]
        cases h2 : first a.vals with
        | error e => exact ⟨rfl, fun r h => by cases h⟩
        | ok v =>
          simp only [Out.okE_bind]
          have hns : ∀ src : PSrc, ¬ (src.isIo && !ra.sized) = true := fun src => by simp [ha.1.1.1]
          simp only [if_neg (hns _)]
          have htc : (a.moved src).touched = a.touched := rfl
          rw [htc]
          split
          · exact ⟨rfl, fun r h => by cases h⟩
          · cases q with
            | none => exact ⟨rfl, fun r h => by cases h⟩
            | some p =>
              simp only [Dec.moved, back_self]
              obtain ⟨f1, f2⟩ := decUnion_same (upd := noUpd) (keys := keys) (p := p) (v := v) ih hv hat ha.1.2 ha.2
              have e0 : (PSrc.buf b).back a.pos a.size = .buf b := rfl
              rw [f1, e0]
              cases h3 : decUnion (dec env n noUpd) keys opts dflt p v (.buf b) with
              | err e => exact ⟨rfl, fun r h => by cases h⟩
              | stuck => exact ⟨rfl, fun r h => by cases h⟩
              | ok a' => exact ⟨rfl, fun r h' => by cases h'; exact f2 a' h3⟩
    | structured id cls =>
      rw [dec, dec]
      obtain ⟨e1, e2⟩ := decObj_same he ih hv hat cls
      rw [e1]
      cases h : decObj env (dec env n) cls (.buf b) with
      | err e => exact ⟨rfl, fun r h => by cases h⟩
      | stuck => exact ⟨rfl, fun r h => by cases h⟩
      | ok x =>
        obtain ⟨v, a, ser⟩ := x
        simp only [Out.ok_bind]
        split
        · exact ⟨rfl, fun r h => by cases h⟩
        · exact ⟨rfl, fun r h' => by cases h'; exact e2 v a ser h⟩
    | compound id ss =>
      simp only [Ser.steady] at ha
      rw [dec, dec, ← ahead_zero]
      exact decLoop_same ih hv hat ss 0 _ ha (Nat.zero_le _)
    | specialized id p ss =>
      simp only [Ser.steady] at ha
      rw [dec, dec, ← ahead_zero]
      exact decLoopSpec_same ih hv hat ss p 0 0 _ ha (Nat.zero_le _)

/-- Serializers without length-prefixed strings never report more bytes than there are. -/
theorem dec_bounded (he : env.steady true) (n : Nat) (upd : Upd) (s : Ser) (q : Option PObj) (b : Bytes) (r : Dec)
    (hs : s.steady true = true) (h : dec env n upd s q (.buf b) = .ok r) : r.size ≤ b.length :=
  (dec_same he n upd s q (.buf b) b hs rfl (fun _ => rfl)).2 r h

end Verif
