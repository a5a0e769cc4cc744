import Verif.Proofs.ReadSame
/-
Without lookahead only the bytes that are reported as consumed are looked at.
-/
namespace Verif
open Sem

variable {env : Env}

theorem noPeekList_mem {ss : List Ser} : Ser.noPeekList ss = true ↔ ∀ s ∈ ss, s.noPeek = true := by
  induction ss with
  | nil => simp [Ser.noPeekList]
  | cons s ss ih => simp [Ser.noPeekList, ih]

theorem preU_noPeek {s s' : Ser} {p : PObj} {q : Option PObj} (ha : s.noPeek = true) (h : preU s p = .ok (s', q)) :
    s'.noPeek = true := by
  rcases preU_cases s p with ⟨id, rfl⟩ | ⟨_, h2⟩
  · obtain ⟨c, h1, h⟩ := Except.bind_ok' h
    cases h
    rfl
  · rw [h2] at h
    cases s with
    | cond ser c defs =>
      obtain ⟨r, h1, h⟩ := Except.bind_ok' h
      obtain ⟨s2, h2, h⟩ := Except.bind_ok' h
      cases h
      rcases condPick_cases h2 with rfl | rfl
      · simpa [Ser.noPeek] using ha
      · rfl
    | compound id ss =>
      simp only [Sem.pre, Except.ok.injEq, Prod.mk.injEq] at h
      obtain ⟨h1, h2⟩ := h
      split at h1
      · subst h1; simpa [Ser.noPeek] using ha
      · subst h1; exact ha
    | _ => cases h; first | exact ha | rfl

theorem unionPick_noPeek {keys : List Val} {opts : List Ser} {dflt s : Ser} {r : Val}
    (h : unionPick keys opts dflt r = .ok s) (ho : Ser.noPeekList opts = true) (hd : dflt.noPeek = true) :
    s.noPeek = true := by
  rcases unionPick_mem h with h | rfl
  · exact noPeekList_mem.1 ho s h
  · exact hd

theorem structDec_trim {s : StructSer} {b rest : Bytes} (hl : s.size ≤ b.length) :
    structDec env s (.buf (b ++ rest)) = structDec env s (.buf b) := by
  rw [structDec_views (src := .buf (b ++ rest)) rfl (by simp; omega), structDec_views (src := .buf b) rfl hl,
    List.take_append_of_le_length hl]
  rfl

theorem structDecOpt_trim {s : Option StructSer} {b rest : Bytes} (hl : hdrSize s ≤ b.length) :
    structDecOpt env s (.buf (b ++ rest)) = structDecOpt env s (.buf b) := by
  cases s with
  | none => rfl
  | some s => exact structDec_trim hl

def Trims (decN : Upd → Ser → Option PObj → PSrc → Out Dec) : Prop :=
  ∀ upd s q b rest r, s.noPeek = true → decN upd s q (.buf (b ++ rest)) = .ok r → r.size ≤ b.length →
    decN upd s q (.buf b) = .ok r

section loops
variable {decN : Upd → Ser → Option PObj → PSrc → Out Dec} {b rest : Bytes}

theorem next_append {size pos : Nat} (h : size ≤ b.length) :
    (PSrc.buf (b ++ rest)).next size pos = .buf (b.drop size ++ rest) := by
  simp [PSrc.next, List.drop_append_of_le_length h]

theorem decLoop_trim (hN : Trims decN) {upd : Upd} :
    ∀ ss size pos r, Ser.noPeekList ss = true → decLoop (decN upd) (.buf (b ++ rest)) size pos ss = .ok r → r.size ≤ b.length →
      decLoop (decN upd) (.buf b) size pos ss = .ok r := by
  intro ss
  induction ss with
  | nil => intro size pos r _ h hl; exact h
  | cons s ss ih =>
    intro size pos r ha h hl
    simp only [Ser.noPeekList, Bool.and_eq_true] at ha
    rw [decLoop] at h ⊢
    obtain ⟨a, h1, h⟩ := Out.bind_ok' h
    split at h
    · cases h
    · rename_i hs
      obtain ⟨r', h2, h⟩ := Out.bind_ok' h
      cases h
      have hsz := decLoop_size _ _ _ _ h2
      simp only at hl
      rw [next_append (by omega)] at h1
      have e1 := hN upd s none _ _ a ha.1 h1 (by rw [List.length_drop]; omega)
      have e0 : (PSrc.buf b).next size pos = .buf (b.drop size) := rfl
      rw [e0, e1, Out.ok_bind, if_neg hs, ih _ _ _ ha.2 h2 hl]
      rfl

theorem decLoopSpec_trim (hN : Trims decN) {upd upd' : Upd} :
    ∀ ss p done size pos r, Ser.noPeekList ss = true →
      decLoopSpec (decN upd) upd' (.buf (b ++ rest)) p done size pos ss = .ok r → r.size ≤ b.length →
      decLoopSpec (decN upd) upd' (.buf b) p done size pos ss = .ok r := by
  intro ss
  induction ss with
  | nil => intro p done size pos r _ h hl; exact h
  | cons s ss ih =>
    intro p done size pos r ha h hl
    simp only [Ser.noPeekList, Bool.and_eq_true] at ha
    rw [decLoopSpec] at h ⊢
    obtain ⟨⟨s', q⟩, h0, h⟩ := Out.ofE_ok' h
    obtain ⟨a, h1, h⟩ := Out.bind_ok' h
    obtain ⟨p', h3, h⟩ := Out.ofE_ok' h
    rw [Out.ofE_ok_bind h0]
    simp only
    split at h
    · cases h
    · rename_i hs
      obtain ⟨r', h2, h⟩ := Out.bind_ok' h
      cases h
      have hsz := decLoopSpec_size _ _ _ _ _ _ h2
      simp only at hl
      rw [next_append (by omega)] at h1
      have e1 := hN upd s' q _ _ a (preU_noPeek ha.1 h0) h1 (by rw [List.length_drop]; omega)
      have e0 : (PSrc.buf b).next size pos = .buf (b.drop size) := rfl
      rw [e0, e1, Out.ok_bind, Out.ofE_ok_bind h3, if_neg hs, ih _ _ _ _ _ ha.2 h2 hl]
      rfl

theorem decItems_trim (hN : Trims decN) {upd : Upd} {item : Ser} {q : Option PObj} (ha : item.noPeek = true) :
    ∀ n size pos r, decItems (decN upd) item q (.buf (b ++ rest)) size pos n = .ok r → r.size ≤ b.length →
      decItems (decN upd) item q (.buf b) size pos n = .ok r := by
  intro n
  induction n with
  | zero => intro size pos r h hl; exact h
  | succ n ih =>
    intro size pos r h hl
    rw [decItems] at h ⊢
    obtain ⟨a, h1, h⟩ := Out.bind_ok' h
    split at h
    · cases h
    · rename_i hs
      split at h
      · cases h
      · rename_i hk
        obtain ⟨r', h2, h⟩ := Out.bind_ok' h
        cases h
        have hsz := decItems_size _ _ _ _ h2
        simp only at hl
        rw [next_append (by omega)] at h1
        have e1 := hN upd item q _ _ a ha h1 (by rw [List.length_drop]; omega)
        have e0 : (PSrc.buf b).next size pos = .buf (b.drop size) := rfl
        rw [e0, e1, Out.ok_bind, if_neg hs, if_neg hk, ih _ _ _ h2 hl]
        rfl

theorem decObj_trim (he : env.noPeek) (hN : Trims decN) {cls : ClassId} {v : Val} {r : Dec} {ser : Ser}
    (h : decObj env decN cls (.buf (b ++ rest)) = .ok (v, r, ser)) (hl : r.size ≤ b.length) :
    decObj env decN cls (.buf b) = .ok (v, r, ser) := by
  unfold decObj at h ⊢
  split at h
  · cases h
  · rename_i ci hci
    obtain ⟨⟨s, q⟩, h1, h⟩ := Out.ofE_ok' h
    obtain ⟨a, h2, h⟩ := Out.bind_ok' h
    obtain ⟨v', h3, h⟩ := Out.ofE_ok' h
    cases h
    simp only [Out.ofE_ok_bind h1]
    rw [hN _ s q b rest a (preU_noPeek (he cls ci hci) h1) h2 hl, Out.ok_bind, Out.ofE_ok_bind h3]

end loops

theorem dynChar_trim {st : StructSer} (hc : st.isCount = true) {b rest : Bytes} {r : Dec}
    (h : dynCharDec env st (.buf (b ++ rest)) = .ok r) (hl : r.size ≤ b.length) : dynCharDec env st (.buf b) = .ok r := by
  obtain ⟨⟨hv0, pos⟩, h1, h⟩ := Except.bind_ok' h
  obtain ⟨_, _, g3⟩ := structDec_buf h1
  obtain ⟨c, hc'⟩ := isCount_unpack hc g3
  simp only at hc' g3
  subst hc'
  have e1 : first [Val.int (c : Int)] = .ok (.int c) := rfl
  have e2 : needInt (.int (c : Int)) = .ok (c : Int) := rfl
  simp only [e1, e2, bind, Except.bind, Except.ok.injEq] at h
  subst h
  have hsz : ((st.size : Int) + c).toNat = st.size + c := by omega
  rw [hsz] at hl
  simp only at hl
  have hle : st.size ≤ b.length := by omega
  rw [structDec_trim hle] at h1
  unfold dynCharDec
  simp only [h1, e1, e2, bind, Except.bind, Int.toNat_natCast]
  rw [List.drop_append_of_le_length hle, List.take_append_of_le_length (by rw [List.length_drop]; omega)]

theorem net_trim {b rest : Bytes} {r : Dec} (h : netDec env (.buf (b ++ rest)) = .ok r) (hl : r.size ≤ b.length) :
    netDec env (.buf b) = .ok r := by
  have tail : ∀ (size count : Nat), size + count ≤ b.length →
      ((b ++ rest).drop size).take count = (b.drop size).take count := fun size count hl => by
    rw [List.drop_append_of_le_length (by omega), List.take_append_of_le_length (by rw [List.length_drop]; omega)]
  have hsl : shortLen.size ≤ longLen.size := by decide
  unfold netDec at h ⊢
  obtain ⟨⟨hv0, pos⟩, h1, h⟩ := Except.bind_ok' h
  obtain ⟨_, _, g3⟩ := structDec_buf h1
  obtain ⟨c, hc'⟩ := shortLen_unpack g3
  simp only at hc' g3
  subst hc'
  have e1 : first [Val.int (c : Int)] = .ok (.int c) := rfl
  have e2 : needInt (.int (c : Int)) = .ok (c : Int) := rfl
  simp only [e1, e2, bind, Except.bind] at h
  split at h
  · rename_i hc
    cases h2 : structDec env longLen (.buf (b ++ rest)) with
    | error e => rw [h2] at h; cases h
    | ok x =>
      obtain ⟨hv1, pos1⟩ := x
      obtain ⟨_, _, k3⟩ := structDec_buf h2
      obtain ⟨d, hd⟩ := longLen_unpack k3
      simp only at hd
      subst hd
      have e4 : first [Val.int (d : Int)] = .ok (.int d) := rfl
      have e5 : needInt (.int (d : Int)) = .ok (d : Int) := rfl
      rw [h2] at h
      simp only [e4, e5] at h
      cases h3 : netDecode (d : Int).toNat with
      | error e => rw [h3] at h; cases h
      | ok count =>
        rw [h3] at h
        simp only [Except.ok.injEq] at h
        subst h
        simp only at hl
        rw [structDec_trim (by omega)] at h1 h2
        simp only [h1, e1, e2, h2, e4, e5, h3, hc, bind, Except.bind, if_true, tail _ _ hl]
  · rename_i hc
    simp only [Except.ok.injEq] at h
    subst h
    simp only at hl
    rw [structDec_trim (by omega)] at h1
    simp only [h1, e1, e2, hc, bind, Except.bind, if_false, tail _ _ hl]

theorem findTerm_trim {t : Byte} {a b : Bytes} {k : Nat} (h : findTerm t (a ++ b) = some k) (hk : k < a.length) :
    findTerm t a = some k := by
  cases h' : findTerm t a with
  | some j => rw [findTerm_append h'] at h; exact h
  | none =>
    rw [findTerm_none_append h'] at h
    cases h2 : findTerm t b with
    | none => rw [h2] at h; cases h
    | some j =>
      rw [h2, Option.map_some, Option.some.injEq] at h
      omega

theorem dec_trim (he : env.noPeek) : ∀ n, Trims (dec env n) := by
  intro n
  induction n with
  | zero => intro upd s q b rest r _ h; cases h
  | succ n ih =>
    intro upd s q b rest r ha h hl
    cases s with
    | null => exact h
    | skip vals => exact h
    | cond => cases h
    | selfT => cases h
    | struct st =>
      simp only [dec] at h ⊢
      have : st.size ≤ b.length := by
        obtain ⟨_, _, h⟩ := Except.bind_ok' (ofE_ok h)
        cases h; exact hl
      rwa [structDec_trim this] at h
    | dynChar id st =>
      simp only [dec] at h ⊢
      rw [dynChar_trim (by simpa [Ser.noPeek] using ha) (ofE_ok h) hl]; rfl
    | net id =>
      simp only [dec] at h ⊢
      rw [net_trim (ofE_ok h) hl]; rfl
    | consuming id =>
      simp only [dec, consumingDec] at h ⊢
      cases h
      simp only [List.length_append] at hl
      have : rest = [] := List.eq_nil_of_length_eq_zero (by omega)
      subst this
      simp
    | terminated id t =>
      simp only [dec, terminatedDec] at h ⊢
      cases hk : findTerm t (b ++ rest) with
      | none => rw [hk] at h; cases h
      | some k =>
        rw [hk] at h; cases h
        rw [findTerm_trim hk hl, List.take_append_of_le_length (by simp only at hl; omega)]; rfl
    | staticArr count item ser =>
      simp only [dec] at h ⊢
      have : hdrSize ser ≤ b.length := by
        obtain ⟨_, _, h⟩ := Except.bind_ok' (ofE_ok h)
        cases h; exact hl
      rwa [structDecOpt_trim this] at h
    | dynArr id cnt item =>
      simp only [dec] at h ⊢
      have hh := ofE_ok h
      obtain ⟨⟨hv', pos⟩, h1, hh⟩ := Except.bind_ok' hh
      simp only at hh
      split at hh
      · obtain ⟨c, h2, hh⟩ := Except.bind_ok' hh
        obtain ⟨s, h3, hh⟩ := Except.bind_ok' hh
        obtain ⟨⟨vs, pos'⟩, h4, hh⟩ := Except.bind_ok' hh
        cases hh
        simp only at hl
        have hle : cnt.size ≤ b.length := by omega
        rw [structDec_trim hle] at h1
        rw [next_append hle, structDecOpt_trim (by rw [List.length_drop]; simp only [hdrSize]; omega)] at h4
        have h4' : structDecOpt env s ((PSrc.buf b).next cnt.size pos) = .ok (vs, pos') := h4
        simp only [h1, bind, Except.bind, h2, h3, h4']
        rfl
      · cases hh
    | unicode inner en de =>
      simp only [Ser.noPeek] at ha
      rw [dec] at h ⊢
      obtain ⟨a, h1, h⟩ := Out.bind_ok' h
      obtain ⟨vs, h2, h⟩ := Out.ofE_ok' h
      cases h
      rw [ih noUpd inner none b rest a ha h1 hl, Out.ok_bind, Out.ofE_ok_bind h2]
    | array id hdr item sl =>
      simp only [Ser.noPeek] at ha
      cases q with
      | none =>
        simp only [dec] at h
        obtain ⟨⟨hv, pos⟩, _, h⟩ := Out.ofE_ok' h
        obtain ⟨⟨c, d⟩, _, h⟩ := Out.ofE_ok' h
        cases h
      | some p =>
        simp only [dec] at h ⊢
        obtain ⟨⟨hv', pos⟩, h1, h⟩ := Out.ofE_ok' h
        obtain ⟨⟨c, d⟩, h2, h⟩ := Out.ofE_ok' h
        obtain ⟨⟨item', qi⟩, h3, h⟩ := Out.ofE_ok' h
        obtain ⟨a, h4, h⟩ := Out.bind_ok' h
        obtain ⟨u, h5, h⟩ := Out.ofE_ok' h
        cases h
        simp only at hl
        have hsz := decItems_size _ _ _ _ h4
        rw [structDecOpt_trim (by omega)] at h1
        rw [Out.ofE_ok_bind h1]
        simp only
        rw [Out.ofE_ok_bind h2]
        simp only
        rw [Out.ofE_ok_bind h3]
        simp only
        rw [decItems_trim ih (preU_noPeek ha h3) _ _ _ _ h4 hl, Out.ok_bind, Out.ofE_ok_bind (a := u) h5]
    | tuple id inner =>
      simp only [Ser.noPeek] at ha
      cases q with
      | none => simp only [dec] at h; cases h
      | some p =>
        simp only [dec] at h ⊢
        obtain ⟨⟨s', q'⟩, h1, h⟩ := Out.ofE_ok' h
        simp only at h
        rw [Out.ofE_ok_bind h1]
        simp only
        split at h
        · cases h
        · rename_i hz
          rw [if_neg hz]
          obtain ⟨a, h2, h⟩ := Out.bind_ok' h
          cases h
          rw [ih noUpd s' q' b rest a (preU_noPeek ha h1) h2 hl, Out.ok_bind]
    | lookback id decider keys opts dflt =>
      simp only [Ser.noPeek, Bool.and_eq_true] at ha
      cases q with
      | none => simp only [dec] at h; cases h
      | some p =>
        simp only [dec] at h ⊢
        obtain ⟨v, h1, h⟩ := Out.ofE_ok' h
        rw [Out.ofE_ok_bind h1]
        unfold decUnion at h ⊢
        obtain ⟨s, h1, h⟩ := Out.ofE_ok' h
        obtain ⟨⟨s', q⟩, h2, h⟩ := Out.ofE_ok' h
        rw [Out.ofE_ok_bind h1, Out.ofE_ok_bind h2]
        simp only at h ⊢
        split at h
        · cases h
        · rename_i hz
          rw [if_neg hz]
          obtain ⟨a, h3, h⟩ := Out.bind_ok' h
          split at h
          · cases h
          · rename_i hs
            cases h
            rw [ih noUpd s' q b rest a (preU_noPeek (unionPick_noPeek h1 ha.1 ha.2) h2) h3 hl, Out.ok_bind, if_neg hs]
    | lookahead id ra decider keys opts dflt => cases ha
    | structured id cls =>
      rw [dec] at h ⊢
      obtain ⟨⟨v, a, ser⟩, h1, h⟩ := Out.bind_ok' h
      simp only at h
      split at h
      · cases h
      · rename_i hs
        cases h
        rw [decObj_trim he ih h1 hl, Out.ok_bind]
        simp only
        rw [if_neg hs]
    | compound id ss =>
      simp only [Ser.noPeek] at ha
      rw [dec] at h ⊢
      exact decLoop_trim ih ss 0 _ r ha h hl
    | specialized id p ss =>
      simp only [Ser.noPeek] at ha
      rw [dec] at h ⊢
      exact decLoopSpec_trim ih ss p 0 0 _ r ha h hl

end Verif
