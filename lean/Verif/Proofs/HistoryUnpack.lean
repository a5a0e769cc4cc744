import Verif.Proofs.HistoryPack
/-
Unpacking with tame serializers never depends on earlier operations (`Sem.dec` is not stuck).
-/
namespace Verif
open Sem

theorem readsList_mem {self : ClassId} {ss : List Ser} {d : ClassId} :
    d ∈ Ser.readsList self ss ↔ ∃ s ∈ ss, d ∈ s.reads self := by
  induction ss with
  | nil => simp [Ser.readsList]
  | cons v vs ih => simp [Ser.readsList, ih]

theorem apartList_mem {own : ClassId → List SerId} {self : ClassId} {ss : List Ser} :
    Ser.apartList own self ss = true ↔ ∀ s ∈ ss, s.apart own self = true := by
  induction ss with
  | nil => simp [Ser.apartList]
  | cons v vs ih => simp [Ser.apartList, ih]

/-- The consumer of the values does not change the class of the partial object. -/
def UpdOk (upd : Upd) : Prop := ∀ p k vs p', upd p k vs = .ok p' → p'.cls = p.cls

theorem noUpd_ok : UpdOk noUpd := by intro p k vs p' h; cases h; rfl

theorem assignVals_ok (attrs : List Name) : UpdOk (assignVals attrs) := by
  intro p k vs p' h
  unfold assignVals at h
  simp only at h
  split at h
  · cases h
  · cases h; rfl

/-- The partial object a serializer works with belongs to class `self`. -/
def Of (self : ClassId) (q : Option PObj) : Prop := ∀ p, q = some p → p.cls = self

theorem Of.none {self : ClassId} : Of self none := by intro _ h; cases h

variable {env : Env} {own : ClassId → List SerId} {self : ClassId}

structure PreUOk (own : ClassId → List SerId) (me : ClassId) (s s' : Ser) (q : Option PObj) : Prop
    extends PreOk true s s' q where
  apart : s'.apart own me = true
  reads : ∀ d, d ∈ s'.reads me → d ∈ s.reads me
  of : Of me q

theorem preU_ok {s s' : Ser} {p : PObj} {q : Option PObj} (ht : s.tame true = true) (ha : s.apart own self = true)
    (hc : p.cls = self) (h : preU s p = .ok (s', q)) : PreUOk own self s s' q := by
  rcases preU_cases s p with ⟨id, rfl⟩ | ⟨_, h2⟩
  · obtain ⟨c, h1, h⟩ := Except.bind_ok' h
    cases h
    refine ⟨⟨rfl, ready_of_free rfl, ?_, rfl, ?_, ?_⟩, rfl, ?_, Of.none⟩
    · simp [Ser.inside, Ser.keeper, Ser.keepers]
    · simp [Ser.itemKeepers]
    · simp [Ser.isLazy, Ser.isCompound]
    · have : c = self := by
        unfold clsOfPartial at h1
        split at h1
        · cases h1
        · split at h1 <;> cases h1
          exact hc
      simp [Ser.reads, this]
  · rw [h2] at h
    have hp := pre_ok ht h
    cases s with
    | cond ser c defs =>
      obtain ⟨r, h1, h⟩ := Except.bind_ok' h
      obtain ⟨s2, h2, h⟩ := Except.bind_ok' h
      cases h
      rcases condPick_cases h2 with rfl | rfl
      · exact ⟨hp, by simpa [Ser.apart] using ha, fun d hd => by simpa [Ser.reads] using hd, Of.none⟩
      · exact ⟨hp, rfl, fun d hd => by simp [Ser.reads] at hd, Of.none⟩
    | selfT id => cases h; exact ⟨hp, rfl, fun d hd => by simpa [Ser.reads, hc] using hd, Of.none⟩
    | compound id ss =>
      simp only [Sem.pre, Except.ok.injEq, Prod.mk.injEq] at h
      obtain ⟨h1, h2⟩ := h
      subst h2
      split at h1
      · subst h1
        exact ⟨hp, by simpa [Ser.apart, hc] using ha, fun d hd => by simpa [Ser.reads] using hd, Of.none⟩
      · subst h1
        exact ⟨hp, ha, fun d hd => hd, Of.none⟩
    | _ =>
      cases h
      refine ⟨hp, ha, fun d hd => hd, ?_⟩
      first
        | exact Of.none
        | exact fun _ e => by cases e; exact hc

/-- Not stuck, and only these objects are handed a partial object. -/
abbrev QuietU (o : Out Dec) (P : SerId → Prop) : Prop := Sat o fun r => ∀ i ∈ r.touched, P i

/-- The ids that reading with `s` may hand a partial object to. -/
def Hands (own : ClassId → List SerId) (self : ClassId) (s : Ser) (i : SerId) : Prop :=
  i ∈ s.inside ∨ ∃ d ∈ s.reads self, i ∈ own d

def HandsAll (own : ClassId → List SerId) (self : ClassId) (s : Ser) (i : SerId) : Prop :=
  i ∈ s.keepers ∨ ∃ d ∈ s.reads self, i ∈ own d

theorem Hands.all {s : Ser} {i : SerId} (h : Hands own self s i) : HandsAll own self s i := h.imp inside_keepers id

theorem PreUOk.hands {s s' : Ser} {q : Option PObj} (hp : PreUOk own self s s' q) {i : SerId}
    (h : Hands own self s' i) : Hands own self s i := by
  rcases h with h | ⟨d, h1, h2⟩
  · exact .inl (hp.inside i h)
  · exact .inr ⟨d, hp.reads d h1, h2⟩

def QuietDec (own : ClassId → List SerId) (decN : Upd → Ser → Option PObj → PSrc → Out Dec) : Prop :=
  ∀ self upd s q src, UpdOk upd → s.tame true = true → Ready s q → s.apart own self = true → Of self q →
    QuietU (decN upd s q src) (Hands own self s)

theorem ofE_leaf {x : Except Err Dec} {P : SerId → Prop} (h : ∀ r, x = .ok r → r.touched = []) :
    QuietU (Out.ofE x) P := by
  cases x with
  | error e => exact Sat.err
  | ok r => exact Sat.ok (by rw [h r rfl]; simp)

theorem dynCharDec_touched {st : StructSer} {src : PSrc} {r : Dec} (h : dynCharDec env st src = .ok r) : r.touched = [] := by
  obtain ⟨⟨hv, pos⟩, _, h⟩ := Except.bind_ok' h
  obtain ⟨x, _, h⟩ := Except.bind_ok' h
  obtain ⟨count, _, h⟩ := Except.bind_ok' h
  cases src with
  | buf b => cases h; rfl
  | «at» b off =>
    obtain ⟨s, _, h⟩ := Except.bind_ok' h
    obtain ⟨⟨vs, pos'⟩, _, h⟩ := Except.bind_ok' h
    cases h; rfl
  | io data pos =>
    obtain ⟨s, _, h⟩ := Except.bind_ok' h
    obtain ⟨⟨vs, pos'⟩, _, h⟩ := Except.bind_ok' h
    cases h; rfl

theorem terminatedDec_touched {term : Byte} {src : PSrc} {r : Dec} (h : terminatedDec term src = .ok r) : r.touched = [] := by
  unfold terminatedDec at h
  cases src <;> simp only at h <;> split at h <;> cases h <;> rfl

theorem netDec_touched {src : PSrc} {r : Dec} (h : netDec env src = .ok r) : r.touched = [] := by
  unfold netDec at h
  obtain ⟨⟨hv, pos⟩, _, h⟩ := Except.bind_ok' h
  obtain ⟨x, _, h⟩ := Except.bind_ok' h
  obtain ⟨c, _, h⟩ := Except.bind_ok' h
  have tail : ∀ count size pos, (match src with
      | .buf b => (.ok ⟨[.bytes ((b.drop size).take count)], size + count, 0, []⟩ : Except Err Dec)
      | .at b off => do
        .ok ⟨← structUnpackFrom env.plat .default [⟨count, .str⟩] b (off + size), size + count, 0, []⟩
      | .io data _ =>
        let d := (data.drop pos).take count
        .ok ⟨[.bytes d], size + count, pos + d.length, []⟩) = .ok r → r.touched = [] := by
    intro count size pos h
    cases src with
    | buf b => cases h; rfl
    | «at» b off => obtain ⟨vs, _, h⟩ := Except.bind_ok' h; cases h; rfl
    | io data pos => cases h; rfl
  simp only at h
  split at h
  · obtain ⟨⟨hv, pos⟩, _, h⟩ := Except.bind_ok' h
    obtain ⟨x, _, h⟩ := Except.bind_ok' h
    obtain ⟨c, _, h⟩ := Except.bind_ok' h
    obtain ⟨count, _, h⟩ := Except.bind_ok' h
    exact tail _ _ _ h
  · exact tail _ _ _ h

theorem dynArrDec_touched {cnt item : StructSer} {src : PSrc} {r : Dec} (h : (do
        let (hv, pos) ← structDec env cnt src
        let c ← match hv with
          | [c] => needInt c
          | _ => .error .valueError
        let s ← item.mul c
        let (vs, pos') ← structDecOpt env s (src.next cnt.size pos)
        .ok ⟨[.list vs], cnt.size + s.elim 0 StructSer.size, pos', []⟩ : Except Err Dec) = .ok r) : r.touched = [] := by
  obtain ⟨⟨hv, pos⟩, _, h⟩ := Except.bind_ok' h
  simp only at h
  split at h
  · obtain ⟨c, _, h⟩ := Except.bind_ok' h
    obtain ⟨s, _, h⟩ := Except.bind_ok' h
    obtain ⟨⟨vs, pos'⟩, _, h⟩ := Except.bind_ok' h
    cases h; rfl
  · cases h

theorem structDec_touched {st : StructSer} {src : PSrc} {r : Dec}
    (h : (do let (vs, pos) ← structDec env st src; .ok ⟨vs, st.size, pos, []⟩ : Except Err Dec) = .ok r) : r.touched = [] := by
  obtain ⟨⟨hv, pos⟩, _, h⟩ := Except.bind_ok' h
  cases h; rfl

theorem staticArrDec_touched {ser : Option StructSer} {src : PSrc} {r : Dec}
    (h : (do
        let (vs, pos) ← structDecOpt env ser src
        .ok ⟨[.list vs], ser.elim 0 StructSer.size, pos, []⟩ : Except Err Dec) = .ok r) : r.touched = [] := by
  obtain ⟨⟨hv, pos⟩, _, h⟩ := Except.bind_ok' h
  cases h; rfl

theorem dec_leaf : ∀ n upd s q src, s.leaf = true → QuietU (dec env n upd s q src) (fun _ => False) := by
  intro n
  induction n with
  | zero => intro upd s q src _; exact Sat.err
  | succ n ih =>
    intro upd s q src hl
    cases s with
    | null => exact Sat.ok (by simp)
    | struct st => exact ofE_leaf fun r h => structDec_touched h
    | dynChar id st => exact ofE_leaf fun r h => dynCharDec_touched h
    | consuming id => exact Sat.ok (by cases src <;> simp [consumingDec])
    | terminated id term => exact ofE_leaf fun r h => terminatedDec_touched h
    | net id => exact ofE_leaf fun r h => netDec_touched h
    | staticArr count item ser => exact ofE_leaf fun r h => staticArrDec_touched h
    | dynArr id cnt item => exact ofE_leaf fun r h => dynArrDec_touched h
    | unicode inner en de =>
      rw [dec]
      refine Sat.bind (ih noUpd inner none src (by simpa [Ser.leaf] using hl)) ?_
      intro a _ ha
      exact Sat.ofE fun vs _ => Sat.ok ha
    | _ => cases hl

theorem decLoop_quiet {decN : Ser → Option PObj → PSrc → Out Dec} {P : SerId → Prop} {src : PSrc} :
    ∀ ss, (∀ s ∈ ss, ∀ src, QuietU (decN s none src) P) → ∀ size pos,
      QuietU (decLoop decN src size pos ss) P := by
  intro ss
  induction ss with
  | nil => intro _ size pos; exact Sat.ok (by simp)
  | cons s ss ih =>
    intro h size pos
    rw [decLoop]
    refine Sat.bind (h s (by simp) _) ?_
    intro a _ ha
    split
    · exact Sat.err
    · refine Sat.bind (ih (fun s hs => h s (by simp [hs])) _ _) ?_
      intro r _ hr
      refine Sat.ok ?_
      intro i hi
      exact (List.mem_append.1 hi).elim (ha i) (hr i)

theorem decLoopSpec_quiet {decN : Ser → Option PObj → PSrc → Out Dec} {P : SerId → Prop} {upd : Upd} {src : PSrc}
    (hu : UpdOk upd) : ∀ ss, (∀ s ∈ ss, ∀ p s' q src, p.cls = self → preU s p = .ok (s', q) →
      QuietU (decN s' q src) P ∧ ∀ i ∈ touch s, P i) → ∀ p done size pos, p.cls = self →
      QuietU (decLoopSpec decN upd src p done size pos ss) P := by
  intro ss
  induction ss with
  | nil => intro _ p done size pos _; exact Sat.ok (by simp)
  | cons s ss ih =>
    intro h p done size pos hc
    rw [decLoopSpec]
    refine Sat.ofE ?_
    rintro ⟨s', q⟩ e
    obtain ⟨h1, h2⟩ := h s (by simp) p s' q (src.next size pos) hc e
    refine Sat.bind h1 ?_
    intro a _ ha
    refine Sat.ofE fun p' e' => ?_
    split
    · exact Sat.err
    · refine Sat.bind (ih (fun s hs => h s (by simp [hs])) p' _ _ _ ((hu _ _ _ _ e').trans hc)) ?_
      intro r _ hr
      refine Sat.ok ?_
      intro i hi
      simp only [List.mem_append] at hi
      rcases hi with (hi | hi) | hi
      · exact h2 i hi
      · exact ha i hi
      · exact hr i hi

theorem decItems_quiet {decN : Ser → Option PObj → PSrc → Out Dec} {P : SerId → Prop} {item : Ser} {q : Option PObj}
    {src : PSrc} (h : ∀ src, QuietU (decN item q src) P) (hk : ∀ k, item.keeper = some k → ¬ P k) :
    ∀ k size pos, QuietU (decItems decN item q src size pos k) P := by
  intro k
  induction k with
  | zero => intro size pos; exact Sat.ok (by simp)
  | succ k ih =>
    intro size pos
    rw [decItems]
    refine Sat.bind (h _) ?_
    intro a _ ha
    split
    · exact Sat.err
    · split
      · rename_i hst
        exfalso
        cases hkp : item.keeper with
        | none => simp [hkp] at hst
        | some k =>
          simp only [hkp, Option.any_some, List.contains_iff_mem] at hst
          exact hk k hkp (ha k hst)
      · refine Sat.bind (ih _ _) ?_
        intro r _ hr
        refine Sat.ok ?_
        intro i hi
        exact (List.mem_append.1 hi).elim (ha i) (hr i)

theorem unionPick_apart {keys : List Val} {opts : List Ser} {dflt s : Ser} {r : Val}
    (h : unionPick keys opts dflt r = .ok s) (ho : Ser.apartList own self opts = true) (hd : dflt.apart own self = true) :
    s.apart own self = true := by
  rcases unionPick_mem h with h | rfl
  · exact apartList_mem.1 ho _ h
  · exact hd

theorem unionPick_hands {keys : List Val} {opts : List Ser} {dflt s : Ser} {r : Val}
    (h : unionPick keys opts dflt r = .ok s) {i : SerId} (hi : HandsAll own self s i) :
    i ∈ Ser.keepersList opts ++ dflt.keepers ∨ ∃ d ∈ Ser.readsList self opts ++ dflt.reads self, i ∈ own d := by
  rcases hi with hi | ⟨d, h1, h2⟩
  · exact .inl (unionPick_keepers h hi)
  · refine .inr ⟨d, ?_, h2⟩
    rcases unionPick_mem h with h | rfl
    · exact List.mem_append_left _ (readsList_mem.2 ⟨_, h, h1⟩)
    · exact List.mem_append_right _ h1

theorem decUnion_quiet {decN : Upd → Ser → Option PObj → PSrc → Out Dec} (hN : QuietDec own decN) {keys : List Val}
    {opts : List Ser} {dflt : Ser} {p : PObj} {r : Val} {src : PSrc} (hc : p.cls = self)
    (ho : Ser.tameList true opts = true) (hd : dflt.tame true = true)
    (hz : (opts.any Ser.canBeLazy || dflt.canBeLazy) = false)
    (hao : Ser.apartList own self opts = true) (had : dflt.apart own self = true) :
    QuietU (decUnion (decN noUpd) keys opts dflt p r src)
      (fun i => i ∈ Ser.keepersList opts ++ dflt.keepers ∨ ∃ d ∈ Ser.readsList self opts ++ dflt.reads self, i ∈ own d) := by
  unfold decUnion
  refine Sat.ofE fun s e1 => Sat.ofE ?_
  rintro ⟨s', q⟩ e2
  have hp := preU_ok (unionPick_tame e1 ho hd) (unionPick_apart e1 hao had) hc e2
  simp only
  split
  · rename_i hl
    exfalso
    have hl' := hp.lazy hl
    simp only [Bool.or_eq_false_iff, List.any_eq_false] at hz
    rcases unionPick_mem e1 with h | rfl
    · exact hz.1 _ h hl'
    · rw [hz.2] at hl'; cases hl'
  · refine Sat.bind (hN self noUpd s' q src noUpd_ok hp.tame hp.ready hp.apart hp.of) ?_
    intro a _ ha
    split
    · exact Sat.err
    · refine Sat.ok ?_
      intro i hi
      simp only [List.mem_append] at hi
      rcases hi with hi | hi
      · exact unionPick_hands e1 (.inl (touch_keepers hi))
      · exact unionPick_hands e1 (hp.hands (ha i hi)).all

theorem decObj_quiet (hs : env.settled own) {decN : Upd → Ser → Option PObj → PSrc → Out Dec} (hN : QuietDec own decN)
    (cls : ClassId) (src : PSrc) : Sat (decObj env decN cls src) (fun r => ∀ i ∈ r.2.1.touched, i ∈ own cls) := by
  unfold decObj
  split
  · exact Sat.err
  · rename_i ci e
    obtain ⟨h1, h2, h3, h4⟩ := hs cls ci e
    refine Sat.ofE ?_
    rintro ⟨s, q⟩ e2
    have hp := preU_ok (p := ⟨cls, true, []⟩) h1 h2 rfl e2
    refine Sat.bind (hN cls (assignVals ci.attrs) s q src (assignVals_ok _) hp.tame hp.ready hp.apart hp.of) ?_
    intro r _ hr
    refine Sat.ofE fun v _ => Sat.ok ?_
    intro i hi
    simp only [List.mem_append] at hi
    have all : HandsAll own cls ci.serializer i → i ∈ own cls := by
      rintro (h | ⟨d, h5, h6⟩)
      · exact h3 i h
      · exact h4 d h5 i h6
    rcases hi with hi | hi
    · exact all (.inl (touch_keepers hi))
    · exact all (hp.hands (hr i hi)).all

theorem dec_quiet (hs : env.settled own) : ∀ n, QuietDec own (dec env n) := by
  intro n
  induction n with
  | zero => intro self upd s q src _ _ _ _ _; exact Sat.err
  | succ n ih =>
    intro self upd s q src hu ht hr ha ho
    have leaf : s.leaf = true → QuietU (dec env (n+1) upd s q src) (Hands own self s) := fun h =>
      (dec_leaf (n+1) upd s q src h).mono fun a h i hi => (h i hi).elim
    cases s with
    | null => exact leaf rfl
    | struct st => exact leaf rfl
    | dynChar id st => exact leaf rfl
    | consuming id => exact leaf rfl
    | terminated id term => exact leaf rfl
    | net id => exact leaf rfl
    | staticArr count item ser => exact leaf rfl
    | dynArr id cnt item => exact leaf rfl
    | cond => exact Sat.err
    | skip => exact Sat.ok (by simp)
    | selfT => exact Sat.err
    | unicode inner en de =>
      simp only [Ser.tame, Bool.and_eq_true] at ht
      rw [dec]
      refine Sat.bind (ih self noUpd inner none src noUpd_ok ht.2 (ready_of_free ht.1) (by simpa [Ser.apart] using ha) Of.none) ?_
      intro a _ h
      refine Sat.ofE fun vs _ => Sat.ok ?_
      intro i hi
      exact (h i hi).imp (fun h => by simpa [Ser.inside, Ser.keeper, Ser.keepers] using inside_keepers h)
        (fun h => by simpa [Ser.reads] using h)
    | array id hdr item sl =>
      cases q with
      | none => exact (ready_none hr rfl).elim
      | some p =>
        simp only [dec]
        simp only [Ser.tame, Bool.and_eq_true] at ht
        simp only [Ser.apart, Bool.and_eq_true] at ha
        refine Sat.ofE ?_
        rintro ⟨hv, pos⟩ _
        refine Sat.ofE ?_
        rintro ⟨count, dataSize⟩ _
        refine Sat.ofE ?_
        rintro ⟨item', qi⟩ e
        have hp := preU_ok ht.1 ha.1 (ho p rfl) e
        refine Sat.bind (decItems_quiet (P := Hands own self item')
          (fun src => ih self noUpd item' qi src noUpd_ok hp.tame hp.ready hp.apart hp.of) ?_ _ _ _) ?_
        · intro k hk1 hk2
          rw [hp.keeper] at hk1
          rcases hp.hands hk2 with h | ⟨d, h1, h2⟩
          · have := ht.2
            simp [hk1, h] at this
          · have := ha.2
            simp only [hk1, Option.all_some, List.all_eq_true] at this
            have := this d h1
            simp [h2] at this
        · intro r _ hr'
          refine Sat.ofE fun _ _ => Sat.ok ?_
          intro i hi
          have hins : (Ser.array id hdr item sl).inside = item.keepers := by simp [Ser.inside, Ser.keeper, Ser.keepers]
          have hrd : (Ser.array id hdr item sl).reads self = item.reads self := by simp [Ser.reads]
          unfold Hands
          rw [hins, hrd]
          rcases List.mem_append.1 hi with hi | hi
          · exact .inl (touch_keepers hi)
          · exact (hp.hands (hr' i hi)).all
    | tuple id inner =>
      cases q with
      | none => exact (ready_none hr rfl).elim
      | some p =>
        simp only [dec]
        simp only [Ser.tame, Bool.and_eq_true] at ht
        refine Sat.ofE ?_
        rintro ⟨inner', qi⟩ e
        have hp := preU_ok ht.1 (by simpa [Ser.apart] using ha) (ho p rfl) e
        simp only
        split
        · rename_i hl
          have := hp.lazy hl
          have h2 := ht.2
          simp [this] at h2
        · refine Sat.bind (ih self noUpd inner' qi src noUpd_ok hp.tame hp.ready hp.apart hp.of) ?_
          intro r _ hr'
          refine Sat.ok ?_
          intro i hi
          have hins : (Ser.tuple id inner).inside = inner.keepers := by simp [Ser.inside, Ser.keeper, Ser.keepers]
          have hrd : (Ser.tuple id inner).reads self = inner.reads self := by simp [Ser.reads]
          unfold Hands
          rw [hins, hrd]
          rcases List.mem_append.1 hi with hi | hi
          · exact .inl (touch_keepers hi)
          · exact (hp.hands (hr' i hi)).all
    | lookback id decider keys opts dflt =>
      cases q with
      | none => exact (ready_none hr rfl).elim
      | some p =>
        simp only [dec]
        simp only [Ser.tame, Bool.and_eq_true, Bool.true_and, Bool.not_eq_true'] at ht
        simp only [Ser.apart, Bool.and_eq_true] at ha
        refine Sat.ofE fun r _ => ?_
        have hins : (Ser.lookback id decider keys opts dflt).inside = Ser.keepersList opts ++ dflt.keepers := by
          simp [Ser.inside, Ser.keeper, Ser.keepers]
        unfold Hands
        rw [hins, Ser.reads]
        exact decUnion_quiet ih (ho p rfl) ht.1.1 ht.1.2 ht.2 ha.1 ha.2
    | lookahead id ra decider keys opts dflt =>
      simp only [Ser.tame, Bool.and_eq_true, Bool.true_and, Bool.not_eq_true', Bool.or_eq_false_iff, Bool.not_eq_false'] at ht
      simp only [Ser.apart, Bool.and_eq_true] at ha
      rw [dec]
      refine Sat.bind (dec_leaf n noUpd ra none src ht.2.2) ?_
      intro hr' _ hl
      refine Sat.ofE fun r _ => ?_
      split
      · exact Sat.err
      · split
        · rename_i h
          exact (hl id (by simpa using h)).elim
        · cases q with
          | none => exact (ready_none hr rfl).elim
          | some p =>
            refine Sat.bind (decUnion_quiet ih (ho p rfl) ht.1.1 ht.1.2 (by simpa using ht.2.1) ha.1 ha.2) ?_
            intro a _ h
            refine Sat.ok ?_
            intro i hi
            rcases List.mem_append.1 hi with hi | hi
            · exact (hl i hi).elim
            · refine (h i hi).imp (fun h => ?_) ?_
              · simp only [Ser.inside, Ser.keeper, Ser.keepers]
                simp only [Option.isSome_some, ↓reduceIte, List.tail_cons]
                exact List.mem_append_right _ h
              · rintro ⟨d, h1, h2⟩
                exact ⟨d, by rw [Ser.reads]; exact List.mem_append_right _ h1, h2⟩
    | structured id cls =>
      rw [dec]
      refine Sat.bind (decObj_quiet hs ih cls src) ?_
      rintro ⟨v, r, ser⟩ _ h
      simp only
      split
      · exact Sat.err
      · exact Sat.ok fun i hi => .inr ⟨cls, by simp [Ser.reads], h i hi⟩
    | compound id ss =>
      rw [dec]
      simp only [Ser.tame] at ht
      simp only [Ser.apart] at ha
      have hr' : ∀ s ∈ ss, s.keeper = none ∧ ∀ id' ss', s = .compound id' ss' → Ser.freeList ss' = true := by
        rcases hr with h | ⟨_, h⟩
        · cases h.2
        · exact h id ss rfl
      refine decLoop_quiet ss ?_ _ _
      intro s hs' src
      obtain ⟨h1, h2⟩ := hr' s hs'
      refine (ih self noUpd s none src noUpd_ok (tameList_mem.1 ht s hs') (ready_member h1 h2) (apartList_mem.1 ha s hs') Of.none).mono ?_
      intro a h i hi
      rcases h i hi with h | ⟨d, h3, h4⟩
      · exact .inl (keepersList_mem.2 ⟨s, hs', inside_keepers h⟩)
      · exact .inr ⟨d, by rw [Ser.reads]; exact readsList_mem.2 ⟨s, hs', h3⟩, h4⟩
    | specialized id p ss =>
      rw [dec]
      simp only [Ser.tame] at ht
      simp only [Ser.apart, Bool.and_eq_true, beq_iff_eq] at ha
      refine decLoopSpec_quiet hu ss ?_ p 0 0 _ ha.1
      intro s hs' p' s' q' src hc e
      have hp := preU_ok (tameList_mem.1 ht s hs') (apartList_mem.1 ha.2 s hs') hc e
      have up : ∀ i, HandsAll own self s i → Hands own self (.specialized id p ss) i := by
        rintro i (h | ⟨d, h3, h4⟩)
        · exact .inl (keepersList_mem.2 ⟨s, hs', h⟩)
        · exact .inr ⟨d, by rw [Ser.reads]; exact readsList_mem.2 ⟨s, hs', h3⟩, h4⟩
      refine ⟨(ih self noUpd s' q' src noUpd_ok hp.tame hp.ready hp.apart hp.of).mono ?_, ?_⟩
      · intro a h i hi
        exact up i (hp.hands (h i hi)).all
      · intro i hi
        exact up i (.inl (touch_keepers hi))

end Verif
