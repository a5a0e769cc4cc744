import Verif.Proofs.RefinePack
import Verif.Proofs.StreamLemmas
/-
`pack_write` writes `Sem.enc`, from every state; what it has written when it fails is `Sem.wrote`.
-/
namespace Verif
open Sem

/-- `w` was written to the stream; apart from that only serializer cells changed. -/
def FrW (w : Bytes) (st st' : St) : Prop := st'.buf = st.buf ∧ st'.io = st.io.write w

theorem FrW.of_fr {st st' : St} (h : Fr st st') : FrW [] st st' :=
  ⟨h.1, by rw [Stream.write_nil]; exact h.2⟩

theorem FrW.trans {w v : Bytes} {a b c : St} (h : FrW w a b) (k : FrW v b c) : FrW (w ++ v) a c :=
  ⟨k.1.trans h.1, by rw [k.2, h.2, Stream.write_append]⟩

theorem Fr.transW {w : Bytes} {a b c : St} (h : Fr a b) (k : FrW w b c) : FrW w a c :=
  ⟨k.1.trans h.1, by rw [k.2, h.2]⟩

theorem FrW.transFr {w : Bytes} {a b c : St} (h : FrW w a b) (k : Fr b c) : FrW w a c :=
  ⟨k.1.trans h.1, by rw [k.2, h.2]⟩

structure WPost (s : Ser) (r : Enc) (w : Bytes) (st st' : St) : Prop where
  fr : FrW r.bytes st st'
  size : SizeIs s r.bytes.length st'
  keeps : Keeps r.touched st st'
  wrote : w = r.bytes

def WriteRel (packN : Ser → List Val → M Unit) (encN : Ser → Option PObj → List Val → Out Enc)
    (wroteN : Ser → Option PObj → List Val → Bytes) : Prop :=
  ∀ s q vs st, Primed s q st →
    Rel (FrW (wroteN s q vs) st) (packN s vs) (encN s q vs) st
      (fun _ r st' => WPost s r (wroteN s q vs) st st')

theorem packWriteLoop_rel {packN : Ser → List Val → M Unit} {encN : Ser → Option PObj → List Val → Out Enc}
    {wroteN : Ser → Option PObj → List Val → Bytes}
    (hN : WriteRel packN encN wroteN) {preM : Ser → M Ser}
    {preF : Ser → Except Err (Ser × Option PObj)} {tch : Ser → List SerId}
    (hpre : ∀ s st, Rel (Fr st) (preM s) (.ofE (preF s)) st
      (fun s' r st' => s' = r.1 ∧ Primed r.1 r.2 st' ∧ Fr st st' ∧ Keeps (tch s) st st')) :
    ∀ ss vals size st, Rel (FrW (wroteLoop encN wroteN preF ss vals) st)
      (packWriteLoop packN preM size ss vals) (encLoop encN preF tch ss vals) st
      (fun t r st' => t = size + r.bytes.length ∧ wroteLoop encN wroteN preF ss vals = r.bytes ∧
        FrW r.bytes st st' ∧ Keeps r.touched st st') := by
  intro ss
  induction ss with
  | nil => intro vals size st; exact Rel.pure ⟨rfl, rfl, FrW.of_fr (Fr.refl _), Keeps.refl _ _⟩
  | cons s ss ih =>
    intro vals size st
    rw [packWriteLoop, encLoop]
    refine Rel.bind ((hpre s st).conv (Φ' := fun s' r st' => preF s = .ok r ∧ s' = r.1 ∧
      Primed r.1 r.2 st' ∧ Fr st st' ∧ Keeps (tch s) st st') ?_ ?_) ?_
    · intro e st' ho hf
      simp only [wroteLoop, ofE_err ho]
      exact FrW.of_fr hf
    · intro a b st' ho h
      exact ⟨ofE_ok ho, h⟩
    rintro s' ⟨s'', q⟩ st1 ⟨hpe, rfl, hp, hf1, hk1⟩
    refine Rel.bind ((hN s' q _ st1 hp).conv (Φ' := fun _ r st' => encN s' q (vals.take s'.numValues) = .ok r ∧
      WPost s' r _ st1 st') ?_ (fun a b st' ho h => ⟨ho, h⟩)) ?_
    · intro e st' ho hf
      simp only [wroteLoop, hpe, ho]
      exact hf1.transW hf
    rintro _ a st2 ⟨hen, post⟩
    have hw : wroteLoop encN wroteN preF (s :: ss) vals = a.bytes ++
        (if s'.sized then wroteLoop encN wroteN preF ss (vals.drop s'.numValues) else []) := by
      simp only [wroteLoop, hpe, hen]
    by_cases hs : s'.sized = true
    · simp only [hs, ↓reduceIte] at hw
      rw [if_neg (by simp [hs])]
      refine Rel.step (post.size hs) ?_
      have h := (ih (vals.drop s'.numValues) (size + a.bytes.length) st2)
      revert h
      show Rel _ _ _ _ _ → Rel _ _ (encLoop encN preF tch ss (vals.drop s'.numValues) >>= _) _ _
      intro h
      have hf2 := hf1.transW post.fr
      cases ho : encLoop encN preF tch ss (vals.drop s'.numValues) with
      | stuck => trivial
      | err e =>
        rw [ho] at h
        obtain ⟨st3, h1, h2⟩ := h
        exact ⟨st3, h1, by rw [hw]; exact hf2.trans h2⟩
      | ok r =>
        rw [ho] at h
        obtain ⟨t, st3, h1, rfl, h3, h4, h5⟩ := h
        refine ⟨_, st3, h1, by simp; omega, by rw [hw, h3], hf2.trans h4,
          (hk1.trans post.keeps).trans h5⟩
    · rw [if_pos hs]
      refine ⟨st2, ?_, ?_⟩
      · show M.bind _ _ _ = _
        simp [M.bind, readSize_unsized s' (by simpa using hs) st2]
      · rw [hw, if_neg hs, List.append_nil]
        exact hf1.transW post.fr

theorem ioWrite_run (b : Bytes) (st : St) :
    ioWrite b st = .ok () { st with io := st.io.write b } := rfl

/-- A leaf: prepare, set the size, write. -/
theorem Rel.writeLeaf {s : Ser} {id : SerId} {e : Except Err (StructSer × List Val)} {P : Platform} {st : St}
    (hs : ∀ st', s.readSize st' = .ok ((st'.cells id).size) st') :
    Rel (FrW (okBytes (encLeaf (do let (t, vals) ← e; t.pack P vals))) st)
      (do let (t, vals) ← M.lift e; setSize id t.size; ioWrite (← M.lift (t.pack P vals)))
      (encLeaf (do let (t, vals) ← e; t.pack P vals)) st
      (fun _ r st' => WPost s r (okBytes (encLeaf (do let (t, vals) ← e; t.pack P vals))) st st') := by
  cases e with
  | error e => exact ⟨st, rfl, FrW.of_fr (Fr.refl _)⟩
  | ok tv =>
    obtain ⟨t, vals⟩ := tv
    refine Rel.step (a := (t, vals)) rfl (Rel.step (setSize_run ..) ?_)
    show Rel (FrW (okBytes (encLeaf (t.pack P vals))) st) _ (encLeaf (t.pack P vals)) _
      (fun _ r st' => WPost s r (okBytes (encLeaf (t.pack P vals))) st st')
    cases hb : t.pack P vals with
    | error e => exact ⟨_, rfl, FrW.of_fr (Fr.withSize ..)⟩
    | ok b =>
      refine ⟨(), _, rfl, ⟨rfl, rfl⟩, ?_, ?_, rfl⟩
      · intro _; rw [hs]
        simp [structSer_pack_length hb]
      · exact Keeps.withSize _ _ _

theorem objPackWrite_rel {env : Env} {packN : Ser → List Val → M Unit}
    {encN : Ser → Option PObj → List Val → Out Enc} {wroteN : Ser → Option PObj → List Val → Bytes}
    (hN : WriteRel packN encN wroteN) (v : Val) (w : Bytes) (st : St)
    (hw : w = match v with
      | .obj cls bo attrs => match objSer env cls bo with
        | .error _ => []
        | .ok (ci, ser) => match pre ser ⟨cls, false, attrs⟩, getAttrs attrs ci.attrs with
          | .ok (s, q'), .ok vals => wroteN s q' vals
          | _, _ => []
      | _ => []) :
    Rel (FrW w st) (objPackWrite env packN v) (encObj env encN v) st
      (fun ser r st' => ser = r.2 ∧ w = r.1.bytes ∧ FrW r.1.bytes st st' ∧
        SizeIs r.2 r.1.bytes.length st' ∧ Keeps r.1.touched st st') := by
  cases v with
  | obj cls bo attrs =>
    simp only [objPackWrite, encObj]
    simp only at hw
    cases ho : objSer env cls bo with
    | error e =>
      rw [ho] at hw
      subst hw
      exact ⟨st, rfl, FrW.of_fr (Fr.refl _)⟩
    | ok cs =>
      obtain ⟨ci, ser⟩ := cs
      rw [ho] at hw
      simp only at hw
      refine Rel.step (a := (ci, ser)) rfl (Rel.stepR (b := (ci, ser)) rfl ?_)
      refine Rel.bind ((prepack_rel ser _ st).conv ?_ (fun _ _ _ _ h => h)) ?_
      · intro e st' he hf
        rw [ofE_err he] at hw
        subst hw
        exact FrW.of_fr hf
      rintro s' ⟨s'', q⟩ st1 ⟨rfl, hpre, hp, hf1, hk1⟩
      rw [hpre] at hw
      cases ha : getAttrs attrs ci.attrs with
      | error e =>
        rw [ha] at hw
        subst hw
        exact ⟨st1, rfl, FrW.of_fr hf1⟩
      | ok vals =>
        rw [ha] at hw
        simp only at hw
        refine Rel.step (a := vals) rfl (Rel.stepR (b := vals) rfl ?_)
        refine Rel.bind ((hN s' q vals _ hp).mono (fun _ h => by rw [hw]; exact hf1.transW h)
          (fun _ _ _ h => h)) ?_
        rintro _ a st2 post
        refine Rel.pure ⟨rfl, by rw [hw]; exact post.wrote, hf1.transW post.fr, ?_, hk1.trans post.keeps⟩
        intro hs
        obtain ⟨h1, h2⟩ := pre_readSize hpre hs
        show ser.readSize st2 = _
        rw [h1]
        exact post.size h2
  | _ =>
    subst hw
    exact Rel.throw (FrW.of_fr (Fr.refl _))

theorem packWriteUnion_rel {packN : Ser → List Val → M Unit}
    {encN : Ser → Option PObj → List Val → Out Enc} {wroteN : Ser → Option PObj → List Val → Bytes}
    (hN : WriteRel packN encN wroteN) {u : Ser} {id : SerId} {d : Decider} {keys : List Val}
    {opts : List Ser} {dflt : Ser} {p : PObj} {vs : List Val} {st : St} {w : Bytes}
    (hg : getPart id st = .ok p st)
    (hs : ∀ st', u.readSize st' = .ok ((st'.cells id).size) st')
    (hw : w = match (do pre (← unionPick keys opts dflt (← d p)) p) with
        | .ok (s', q') => wroteN s' q' vs
        | .error _ => []) :
    Rel (FrW w st) (do
        let r ← M.lift (d p)
        let s ← getSerializer true id keys opts dflt r
        packN s vs
        setSize id (← s.readSize))
      (do let r ← .ofE (d p); encUnion encN keys opts dflt p r vs) st
      (fun _ r st' => WPost u r w st st') := by
  cases hd : d p with
  | error e =>
    simp only [hd, bind, Except.bind] at hw
    subst hw
    exact ⟨st, rfl, FrW.of_fr (Fr.refl _)⟩
  | ok r =>
    refine Rel.step (a := r) rfl (Rel.stepR (b := r) rfl ?_)
    unfold encUnion
    cases hu : unionPick keys opts dflt r with
    | error e =>
      simp only [hd, hu, bind, Except.bind] at hw
      subst hw
      refine ⟨st, ?_, FrW.of_fr (Fr.refl _)⟩
      show M.bind (M.bind _ _) _ _ = _
      simp [M.bind, M.lift, hu]
    | ok s =>
      have e1 : getSerializer true id keys opts dflt r st = s.prepack p st := by
        show M.bind _ _ st = _
        simp only [M.bind, M.lift, hu]
        show M.bind _ _ st = _
        simp only [M.bind, hg]; rfl
      have hpr := prepack_rel s p st
      show Rel (FrW w st) _ (Out.ofE (pre s p) >>= _) st _
      refine Rel.bind (x := getSerializer true id keys opts dflt r) (o := Out.ofE (pre s p))
        (Φ := fun s' x st' => s' = x.1 ∧ pre s p = .ok x ∧ Primed x.1 x.2 st' ∧ Fr st st' ∧
          Keeps (touch s) st st') ?_ ?_
      · unfold Rel at hpr ⊢
        rw [e1]
        cases hpe : pre s p with
        | error e =>
          simp only [hd, hu, hpe, bind, Except.bind] at hw
          subst hw
          rw [hpe] at hpr
          obtain ⟨st', h1, h2⟩ := hpr
          exact ⟨st', h1, FrW.of_fr h2⟩
        | ok x => rw [hpe] at hpr; exact hpr
      rintro s' ⟨s'', q⟩ st1 ⟨rfl, hpre, hp, hf1, hk1⟩
      simp only [hd, hu, hpre, bind, Except.bind] at hw
      refine Rel.bind ((hN s' q vs _ hp).mono (fun _ h => by rw [hw]; exact hf1.transW h)
          (fun _ _ _ h => h)) ?_
      rintro _ a st2 post
      have hw2 : w = a.bytes := hw.trans post.wrote
      have hf2 := hf1.transW post.fr
      refine Rel.size (by rw [hw2]; exact hf2) post.size ?_
      intro _
      refine ⟨(), _, setSize_run _ _ st2, hf2.transFr (Fr.withSize ..), ?_, ?_, hw2⟩
      · intro _; rw [hs]; simp
      · simpa using (hk1.trans post.keeps).trans (Keeps.withSize st2 id a.bytes.length)

/-- `pack_write` writes `Sem.enc`. -/
theorem packWrite_rel (env : Env) (n : Nat) : WriteRel (packWrite env n) (enc env n) (wrote env n) := by
  induction n with
  | zero => intro s q vs st _; exact Rel.throw (FrW.of_fr (Fr.refl _))
  | succ n ih =>
    intro s q vs st hp
    cases s with
    | null => exact Rel.pure ⟨FrW.of_fr (Fr.refl _), fun _ => rfl, Keeps.refl _ _, rfl⟩
    | struct s =>
      simp only [packWrite, wrote, enc]
      cases h : s.pack env.plat vs with
      | error e => exact ⟨st, rfl, FrW.of_fr (Fr.refl _)⟩
      | ok b =>
        refine ⟨(), _, rfl, ⟨rfl, rfl⟩, fun _ => ?_, Keeps.refl _ _, rfl⟩
        rw [structSer_pack_length h]; rfl
    | dynChar id s => exact Rel.writeLeaf (fun _ => rfl)
    | net id => exact Rel.writeLeaf (fun _ => rfl)
    | dynArr id c i => exact Rel.writeLeaf (fun _ => rfl)
    | consuming id =>
      simp only [packWrite, wrote, enc]
      cases h : consumeData vs with
      | error e => exact ⟨st, rfl, FrW.of_fr (Fr.refl _)⟩
      | ok b =>
        refine ⟨(), _, rfl, ⟨rfl, rfl⟩, fun _ => ?_, Keeps.withSize _ _ _, rfl⟩
        simp [Ser.readSize, getCellSize]
    | terminated id term =>
      simp only [packWrite, wrote, enc]
      cases ht : termData term vs with
      | error e => exact ⟨st, rfl, FrW.of_fr (Fr.refl _)⟩
      | ok b =>
        refine Rel.step (a := b) rfl (Rel.step (setSize_run ..) ?_)
        show Rel (FrW (okBytes (encLeaf (do packOpt env.plat (← singleChar.matmul b.length) [.bytes b]))) st)
          _ (encLeaf (do packOpt env.plat (← singleChar.matmul b.length) [.bytes b])) _
          (fun _ r st' => WPost (.terminated id term) r
            (okBytes (encLeaf (do packOpt env.plat (← singleChar.matmul b.length) [.bytes b]))) st st')
        cases hx : (do packOpt env.plat (← singleChar.matmul b.length) [.bytes b] : Except Err Bytes) with
        | error e => exact ⟨_, rfl, FrW.of_fr (Fr.withSize ..)⟩
        | ok c =>
          refine ⟨(), _, rfl, ⟨rfl, rfl⟩, fun hh => ?_, Keeps.withSize _ _ _, rfl⟩
          simp [Ser.readSize, getCellSize, termPack_length hx]
    | unicode inner en de =>
      simp only [packWrite, enc, wrote]
      cases he : (do en (← first vs)) with
      | error e => exact ⟨st, rfl, FrW.of_fr (Fr.refl _)⟩
      | ok b =>
        refine Rel.step (a := b) rfl (Rel.stepR (b := b) rfl ?_)
        exact (ih inner none _ _ (Primed.none _ _)).mono (fun _ h => h)
          (fun _ _ _ h => ⟨h.fr, h.size, h.keeps, h.wrote⟩)
    | array id hdr item sl =>
      have h := pack_rel env (n + 1) (.array id hdr item sl) q vs st hp
      simp only [packWrite, wrote]
      cases ho : enc env (n + 1) (.array id hdr item sl) q vs with
      | stuck => trivial
      | err e =>
        rw [ho] at h
        obtain ⟨st', h1, h2⟩ := h
        refine ⟨st', ?_, FrW.of_fr h2⟩
        show M.bind _ _ _ = _
        simp [M.bind, h1]
      | ok r =>
        rw [ho] at h
        obtain ⟨b, st', h1, rfl, post⟩ := h
        refine ⟨(), { st' with io := st'.io.write r.bytes }, ?_, ⟨post.fr.1, ?_⟩, ?_, post.keeps, rfl⟩
        · show M.bind _ _ _ = _
          simp [M.bind, h1, ioWrite_run]
        · show st'.io.write _ = _
          rw [post.fr.2]
        · intro hh
          have := post.size hh
          simp only [Ser.readSize, getCellSize, Res.ok.injEq] at this ⊢
          exact ⟨this.1, trivial⟩
    | staticArr count item ser =>
      simp only [packWrite, enc, wrote]
      cases h : staticArrPrep count vs with
      | error e => exact ⟨st, rfl, FrW.of_fr (Fr.refl _)⟩
      | ok items =>
        refine Rel.step (a := items) rfl ?_
        simp only [bind, Except.bind]
        cases hb : packOpt env.plat ser items with
        | error e => exact ⟨st, rfl, FrW.of_fr (Fr.refl _)⟩
        | ok b =>
          refine ⟨(), _, rfl, ⟨rfl, rfl⟩, fun _ => ?_, Keeps.refl _ _, rfl⟩
          rw [packOpt_length hb]; rfl
    | tuple id inner =>
      simp only [packWrite, enc, wrote]
      rcases vs with _ | ⟨v, _ | ⟨w, ws⟩⟩
      · cases q <;> exact Rel.throw (FrW.of_fr (Fr.refl _))
      · cases q with
        | none => trivial
        | some p =>
          refine Rel.step (hp.getPart rfl) ?_
          refine Rel.bind ((prepack_rel inner p st).conv ?_ (fun _ _ _ _ h => h)) ?_
          · intro e st' he hf
            simp only [ofE_err he]
            exact FrW.of_fr hf
          rintro inner' ⟨i', qi⟩ st1 ⟨rfl, hpre, hp1, hf1, hk1⟩
          simp only [hpre]
          cases hv : pyIter v with
          | error e => exact ⟨st1, rfl, FrW.of_fr hf1⟩
          | ok vals =>
            refine Rel.step (a := vals) rfl (Rel.stepR (b := vals) rfl ?_)
            have h := (ih inner' qi vals _ hp1)
            show Rel _ _ (enc env n inner' qi vals >>= _) _ _
            cases he : enc env n inner' qi vals with
            | stuck => trivial
            | err e =>
              rw [he] at h
              obtain ⟨st2, h1, h2⟩ := h
              exact ⟨st2, h1, hf1.transW h2⟩
            | ok r =>
              rw [he] at h
              obtain ⟨_, st2, hb, post⟩ := h
              refine ⟨_, st2, hb, hf1.transW post.fr, ?_, hk1.trans post.keeps, post.wrote⟩
              intro hs
              obtain ⟨h1, h2⟩ := pre_readSize hpre (by simpa [Ser.sized] using hs)
              show inner.readSize st2 = _
              rw [h1]
              exact post.size h2
      · cases q <;> exact Rel.throw (FrW.of_fr (Fr.refl _))
    | lookback id d k o df =>
      simp only [packWrite, enc]
      cases q with
      | none => trivial
      | some p =>
        have hg := hp.getPart (id := id) rfl
        exact Rel.step hg (packWriteUnion_rel ih hg (fun _ => rfl) rfl)
    | lookahead id ra d k o df =>
      simp only [packWrite, enc]
      cases q with
      | none => trivial
      | some p =>
        have hg := hp.getPart (id := id) rfl
        exact Rel.step hg (packWriteUnion_rel ih hg (fun _ => rfl) rfl)
    | cond => exact Rel.throw (FrW.of_fr (Fr.refl _))
    | skip vals => exact Rel.pure ⟨FrW.of_fr (Fr.refl _), fun _ => rfl, Keeps.refl _ _, rfl⟩
    | structured id cls =>
      rcases vs with _ | ⟨v, _ | ⟨w, ws⟩⟩
      · exact Rel.throw (FrW.of_fr (Fr.refl _))
      · have hw : ∃ w, w = wrote env (n + 1) (.structured id cls) q [v] := ⟨_, rfl⟩
        obtain ⟨w, hw⟩ := hw
        rw [← hw]
        simp only [packWrite, enc]
        refine Rel.bind (objPackWrite_rel ih v w st ?_) ?_
        · rw [hw]
          cases v <;> simp only [wrote]
          rfl
        rintro ser ⟨r, ser'⟩ st1 ⟨hb1, hb2, hf1, hs1, hk1⟩
        simp only at hb1 hb2 hs1 hk1 hf1
        subst hb1
        refine Rel.size (by rw [hb2]; exact hf1) hs1 ?_
        intro _
        refine ⟨(), _, setSize_run _ _ st1, hf1.transFr (Fr.withSize ..), ?_, ?_, hb2⟩
        · intro _; simp [Ser.readSize, getCellSize]
        · simpa using hk1.trans (Keeps.withSize st1 id r.bytes.length)
      · have hw : wrote env (n + 1) (.structured id cls) q (v :: w :: ws) = [] := by
          cases v <;> rfl
        rw [hw]
        exact Rel.throw (FrW.of_fr (Fr.refl _))
    | selfT => exact Rel.throw (FrW.of_fr (Fr.refl _))
    | compound id ss =>
      simp only [packWrite, enc, wrote]
      have h := packWriteLoop_rel ih (preM := pure) (preF := fun s => .ok (s, none)) (tch := fun _ => [])
        (by intro s st; exact ⟨s, st, rfl, rfl, Primed.none _ _, Fr.refl _, Keeps.refl _ _⟩) ss vs 0 st
      revert h
      cases encLoop (enc env n) (fun s => .ok (s, none)) (fun _ => []) ss vs with
      | stuck => intro _; trivial
      | err e =>
        rintro ⟨st', h1, h2⟩
        refine ⟨st', ?_, h2⟩
        show M.bind _ _ _ = _
        simp [M.bind, h1]
      | ok r =>
        rintro ⟨t, st', h1, rfl, h3, h4, h5⟩
        refine ⟨(), st'.withSize id r.bytes.length, ?_, h4.transFr (Fr.withSize ..), ?_, ?_, h3⟩
        · show M.bind _ _ _ = _
          simp only [M.bind, h1, Nat.zero_add]; rfl
        · intro _; simp [Ser.readSize, getCellSize]
        · simpa using h5.trans (Keeps.withSize st' id r.bytes.length)
    | specialized id p ss =>
      simp only [packWrite, enc, wrote]
      have h := packWriteLoop_rel ih (preM := fun s => s.prepack p) (preF := fun s => pre s p) (tch := touch)
        (fun s st => (prepack_rel s p st).mono (fun _ h => h) (fun _ _ _ h => ⟨h.1, h.2.2⟩)) ss vs 0 st
      revert h
      cases encLoop (enc env n) (fun s => pre s p) touch ss vs with
      | stuck => intro _; trivial
      | err e =>
        rintro ⟨st', h1, h2⟩
        refine ⟨st', ?_, h2⟩
        show M.bind _ _ _ = _
        simp [M.bind, h1]
      | ok r =>
        rintro ⟨t, st', h1, rfl, h3, h4, h5⟩
        refine ⟨(), st'.withSize id r.bytes.length, ?_, h4.transFr (Fr.withSize ..), ?_, ?_, h3⟩
        · show M.bind _ _ _ = _
          simp only [M.bind, h1, Nat.zero_add]; rfl
        · intro _; simp [Ser.readSize, getCellSize]
        · simpa using h5.trans (Keeps.withSize st' id r.bytes.length)

end Verif
