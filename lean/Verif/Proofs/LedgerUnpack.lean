import Verif.Proofs.LedgerPack
/-
Unpacking reads only attributes it has set.
-/
namespace Verif.Threads

variable {α β : Type} {C : ClassId → Prop} {K : Know} {env : Env}

/-- The classes in `C` have supplied serializers and name only classes in `C`. -/
def Furnished (env : Env) (C : ClassId → Prop) : Prop := ∀ c ci, C c → env.classes c = some ci → Fed true C ci.serializer

theorem ioRead_sure (n : Nat) {P : Know → Prop} (h : P K) : Sure C K (fun _ => P) (ioRead n) := Sure.free (fun _ => ⟨_, rfl⟩) h

theorem structUnpackM_sure (s : StructSer) (src : Src) {P : Know → Prop} (h : ∀ L, K.le L → P L) : Sure C K (fun _ => P) (structUnpackM env s src) := by
  cases src with
  | buf b => exact Sure.liftAny _ (h K (.refl K))
  | «at» b off => exact Sure.liftAny _ (h K (.refl K))
  | io => exact Sure.next (ioRead_sure (P := fun _ => True) _ trivial) fun _ L hl => Sure.liftAny _ (h L hl)

theorem structUnpackOpt_sure (s : Option StructSer) (src : Src) {P : Know → Prop} (h : ∀ L, K.le L → P L) :
    Sure C K (fun _ => P) (structUnpackOpt env s src) := by
  cases s
  · exact Sure.pure _ (h K (.refl K))
  · exact structUnpackM_sure _ _ h

theorem structUnpackAny_sure (s : StructSer) (src : Src) : Sure C K (fun _ _ => True) (structUnpackM env s src) :=
  structUnpackM_sure s src (P := fun _ => True) fun _ _ => trivial

/-- Looking at the stream. -/
theorem Sure.getIo {Q : β → Know → Prop} {f : Loc → T β} (k : ∀ l L, K.le L → Sure C L Q (f l)) : Sure C K Q (T.get >>= f) :=
  Sure.next (P := fun _ _ => True) (Sure.free (P := fun _ => True) (fun _ => ⟨_, rfl⟩) trivial) k

theorem modify_sure (f : Loc → Loc) {P : Know → Prop} (h : P K) : Sure C K (fun _ => P) (T.modify f) := Sure.free (fun _ => ⟨_, rfl⟩) h

theorem dynCharUnpack_sure (id : SerId) (st : StructSer) (src : Src) : Sure C K (fun _ L => L.size id) (dynCharUnpack env id st src) := by
  refine Sure.next (structUnpackAny_sure _ _) fun hv _ _ => Sure.next (Sure.lift' _) fun count _ _ =>
    Sure.bind (Sure.setSize id _) fun _ L _ hz => ?_
  cases src with
  | buf b => exact Sure.pure _ hz
  | «at» b off => exact Sure.next (Sure.lift' _) fun _ _ h1 => structUnpackOpt_sure _ _ fun _ h2 => h2.2 _ (h1.2 _ hz)
  | io => exact Sure.next (Sure.lift' _) fun _ _ h1 => structUnpackOpt_sure _ _ fun _ h2 => h2.2 _ (h1.2 _ hz)

theorem consumingUnpack_sure (id : SerId) (src : Src) : Sure C K (fun _ L => L.size id) (consumingUnpack id src) := by
  cases src with
  | buf b => exact Sure.bind (Sure.setSize id _) fun _ _ _ hz => Sure.pure _ hz
  | «at» b off => exact Sure.bind (Sure.setSize id _) fun _ _ _ hz => Sure.pure _ hz
  | io =>
    exact Sure.next (P := fun _ _ => True) (Sure.free (P := fun _ => True) (fun _ => ⟨_, rfl⟩) trivial) fun _ _ _ =>
      Sure.bind (Sure.setSize id _) fun _ _ _ hz => Sure.pure _ hz

theorem terminatedUnpack_sure (id : SerId) (term : Byte) (src : Src) : Sure C K (fun _ L => L.size id) (terminatedUnpack id term src) := by
  cases src with
  | buf b =>
    simp only [terminatedUnpack]
    cases findTerm term b with
    | none => exact Sure.throw _
    | some k => exact Sure.bind (Sure.setSize id _) fun _ _ _ hz => Sure.pure _ hz
  | «at» b off =>
    simp only [terminatedUnpack]
    cases findTerm term (b.drop off) with
    | none => exact Sure.throw _
    | some k => exact Sure.bind (Sure.setSize id _) fun _ _ _ hz => Sure.pure _ hz
  | io =>
    refine Sure.getIo fun st _ _ => ?_
    simp only
    split
    · exact Sure.next (modify_sure (P := fun _ => True) _ trivial) fun _ _ _ => Sure.throw _
    · exact Sure.next (modify_sure (P := fun _ => True) _ trivial) fun _ _ _ => Sure.bind (Sure.setSize id _) fun _ _ _ hz => Sure.pure _ hz

theorem seek_sure (src : Src) (pos : Nat) : Sure C K (fun _ _ => True) (seek src pos) := by
  cases src with
  | buf b => exact Sure.pure _ trivial
  | «at» b off => exact Sure.pure _ trivial
  | io => exact modify_sure (P := fun _ => True) _ trivial

theorem netUnpack_sure (id : SerId) (src : Src) : Sure C K (fun _ L => L.size id) (netUnpack env id src) := by
  refine Sure.getIo fun st _ _ => Sure.next (structUnpackAny_sure _ _) fun hv _ _ => Sure.next (Sure.lift' _) fun c _ _ => ?_
  have tail : ∀ (count size : Nat) {K}, Sure C K (fun _ L => L.size id) (do
      setSize id (size + count)
      match src with
      | .buf b => pure [.bytes ((b.drop size).take count)]
      | .at b off => T.lift (structUnpackFrom env.plat .default [⟨count, .str⟩] b (off + size))
      | .io => do
        let d ← ioRead count
        pure [.bytes d] : T (List Val)) := by
    intro count size K
    refine Sure.bind (Sure.setSize id _) fun _ _ _ hz => ?_
    cases src with
    | buf b => exact Sure.pure _ hz
    | «at» b off => exact Sure.liftAny (P := fun L => L.size id) _ hz
    | io => exact Sure.next (ioRead_sure (P := fun _ => True) _ trivial) fun _ _ h1 => Sure.pure _ (h1.2 _ hz)
  by_cases hc : 128 ≤ c
  · simp only [if_pos hc]
    exact Sure.next (seek_sure _ _) fun _ _ _ => Sure.next (structUnpackAny_sure _ _) fun _ _ _ =>
      Sure.next (Sure.lift' _) fun _ _ _ => Sure.next (Sure.lift' _) fun count _ _ => tail count longLen.size
  · simp only [if_neg hc]
    exact tail c.toNat shortLen.size

theorem unpackLoop_sure {unpackN : Ser → Src → T (List Val)}
    (hN : ∀ s src K, Ready true C K s → Sure C K (Sized s) (unpackN s src)) (src : Src) :
    ∀ ss size K, ReadyList true C K ss → Sure C K (fun _ _ => True) (unpackLoop unpackN src size ss) := by
  intro ss
  induction ss with
  | nil => intro size K _; exact Sure.pure _ trivial
  | cons s ss ih =>
    intro size K hw
    rw [unpackLoop]
    exact Sure.bind (hN _ _ _ hw.1) fun b _ h1 hz => Sure.next (Sure.readSize _ hz) fun sz _ h2 =>
      Sure.next (ih _ _ (hw.2.mono (h1.trans h2))) fun _ _ _ => Sure.pure _ trivial

theorem unpackLoopSpec_sure {unpackN : Ser → Src → T (List Val)}
    (hN : ∀ s src K, Ready true C K s → Sure C K (Sized s) (unpackN s src)) {upd : Upd} (hu : UpdOk upd) (src : Src) :
    ∀ ss p done size K, C p.cls → (∀ s ∈ ss, Fed true C s) → Sure C K (fun _ _ => True) (unpackLoopSpec unpackN upd src p done size ss) := by
  intro ss
  induction ss with
  | nil => intro p done size K _ _; exact Sure.pure _ trivial
  | cons s ss ih =>
    intro p done size K hp hw
    rw [unpackLoopSpec]
    exact Sure.bind (Sure.preunpack (hw s (by simp)) hp) fun s' _ _ hs' => Sure.bind (hN _ _ _ hs'.1) fun vs _ _ hz =>
      Sure.bind (Sure.lift' _) fun p' _ h1 hp' => Sure.next (Sure.readSize _ (hz.mono h1)) fun sz _ _ =>
      Sure.next (ih p' _ _ _ (by rw [hu _ _ _ _ hp']; exact hp) fun s hs => hw s (by simp [hs])) fun _ _ _ => Sure.pure _ trivial

theorem unpackItems_sure {unpackN : Ser → Src → T (List Val)}
    (hN : ∀ s src K, Ready true C K s → Sure C K (Sized s) (unpackN s src)) {item : Ser} (src : Src) :
    ∀ k size K, Ready true C K item → Sure C K (fun _ _ => True) (unpackItems unpackN item src size k) := by
  intro k
  induction k with
  | zero => intro size K _; exact Sure.pure _ trivial
  | succ k ih =>
    intro size K hw
    rw [unpackItems]
    exact Sure.bind (hN _ _ _ hw) fun b _ h1 hz => Sure.next (Sure.readSize _ hz) fun sz _ h2 =>
      Sure.next (ih _ _ (hw.mono (h1.trans h2))) fun _ _ _ => Sure.pure _ trivial

theorem createUnpackWith_sure {unpackN : Upd → Ser → Src → T (List Val)}
    (hN : ∀ upd s src K, UpdOk upd → Ready true C K s → Sure C K (Sized s) (unpackN upd s src)) (he : Furnished env C)
    {cls : ClassId} (hc : C cls) (src : Src) : Sure C K (fun r L => SizeKnown L r.2) (createUnpackWith env unpackN cls src) := by
  unfold createUnpackWith
  cases hci : env.classes cls with
  | none => exact Sure.throw _
  | some ci =>
    exact Sure.bind (Sure.preunpack (he _ _ hc hci) hc) fun s _ _ hs => Sure.bind (hN _ _ _ _ (assignVals_ok _) hs.1) fun vals _ _ hz =>
      Sure.next (Sure.lift' _) fun v _ h1 => Sure.pure _ ((hs.2.2 _ hz).mono h1)

theorem unionUnpack_sure {unpackN : Ser → Src → T (List Val)}
    (hN : ∀ s src K, Ready true C K s → Sure C K (Sized s) (unpackN s src)) (id : SerId) {s : Ser}
    (hs : Ready true C K s) (hl : s.isLazy = false) (src : Src) : Sure C K (fun _ L => L.size id) (unionUnpack unpackN id s src) := by
  unfold unionUnpack
  rw [if_neg (by simp [hl])]
  exact Sure.bind (hN _ _ _ hs) fun _ _ _ hz => Sure.next (Sure.readSize _ hz) fun _ _ _ =>
    Sure.bind (Sure.setSize id _) fun _ _ _ hz => Sure.pure _ hz

theorem rewind_sure (src : Src) {ra : Ser} (h : SizeKnown K ra) : Sure C K (fun _ _ => True) (rewind src ra) := by
  cases src with
  | buf b => exact Sure.pure _ trivial
  | «at» b off => exact Sure.pure _ trivial
  | io => exact Sure.next (Sure.readSize _ h) fun _ _ _ => modify_sure (P := fun _ => True) _ trivial

theorem unpack_sure (he : Furnished env C) :
    ∀ n upd s src K, UpdOk upd → Ready true C K s → Sure C K (Sized s) (unpack env n upd s src) := by
  intro n
  induction n with
  | zero => intro upd s src K _ _; exact Sure.throw _
  | succ n ih =>
    intro upd s src K hu hw
    have ih' := fun s src K => ih noUpd s src K noUpd_ok
    cases s with
    | null => exact Sure.pure _ trivial
    | struct st => exact structUnpackAny_sure _ _
    | dynChar id st => exact dynCharUnpack_sure _ _ _
    | consuming id => exact consumingUnpack_sure _ _
    | terminated id term => exact terminatedUnpack_sure _ _ _
    | net id => exact netUnpack_sure _ _
    | unicode inner enc dec => exact Sure.bind (ih' inner src _ hw) fun _ _ _ hz => Sure.liftAny (P := fun L => SizeKnown L inner) _ hz
    | array id hdr item sl =>
      exact Sure.next (structUnpackOpt_sure (P := fun _ => True) _ _ fun _ _ => trivial) fun hv _ h1 => Sure.next (Sure.lift' _) fun r _ h2 =>
        Sure.bind (Sure.getPart (h2.1 _ (h1.1 _ hw.1))) fun p _ _ hp => Sure.bind (Sure.preunpack hw.2 hp) fun item' _ _ hi =>
        Sure.next (unpackItems_sure ih' _ _ _ _ hi.1) fun _ _ _ => Sure.next (Sure.lift' _) fun _ _ _ =>
        Sure.bind (Sure.setSize id _) fun _ _ _ hz => Sure.pure _ hz
    | staticArr count item ser =>
      exact Sure.next (structUnpackOpt_sure (P := fun _ => True) _ _ fun _ _ => trivial) fun _ _ _ => Sure.pure _ trivial
    | dynArr id cnt item =>
      refine Sure.next (structUnpackAny_sure _ _) fun hv _ _ => ?_
      match hv with
      | [] => exact Sure.throw _
      | [c] =>
        exact Sure.next (Sure.lift' _) fun c _ _ => Sure.next (Sure.lift' _) fun s _ _ =>
          Sure.next (structUnpackOpt_sure (P := fun _ => True) _ _ fun _ _ => trivial) fun _ _ _ =>
          Sure.bind (Sure.setSize id _) fun _ _ _ hz => Sure.pure _ hz
      | _ :: _ :: _ => exact Sure.throw _
    | tuple id inner =>
      refine Sure.bind (Sure.getPart hw.1) fun p _ _ hp => Sure.bind (Sure.preunpack hw.2.1 hp) fun inner' _ _ hi => ?_
      rw [if_neg (by simp [hi.2.1 (hw.2.2 rfl)])]
      exact Sure.bind (ih' _ _ _ hi.1) fun _ _ _ hz => Sure.pure _ (hi.2.2 _ hz)
    | lookback id decider keys opts dflt =>
      exact Sure.bind (Sure.getPart hw.1) fun p _ h1 hp => Sure.next (Sure.lift' _) fun r _ h2 =>
        Sure.bind (Sure.getSerializer false (h2.1 _ (h1.1 _ hw.1)) keys r hw.2) fun s _ _ hs => unionUnpack_sure ih' id hs.1 (hs.2 rfl) _
    | lookahead id ra decider keys opts dflt =>
      obtain ⟨hu1, hu2⟩ := hw.2.2 rfl
      exact Sure.bind (ih' ra _ _ (unaided_ready hu1 hu2)) fun hv _ h1 hz => Sure.next (Sure.lift' _) fun r _ h2 =>
        Sure.next (rewind_sure _ (hz.mono h2)) fun _ _ h3 =>
        Sure.bind (Sure.getSerializer false (h3.1 _ (h2.1 _ (h1.1 _ hw.1))) keys r hw.2.1) fun s _ _ hs =>
        unionUnpack_sure ih' id hs.1 (hs.2 rfl) _
    | cond ser c defs => exact Sure.throw _
    | skip vals => exact Sure.pure _ trivial
    | structured id cls =>
      exact Sure.bind (createUnpackWith_sure (fun upd s src K h1 h2 => ih upd s src K h1 h2) he hw _) fun r _ _ hr =>
        Sure.next (Sure.readSize _ hr) fun _ _ _ => Sure.bind (Sure.setSize id _) fun _ _ _ hz => Sure.pure _ hz
    | selfT id => exact Sure.throw _
    | compound id ss =>
      exact Sure.next (unpackLoop_sure ih' _ _ _ _ hw) fun _ _ _ => Sure.bind (Sure.setSize id _) fun _ _ _ hz => Sure.pure _ hz
    | specialized id p ss =>
      exact Sure.next (unpackLoopSpec_sure ih' hu _ _ _ _ _ _ hw.1 hw.2) fun _ _ _ => Sure.bind (Sure.setSize id _) fun _ _ _ hz => Sure.pure _ hz

theorem reaches_furnished {env : Env} {c : ClassId} (h : ∀ d ci, Reaches env c d → env.classes d = some ci → ci.serializer.supplied true = true) :
    Furnished env (Reaches env c) :=
  fun _ _ hd hci => ⟨h _ _ hd hci, fun _ he => hd.step hci he⟩

theorem objSer_fed {env : Env} {c : ClassId} {bo : Option ByteOrder} {ci : ClassInfo} {ser : Ser} (h : objSer env c bo = .ok (ci, ser))
    (hs : ser.supplied true = true) : Fed true (Reaches env c) ser := by
  refine ⟨hs, fun d hd => ?_⟩
  unfold objSer at h
  cases hci : env.classes c with
  | none => rw [hci] at h; cases h
  | some ci' =>
    rw [hci] at h
    cases bo with
    | none => cases h; exact .step .refl hci hd
    | some b =>
      obtain ⟨s', h1, h2⟩ := Except.bind_ok' h
      cases h2
      exact .step .refl hci ((names_wbo b h1).1 d hd)

/-- Every call with supplied serializers reads only attributes it has set. -/
theorem task_sure (env : Env) (n : Nat) (t : Task) (h : t.Supplied env) : ∃ C : ClassId → Prop, Sure C Know.none (fun _ _ => True) (t.thread env n) := by
  have hst : ∀ v : Val, (∀ c bo attrs ci ser, (c, bo, attrs) ∈ v.nodes → objSer env c bo = .ok (ci, ser) → ser.supplied false = true) → Stocked env [v] :=
    fun v h c bo attrs hm ci ser e => h c bo attrs ci ser (by simpa [Val.nodesList] using hm) e
  cases t with
  | pack v => exact ⟨anyClass, Sure.next (P := fun _ _ => True) (Sure.next (objPack_sure (fun s vs K h k => pack_sure n s vs K h k) (hst v h)) fun _ _ _ => Sure.pure _ trivial)
      fun _ _ _ => Sure.pure _ trivial⟩
  | packInto off v => exact ⟨anyClass, Sure.next (P := fun _ _ => True) (Sure.next (objPackInto_sure (fun s off vs K h k => packInto_sure n s off vs K h k) off (hst v h)) fun _ _ _ => Sure.pure _ trivial)
      fun _ _ _ => Sure.pure _ trivial⟩
  | packWrite v => exact ⟨anyClass, Sure.next (P := fun _ _ => True) (Sure.next (objPackWrite_sure (fun s vs K h k => packWrite_sure n s vs K h k) (hst v h)) fun _ _ _ => Sure.pure _ trivial)
      fun _ _ _ => Sure.pure _ trivial⟩
  | createUnpack cls src =>
    exact ⟨Reaches env cls, Sure.next (P := fun _ _ => True) (Sure.next (createUnpackWith_sure (fun upd s src K h1 h2 => unpack_sure (reaches_furnished h) n upd s src K h1 h2)
      (reaches_furnished h) .refl src) fun _ _ _ => Sure.pure _ trivial) fun _ _ _ => Sure.pure _ trivial⟩
  | unpack v src =>
    cases v with
    | obj cls bo attrs =>
      refine ⟨Reaches env cls, Sure.next (P := fun _ _ => True) ?_ fun _ _ _ => Sure.pure _ trivial⟩
      refine Sure.bind (Sure.lift' _) fun r _ _ hr => ?_
      obtain ⟨ci, ser⟩ := r
      refine Sure.bind (Sure.preunpack (objSer_fed hr (h.2 _ _ hr)) .refl) fun s _ _ hs =>
        Sure.next (unpack_sure (reaches_furnished h.1) n _ s src _ (assignVals_ok _) hs.1) fun vals _ _ => ?_
      split
      · exact Sure.pure _ trivial
      · exact Sure.throw _
    | _ => exact ⟨anyClass, Sure.next (P := fun _ _ => True) (Sure.throw _) fun _ _ _ => Sure.pure _ trivial⟩

/-- So its outcome does not depend on the attributes at its start. -/
theorem supplied_outcome {env : Env} {n : Nat} {t : Task} (h : t.Supplied env) (st1 st2 : St) (hb : st1.buf = st2.buf) (hi : st1.io = st2.io) :
    outcome (t.alone env n st1) = outcome (t.alone env n st2) := by
  obtain ⟨C, hs⟩ := task_sure env n t h
  rw [← run_task, outcome_run, outcome_run, hb, hi]
  exact ((exec_sure _ (hs.run ⟨st2.buf, st2.io⟩) (Know.Same.none st2.cells st1.cells)).1)

end Verif.Threads
