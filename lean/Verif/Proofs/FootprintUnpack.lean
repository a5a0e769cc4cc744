import Verif.Proofs.FootprintPack
/-
Unpacking uses only the serializers of the classes an object is made of.
-/
namespace Verif.Threads

variable {α β : Type} {I : SerId → Prop} {C D : ClassId → Prop} {env : Env}

/-- The classes in `C` have their serializers within. -/
def Closed (env : Env) (I : SerId → Prop) (C D : ClassId → Prop) : Prop :=
  ∀ c ci, C c → env.classes c = some ci → D c ∧ ci.serializer.Within I C D

theorem ioRead_local (n : Nat) : Local I D (fun _ => True) (ioRead n) := Local.free fun _ => ⟨_, rfl⟩

theorem structUnpackM_local (s : StructSer) (src : Src) : Local I D (fun _ => True) (structUnpackM env s src) := by
  cases src with
  | buf b => exact Local.liftAny _
  | «at» b off => exact Local.liftAny _
  | io => exact Local.bindAny (ioRead_local _) fun _ => Local.liftAny _

theorem structUnpackOpt_local (s : Option StructSer) (src : Src) : Local I D (fun _ => True) (structUnpackOpt env s src) := by
  cases s
  · exact Local.pure _ trivial
  · exact structUnpackM_local _ _

/-- Looking at the stream. -/
theorem Local.getIo {Q : β → Prop} {f : Loc → T β} (k : ∀ l, Local I D Q (f l)) : Local I D Q (T.get >>= f) :=
  Local.bindAny (P := fun _ => True) (Local.free fun _ => ⟨_, rfl⟩) k

theorem dynCharUnpack_local {id : SerId} (hi : I id) (st : StructSer) (src : Src) :
    Local I D (fun _ => True) (dynCharUnpack env id st src) := by
  refine Local.bindAny (structUnpackM_local _ _) fun hv => Local.bindAny (Local.liftAny _) fun count =>
    Local.bindAny (Local.setSize hi _) fun _ => ?_
  cases src with
  | buf b => exact Local.pure _ trivial
  | «at» b off => exact Local.bindAny (Local.liftAny _) fun _ => structUnpackOpt_local _ _
  | io => exact Local.bindAny (Local.liftAny _) fun _ => structUnpackOpt_local _ _

theorem consumingUnpack_local {id : SerId} (hi : I id) (src : Src) : Local I D (fun _ => True) (consumingUnpack id src) := by
  cases src with
  | buf b => exact Local.bindAny (Local.setSize hi _) fun _ => Local.pure _ trivial
  | «at» b off => exact Local.bindAny (Local.setSize hi _) fun _ => Local.pure _ trivial
  | io =>
    exact Local.bindAny (P := fun _ => True) (Local.free fun _ => ⟨_, rfl⟩) fun _ =>
      Local.bindAny (Local.setSize hi _) fun _ => Local.pure _ trivial

theorem terminatedUnpack_local {id : SerId} (hi : I id) (term : Byte) (src : Src) :
    Local I D (fun _ => True) (terminatedUnpack id term src) := by
  cases src with
  | buf b =>
    simp only [terminatedUnpack]
    cases findTerm term b with
    | none => exact Local.throw _
    | some k => exact Local.bindAny (Local.setSize hi _) fun _ => Local.pure _ trivial
  | «at» b off =>
    simp only [terminatedUnpack]
    cases findTerm term (b.drop off) with
    | none => exact Local.throw _
    | some k => exact Local.bindAny (Local.setSize hi _) fun _ => Local.pure _ trivial
  | io =>
    refine Local.getIo fun st => ?_
    simp only
    split
    · exact Local.bindAny (P := fun _ => True) (Local.free fun _ => ⟨_, rfl⟩) fun _ => Local.throw _
    · exact Local.bindAny (P := fun _ => True) (Local.free fun _ => ⟨_, rfl⟩) fun _ =>
        Local.bindAny (Local.setSize hi _) fun _ => Local.pure _ trivial

theorem seek_local (src : Src) (pos : Nat) : Local I D (fun _ => True) (seek src pos) := by
  cases src with
  | buf b => exact Local.pure _ trivial
  | «at» b off => exact Local.pure _ trivial
  | io => exact Local.free fun _ => ⟨_, rfl⟩

theorem netUnpack_local {id : SerId} (hi : I id) (src : Src) : Local I D (fun _ => True) (netUnpack env id src) := by
  refine Local.getIo fun st => Local.bindAny (structUnpackM_local _ _) fun hv =>
    Local.bindAny (Local.liftAny _) fun c => ?_
  have tail : ∀ count size : Nat, Local I D (fun _ => True) (do
      setSize id (size + count)
      match src with
      | .buf b => pure [.bytes ((b.drop size).take count)]
      | .at b off => T.lift (structUnpackFrom env.plat .default [⟨count, .str⟩] b (off + size))
      | .io => do
        let d ← ioRead count
        pure [.bytes d] : T (List Val)) := by
    intro count size
    refine Local.bindAny (Local.setSize hi _) fun _ => ?_
    cases src with
    | buf b => exact Local.pure _ trivial
    | «at» b off => exact Local.liftAny _
    | io => exact Local.bindAny (ioRead_local _) fun _ => Local.pure _ trivial
  by_cases hc : 128 ≤ c
  · simp only [if_pos hc]
    exact Local.bindAny (seek_local _ _) fun _ => Local.bindAny (structUnpackM_local _ _) fun _ =>
      Local.bindAny (Local.liftAny _) fun _ => Local.bindAny (Local.liftAny _) fun count => tail count longLen.size
  · simp only [if_neg hc]
    exact tail c.toNat shortLen.size

theorem unpackLoop_local {unpackN : Ser → Src → T (List Val)}
    (hN : ∀ s src, s.Within I C D → Local I D (fun _ => True) (unpackN s src)) (src : Src) :
    ∀ ss size, Ser.WithinList I C D ss → Local I D (fun _ => True) (unpackLoop unpackN src size ss) := by
  intro ss
  induction ss with
  | nil => intro size _; exact Local.pure _ trivial
  | cons s ss ih =>
    intro size hw
    rw [unpackLoop]
    exact Local.bindAny (hN _ _ hw.1) fun b => Local.bindAny (Local.readSize _ hw.1) fun sz =>
      Local.bindAny (ih _ hw.2) fun _ => Local.pure _ trivial

theorem unpackLoopSpec_local {unpackN : Ser → Src → T (List Val)}
    (hN : ∀ s src, s.Within I C D → Local I D (fun _ => True) (unpackN s src)) {upd : Upd} (hu : UpdOk upd) (src : Src) :
    ∀ ss p done size, D p.cls → Ser.WithinList I C D ss → Local I D (fun _ => True) (unpackLoopSpec unpackN upd src p done size ss) := by
  intro ss
  induction ss with
  | nil => intro p done size _ _; exact Local.pure _ trivial
  | cons s ss ih =>
    intro p done size hp hw
    rw [unpackLoopSpec]
    exact Local.bind (Local.preunpack hw.1 hp) fun s' hs' => Local.bindAny (hN _ _ hs') fun vs =>
      Local.bind (Local.lift' _) fun p' hp' => Local.bindAny (Local.readSize _ hs') fun sz =>
      Local.bindAny (ih p' _ _ (by rw [hu _ _ _ _ hp']; exact hp) hw.2) fun _ => Local.pure _ trivial

theorem unpackItems_local {unpackN : Ser → Src → T (List Val)}
    (hN : ∀ s src, s.Within I C D → Local I D (fun _ => True) (unpackN s src)) {item : Ser} (hw : item.Within I C D) (src : Src) :
    ∀ k size, Local I D (fun _ => True) (unpackItems unpackN item src size k) := by
  intro k
  induction k with
  | zero => intro size; exact Local.pure _ trivial
  | succ k ih =>
    intro size
    rw [unpackItems]
    exact Local.bindAny (hN _ _ hw) fun b => Local.bindAny (Local.readSize _ hw) fun sz =>
      Local.bindAny (ih _) fun _ => Local.pure _ trivial

theorem createUnpackWith_local {unpackN : Upd → Ser → Src → T (List Val)}
    (hN : ∀ upd s src, UpdOk upd → s.Within I C D → Local I D (fun _ => True) (unpackN upd s src)) (he : Closed env I C D)
    {cls : ClassId} (hc : C cls) (src : Src) : Local I D (fun r => r.2.Within I C D) (createUnpackWith env unpackN cls src) := by
  unfold createUnpackWith
  cases hci : env.classes cls with
  | none => exact Local.throw _
  | some ci =>
    obtain ⟨hd, hw⟩ := he _ _ hc hci
    exact Local.bind (Local.preunpack hw hd) fun s hs => Local.bindAny (hN _ _ _ (assignVals_ok _) hs) fun vals =>
      Local.bindAny (Local.liftAny _) fun v => Local.pure _ hw

theorem unionUnpack_local {unpackN : Ser → Src → T (List Val)}
    (hN : ∀ s src, s.Within I C D → Local I D (fun _ => True) (unpackN s src)) {id : SerId} (hi : I id) {s : Ser}
    (hs : s.Within I C D) (src : Src) : Local I D (fun _ => True) (unionUnpack unpackN id s src) := by
  unfold unionUnpack
  split
  · exact Local.bindAny (Local.readSize _ hs) fun _ => Local.bindAny (Local.setSize hi _) fun _ => hN _ _ hs
  · exact Local.bindAny (hN _ _ hs) fun _ => Local.bindAny (Local.readSize _ hs) fun _ =>
      Local.bindAny (Local.setSize hi _) fun _ => Local.pure _ trivial

theorem rewind_local (src : Src) {ra : Ser} (h : ra.Within I C D) : Local I D (fun _ => True) (rewind src ra) := by
  cases src with
  | buf b => exact Local.pure _ trivial
  | «at» b off => exact Local.pure _ trivial
  | io => exact Local.bindAny (Local.readSize _ h) fun _ => Local.free fun _ => ⟨_, rfl⟩

theorem unpack_local (he : Closed env I C D) :
    ∀ n upd s src, UpdOk upd → s.Within I C D → Local I D (fun _ => True) (unpack env n upd s src) := by
  intro n
  induction n with
  | zero => intro upd s src _ _; exact Local.throw _
  | succ n ih =>
    intro upd s src hu hw
    have ih' := fun s src => ih noUpd s src noUpd_ok
    cases s with
    | null => exact Local.pure _ trivial
    | struct st => exact structUnpackM_local _ _
    | dynChar id st => exact dynCharUnpack_local hw _ _
    | consuming id => exact consumingUnpack_local hw _
    | terminated id term => exact terminatedUnpack_local hw _ _
    | net id => exact netUnpack_local hw _
    | unicode inner enc dec => exact Local.bindAny (ih' inner src hw) fun _ => Local.liftAny _
    | array id hdr item sl =>
      exact Local.bindAny (structUnpackOpt_local _ _) fun hv => Local.bindAny (Local.liftAny _) fun r =>
        Local.bind (Local.getPart hw.1) fun p hp => Local.bind (Local.preunpack hw.2 hp) fun item' hi =>
        Local.bindAny (unpackItems_local ih' hi _ _ _) fun _ => Local.bindAny (Local.liftAny _) fun _ =>
        Local.bindAny (Local.setSize hw.1 _) fun _ => Local.pure _ trivial
    | staticArr count item ser => exact Local.bindAny (structUnpackOpt_local _ _) fun _ => Local.pure _ trivial
    | dynArr id cnt item =>
      refine Local.bindAny (structUnpackM_local _ _) fun hv => ?_
      match hv with
      | [] => exact Local.throw _
      | [c] =>
        exact Local.bindAny (Local.liftAny _) fun c => Local.bindAny (Local.liftAny _) fun s =>
          Local.bindAny (structUnpackOpt_local _ _) fun _ => Local.bindAny (Local.setSize hw _) fun _ => Local.pure _ trivial
      | _ :: _ :: _ => exact Local.throw _
    | tuple id inner =>
      refine Local.bind (Local.getPart hw.1) fun p hp => Local.bind (Local.preunpack hw.2 hp) fun inner' hi => ?_
      split
      · exact Local.pure _ trivial
      · exact Local.bindAny (ih' _ _ hi) fun _ => Local.pure _ trivial
    | lookback id decider keys opts dflt =>
      exact Local.bind (Local.getPart hw.1) fun p hp => Local.bindAny (Local.liftAny _) fun r =>
        Local.bind (Local.getSerializer false hw.1 keys r hw.2.1 hw.2.2) fun s hs => unionUnpack_local ih' hw.1 hs _
    | lookahead id ra decider keys opts dflt =>
      exact Local.bindAny (ih' _ _ hw.2.1) fun hv => Local.bindAny (Local.liftAny _) fun r =>
        Local.bindAny (rewind_local _ hw.2.1) fun _ =>
        Local.bind (Local.getSerializer false hw.1 keys r hw.2.2.1 hw.2.2.2) fun s hs => unionUnpack_local ih' hw.1 hs _
    | cond ser c defs => exact Local.throw _
    | skip vals => exact Local.pure _ trivial
    | structured id cls =>
      exact Local.bind (createUnpackWith_local (fun upd s src h1 h2 => ih upd s src h1 h2) he hw.2 _) fun r hr =>
        Local.bindAny (Local.readSize _ hr) fun _ => Local.bindAny (Local.setSize hw.1 _) fun _ => Local.pure _ trivial
    | selfT id => exact Local.throw _
    | compound id ss =>
      exact Local.bindAny (unpackLoop_local ih' _ _ _ hw.2) fun _ =>
        Local.bindAny (Local.setSize hw.1 _) fun _ => Local.pure _ trivial
    | specialized id p ss =>
      exact Local.bindAny (unpackLoopSpec_local ih' hu _ _ _ _ _ hw.2.1 hw.2.2) fun _ =>
        Local.bindAny (Local.setSize hw.1 _) fun _ => Local.pure _ trivial

theorem createUnpack_local (he : Closed env I C D) (n : Nat) {cls : ClassId} (hc : C cls) (src : Src) :
    Local I D (fun _ => True) (createUnpack env n cls src) :=
  Local.bindAny (createUnpackWith_local (fun upd s src h1 h2 => unpack_local he n upd s src h1 h2) he hc src) fun _ => Local.pure _ trivial

end Verif.Threads
