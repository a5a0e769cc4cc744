import Verif.Proofs.LedgerBasic
/-
Packing reads only attributes it has set.
-/
namespace Verif.Threads

variable {α β : Type} {K : Know} {env : Env}

/-- The serializers of all objects in these values are supplied. -/
def Stocked (env : Env) (vs : List Val) : Prop :=
  ∀ c bo attrs, (c, bo, attrs) ∈ Val.nodesList vs → ∀ ci ser, objSer env c bo = .ok (ci, ser) → ser.supplied false = true

/-- No condition on classes when packing. -/
abbrev anyClass : ClassId → Prop := fun _ => True

theorem Stocked.of {vs ws : List Val} (h : Stocked env vs) (k : ∀ x, x ∈ Val.nodesList ws → x ∈ Val.nodesList vs) : Stocked env ws :=
  fun c bo attrs hm => h c bo attrs (k _ hm)

theorem Stocked.sub {vs ws : List Val} (h : Stocked env vs) (k : ∀ v, v ∈ ws → v ∈ vs) : Stocked env ws :=
  h.of fun _ hx => by
    obtain ⟨v, hv, hx⟩ := nodesList_mem.1 hx
    exact nodesList_mem.2 ⟨v, k v hv, hx⟩

theorem Stocked.take {vs : List Val} (h : Stocked env vs) (k : Nat) : Stocked env (vs.take k) := h.sub fun _ => List.mem_of_mem_take
theorem Stocked.drop {vs : List Val} (h : Stocked env vs) (k : Nat) : Stocked env (vs.drop k) := h.sub fun _ => List.mem_of_mem_drop
theorem Stocked.first {vs : List Val} {v : Val} (h : Stocked env vs) (e : first vs = .ok v) : Stocked env [v] :=
  h.of fun _ hx => first_nodes e (by simpa [Val.nodesList] using hx)
theorem Stocked.iter {v : Val} {vs : List Val} (h : Stocked env [v]) (e : pyIter v = .ok vs) : Stocked env vs :=
  h.of fun _ hx => by simpa [Val.nodesList] using pyIter_nodes e hx
theorem Stocked.bytes (b : Bytes) : Stocked env [.bytes b] := fun _ _ _ h => by simp [Val.nodesList, Val.nodes] at h
theorem Stocked.head {v : Val} {vs : List Val} (h : Stocked env (v :: vs)) : Stocked env [v] := h.sub fun _ hm => by simp_all
theorem Stocked.tail {v : Val} {vs : List Val} (h : Stocked env (v :: vs)) : Stocked env vs := h.sub fun _ hm => by simp_all

theorem stocked_attrs {c : ClassId} {bo : Option ByteOrder} {attrs : List (Name × Val)} {names : List Name} {vals : List Val}
    (h : Stocked env [.obj c bo attrs]) (e : getAttrs attrs names = .ok vals) : Stocked env vals :=
  h.of fun x hx => by
    have := getAttrs_nodes e hx
    simp [Val.nodesList, Val.nodes, this]

theorem stocked_fed {c : ClassId} {bo : Option ByteOrder} {attrs : List (Name × Val)} (h : Stocked env [.obj c bo attrs]) {ci : ClassInfo}
    {ser : Ser} (e : objSer env c bo = .ok (ci, ser)) : Fed false anyClass ser :=
  ⟨h c bo attrs (by simp [Val.nodesList, Val.nodes]) _ _ e, fun _ _ => trivial⟩

/-- The size of `s` is known afterwards. -/
abbrev Sized (s : Ser) : α → Know → Prop := fun _ L => SizeKnown L s

/-- An intermediate reply of which only `P` is needed. -/
theorem Sure.next {C : ClassId → Prop} {x : T α} {f : α → T β} {P : α → Know → Prop} {Q : β → Know → Prop} (h : Sure C K P x)
    (k : ∀ a L, K.le L → Sure C L Q (f a)) : Sure C K Q (x >>= f) := h.bind fun a L hl _ => k a L hl

theorem Sure.liftAny {C : ClassId → Prop} (e : Except Err α) {P : Know → Prop} (h : P K) : Sure C K (fun _ => P) (T.lift e) := Sure.lift fun _ _ => h

theorem Sure.weaken {C : ClassId → Prop} {x : T α} {P Q : α → Know → Prop} (h : Sure C K P x) (k : ∀ a L, P a L → Q a L) : Sure C K Q x :=
  ⟨fun l => sure_mono _ K (h.run l) fun _ L hy a e => k a L (hy a e)⟩

theorem readyList_mem {unp : Bool} {C : ClassId → Prop} {ss : List Ser} : ReadyList unp C K ss ↔ ∀ s ∈ ss, Ready unp C K s := by
  induction ss with
  | nil => simp [ReadyList]
  | cons s ss ih => simp [ReadyList, ih]

theorem packLoop_sure {packN : Ser → List Val → T Bytes}
    (hN : ∀ s vs K, Ready false anyClass K s → Stocked env vs → Sure anyClass K (Sized s) (packN s vs))
    {pre : Ser → T Ser} :
    ∀ ss vals K, (∀ s ∈ ss, ∀ L, K.le L → Sure anyClass L (fun s' M => Ready false anyClass M s') (pre s)) → Stocked env vals →
      Sure anyClass K (fun _ _ => True) (packLoop packN pre ss vals) := by
  intro ss
  induction ss with
  | nil => intro vals K _ _; exact Sure.pure _ trivial
  | cons s ss ih =>
    intro vals K hw hv
    rw [packLoop]
    refine Sure.bind (hw s (by simp) K (.refl K)) fun s' L h1 hs' => Sure.bind (hN _ _ _ hs' (hv.take _)) fun b L h2 hz =>
      Sure.next (Sure.readSize _ hz) fun sz L h3 => ?_
    have hl0 := h1.trans (h2.trans h3)
    exact Sure.next (ih _ _ (fun s hs L hl => hw s (by simp [hs]) L (hl0.trans hl)) (hv.drop _)) fun _ _ _ => Sure.pure _ trivial

theorem packItems_sure {packN : Ser → List Val → T Bytes}
    (hN : ∀ s vs K, Ready false anyClass K s → Stocked env vs → Sure anyClass K (Sized s) (packN s vs))
    {item : Ser} : ∀ vals K, Ready false anyClass K item → Stocked env vals → Sure anyClass K (fun _ _ => True) (packItems packN item vals) := by
  intro vals
  induction vals with
  | nil => intro K _ _; exact Sure.pure _ trivial
  | cons v vs ih =>
    intro K hw hv
    rw [packItems]
    exact Sure.bind (hN _ _ _ hw hv.head) fun b L h2 hz => Sure.next (Sure.readSize _ hz) fun sz L h3 => Sure.next (ih _ (hw.mono (h2.trans h3)) hv.tail) fun _ _ _ => Sure.pure _ trivial

theorem objPack_sure {packN : Ser → List Val → T Bytes}
    (hN : ∀ s vs K, Ready false anyClass K s → Stocked env vs → Sure anyClass K (Sized s) (packN s vs)) {v : Val} (hv : Stocked env [v]) :
    Sure anyClass K (fun r L => SizeKnown L r.2) (objPack env packN v) := by
  cases v with
  | obj cls bo attrs =>
    refine Sure.bind (Sure.lift' _) fun r L _ hr => ?_
    obtain ⟨ci, ser⟩ := r
    exact Sure.bind (Sure.prepack (stocked_fed hv hr) trivial) fun s L _ hs => Sure.bind (Sure.lift' _) fun vals M hm he =>
      Sure.bind (hN _ _ _ (hs.1.mono hm) (stocked_attrs hv he)) fun _ M _ hz => Sure.pure _ (hs.2.2 _ hz)
  | _ => exact Sure.throw _

theorem pack_sure : ∀ n s vs K, Ready false anyClass K s → Stocked env vs → Sure anyClass K (Sized s) (pack env n s vs) := by
  intro n
  induction n with
  | zero => intro s vs K _ _; exact Sure.throw _
  | succ n ih =>
    intro s vs K hw hv
    cases s with
    | null => exact Sure.pure _ trivial
    | struct st => exact Sure.liftAny _ trivial
    | dynChar id st =>
      exact Sure.next (Sure.lift' _) fun _ _ _ => Sure.bind (Sure.setSize _ _) fun _ _ _ hz => Sure.liftAny _ hz
    | consuming id =>
      exact Sure.next (Sure.lift' _) fun _ _ _ => Sure.bind (Sure.setSize _ _) fun _ _ _ hz => Sure.pure _ hz
    | terminated id term =>
      exact Sure.next (Sure.lift' _) fun _ _ _ => Sure.bind (Sure.setSize _ _) fun _ _ _ hz => Sure.liftAny _ hz
    | net id =>
      exact Sure.next (Sure.lift' _) fun _ _ _ => Sure.bind (Sure.setSize _ _) fun _ _ _ hz => Sure.liftAny _ hz
    | unicode inner enc dec =>
      exact Sure.next (Sure.lift' _) fun _ _ h1 => ih inner _ _ (Ready.mono h1 (s := inner) hw) (Stocked.bytes _)
    | array id hdr item sl =>
      exact Sure.bind (Sure.getPart hw.1) fun p L h1 hp => Sure.bind (Sure.prepack hw.2 hp) fun item' L _ hi =>
        Sure.bind (Sure.lift' _) fun v L h1 e1 => Sure.bind (Sure.lift' _) fun items L h2 e2 =>
        Sure.next (packItems_sure ih _ _ (hi.1.mono (h1.trans h2)) ((hv.first e1).iter e2)) fun _ _ _ => Sure.next (Sure.lift' _) fun _ _ _ =>
        Sure.next (Sure.lift' _) fun _ _ _ => Sure.bind (Sure.setSize _ _) fun _ _ _ hz => Sure.pure _ hz
    | staticArr count item ser => exact Sure.next (Sure.lift' _) fun _ _ _ => Sure.liftAny _ trivial
    | dynArr id cnt item =>
      exact Sure.next (Sure.lift' _) fun _ _ _ => Sure.bind (Sure.setSize _ _) fun _ _ _ hz => Sure.liftAny _ hz
    | tuple id inner =>
      simp only [Threads.pack]
      rcases vs with _ | ⟨v, _ | ⟨w, ws⟩⟩
      · exact Sure.throw _
      · exact Sure.bind (Sure.getPart hw.1) fun p L _ hp => Sure.bind (Sure.prepack hw.2.1 hp) fun inner' L _ hi =>
          Sure.bind (Sure.lift' _) fun vals L h2 e2 => (ih _ _ _ (hi.1.mono h2) (hv.iter e2)).weaken fun _ _ hz => hi.2.2 _ hz
      · exact Sure.throw _
    | lookback id decider keys opts dflt =>
      exact Sure.bind (Sure.getPart hw.1) fun p L h1 hp => Sure.next (Sure.lift' _) fun r L h2 =>
        Sure.bind (Sure.getSerializer true (h2.1 _ (h1.1 _ hw.1)) keys r hw.2) fun s L _ hs => Sure.bind (ih _ _ _ hs.1 hv) fun b L _ hz =>
        Sure.next (Sure.readSize _ hz) fun sz L _ => Sure.bind (Sure.setSize _ _) fun _ _ _ hz => Sure.pure _ hz
    | lookahead id ra decider keys opts dflt =>
      exact Sure.bind (Sure.getPart hw.1) fun p L h1 hp => Sure.next (Sure.lift' _) fun r L h2 =>
        Sure.bind (Sure.getSerializer true (h2.1 _ (h1.1 _ hw.1)) keys r hw.2.1) fun s L _ hs => Sure.bind (ih _ _ _ hs.1 hv) fun b L _ hz =>
        Sure.next (Sure.readSize _ hz) fun sz L _ => Sure.bind (Sure.setSize _ _) fun _ _ _ hz => Sure.pure _ hz
    | cond ser c defs => exact Sure.throw _
    | skip vals => exact Sure.pure _ trivial
    | structured id cls =>
      simp only [Threads.pack]
      rcases vs with _ | ⟨v, _ | ⟨w, ws⟩⟩
      · exact Sure.throw _
      · exact Sure.bind (objPack_sure ih hv) fun r L _ hz => Sure.next (Sure.readSize _ hz) fun sz _ _ => Sure.bind (Sure.setSize _ _) fun _ _ _ hz => Sure.pure _ hz
      · exact Sure.throw _
    | selfT id => exact Sure.throw _
    | compound id ss =>
      exact Sure.next (packLoop_sure ih _ _ _ (fun s hs L hl => Sure.pure s ((readyList_mem.1 hw s hs).mono hl)) hv) fun _ _ _ => Sure.bind (Sure.setSize _ _) fun _ _ _ hz => Sure.pure _ hz
    | specialized id p ss =>
      exact Sure.next (packLoop_sure ih _ _ _ (fun s hs L hl => (Sure.prepack (hw.2 s hs) trivial).weaken fun _ _ h => h.1) hv) fun _ _ _ => Sure.bind (Sure.setSize _ _) fun _ _ _ hz => Sure.pure _ hz

/-! ### `pack_into` -/

theorem structPackInto_sure (s : StructSer) (off : Nat) (vs : List Val) {P : Know → Prop} (h : P K) :
    Sure anyClass K (fun _ => P) (structPackIntoM env s off vs) := by
  refine Sure.free (fun st => ?_) h
  unfold structPackIntoM
  rcases s.packInto env.plat st.buf off vs with ⟨b, _ | e⟩ <;> exact ⟨_, rfl⟩

theorem packIntoOpt_sure (s : Option StructSer) (off : Nat) (vs : List Val) {P : Know → Prop} (h : P K) :
    Sure anyClass K (fun _ => P) (packIntoOpt env s off vs) := by
  cases s
  · exact Sure.pure _ h
  · exact structPackInto_sure _ _ _ h

theorem packIntoLoop_sure {packN : Ser → Nat → List Val → T Unit}
    (hN : ∀ s off vs K, Ready false anyClass K s → Stocked env vs → Sure anyClass K (Sized s) (packN s off vs))
    {pre : Ser → T Ser} (off : Nat) :
    ∀ ss size vals K, (∀ s ∈ ss, ∀ L, K.le L → Sure anyClass L (fun s' M => Ready false anyClass M s') (pre s)) → Stocked env vals →
      Sure anyClass K (fun _ _ => True) (packIntoLoop packN pre off size ss vals) := by
  intro ss
  induction ss with
  | nil => intro size vals K _ _; exact Sure.pure _ trivial
  | cons s ss ih =>
    intro size vals K hw hv
    rw [packIntoLoop]
    refine Sure.bind (hw s (by simp) K (.refl K)) fun s' L h1 hs' => Sure.bind (hN _ _ _ _ hs' (hv.take _)) fun b L h2 hz =>
      Sure.next (Sure.readSize _ hz) fun sz L h3 => ?_
    have hl0 := h1.trans (h2.trans h3)
    exact ih _ _ _ (fun s hs L hl => hw s (by simp [hs]) L (hl0.trans hl)) (hv.drop _)

theorem packIntoItems_sure {packN : Ser → Nat → List Val → T Unit}
    (hN : ∀ s off vs K, Ready false anyClass K s → Stocked env vs → Sure anyClass K (Sized s) (packN s off vs))
    {item : Ser} (off : Nat) : ∀ vals size K, Ready false anyClass K item → Stocked env vals → Sure anyClass K (fun _ _ => True) (packIntoItems packN item off size vals) := by
  intro vals
  induction vals with
  | nil => intro size K _ _; exact Sure.pure _ trivial
  | cons v vs ih =>
    intro size K hw hv
    rw [packIntoItems]
    exact Sure.bind (hN _ _ _ _ hw hv.head) fun b L h2 hz => Sure.next (Sure.readSize _ hz) fun sz L h3 => ih _ _ (hw.mono (h2.trans h3)) hv.tail

theorem objPackInto_sure {packN : Ser → Nat → List Val → T Unit}
    (hN : ∀ s off vs K, Ready false anyClass K s → Stocked env vs → Sure anyClass K (Sized s) (packN s off vs)) (off : Nat) {v : Val} (hv : Stocked env [v]) :
    Sure anyClass K (fun s L => SizeKnown L s) (objPackInto env packN off v) := by
  cases v with
  | obj cls bo attrs =>
    refine Sure.bind (Sure.lift' _) fun r L _ hr => ?_
    obtain ⟨ci, ser⟩ := r
    exact Sure.bind (Sure.prepack (stocked_fed hv hr) trivial) fun s L _ hs => Sure.bind (Sure.lift' _) fun vals M hm he =>
      Sure.bind (hN _ _ _ _ (hs.1.mono hm) (stocked_attrs hv he)) fun _ M _ hz => Sure.pure _ (hs.2.2 _ hz)
  | _ => exact Sure.throw _

theorem packInto_sure : ∀ n s off vs K, Ready false anyClass K s → Stocked env vs → Sure anyClass K (Sized s) (packInto env n s off vs) := by
  intro n
  induction n with
  | zero => intro s off vs K _ _; exact Sure.throw _
  | succ n ih =>
    intro s off vs K hw hv
    cases s with
    | null => exact Sure.pure _ trivial
    | struct st => exact structPackInto_sure _ _ _ trivial
    | dynChar id st =>
      exact Sure.next (Sure.lift' _) fun _ _ _ => Sure.bind (Sure.setSize _ _) fun _ _ _ hz => structPackInto_sure _ _ _ hz
    | consuming id =>
      exact Sure.next (Sure.lift' _) fun _ _ _ => Sure.bind (Sure.setSize _ _) fun _ _ _ hz => Sure.free (fun _ => ⟨_, rfl⟩) hz
    | terminated id term =>
      exact Sure.next (Sure.lift' _) fun _ _ _ => Sure.bind (Sure.setSize _ _) fun _ _ _ hz => Sure.next (Sure.lift' _) fun _ _ h4 => packIntoOpt_sure _ _ _ (h4.2 _ hz)
    | net id =>
      exact Sure.next (Sure.lift' _) fun _ _ _ => Sure.bind (Sure.setSize _ _) fun _ _ _ hz => structPackInto_sure _ _ _ hz
    | unicode inner enc dec =>
      exact Sure.next (Sure.lift' _) fun _ _ h1 => ih inner _ _ _ (Ready.mono h1 (s := inner) hw) (Stocked.bytes _)
    | array id hdr item sl =>
      exact Sure.bind (Sure.lift' _) fun v L h0 e1 => Sure.bind (Sure.getPart (h0.1 _ hw.1)) fun p L h1 hp =>
        Sure.bind (Sure.prepack hw.2 hp) fun item' L _ hi => Sure.bind (Sure.lift' _) fun items L h2 e2 =>
        Sure.next (packIntoItems_sure ih _ _ _ _ (hi.1.mono h2) ((hv.first e1).iter e2)) fun _ _ _ => Sure.next (Sure.lift' _) fun _ _ _ =>
        Sure.bind (Sure.setSize _ _) fun _ _ _ hz => packIntoOpt_sure _ _ _ hz
    | staticArr count item ser => exact Sure.next (Sure.lift' _) fun _ _ _ => packIntoOpt_sure _ _ _ trivial
    | dynArr id cnt item =>
      exact Sure.next (Sure.lift' _) fun _ _ _ => Sure.bind (Sure.setSize _ _) fun _ _ _ hz => structPackInto_sure _ _ _ hz
    | tuple id inner =>
      simp only [Threads.packInto]
      rcases vs with _ | ⟨v, _ | ⟨w, ws⟩⟩
      · exact Sure.throw _
      · exact Sure.bind (Sure.getPart hw.1) fun p L _ hp => Sure.bind (Sure.prepack hw.2.1 hp) fun inner' L _ hi =>
          Sure.bind (Sure.lift' _) fun vals L h2 e2 => (ih _ _ _ _ (hi.1.mono h2) (hv.iter e2)).weaken fun _ _ hz => hi.2.2 _ hz
      · exact Sure.throw _
    | lookback id decider keys opts dflt =>
      exact Sure.bind (Sure.getPart hw.1) fun p L h1 hp => Sure.next (Sure.lift' _) fun r L h2 =>
        Sure.bind (Sure.getSerializer true (h2.1 _ (h1.1 _ hw.1)) keys r hw.2) fun s L _ hs => Sure.bind (ih _ _ _ _ hs.1 hv) fun b L _ hz =>
        Sure.next (Sure.readSize _ hz) fun sz L _ => Sure.setSize _ _
    | lookahead id ra decider keys opts dflt =>
      exact Sure.bind (Sure.getPart hw.1) fun p L h1 hp => Sure.next (Sure.lift' _) fun r L h2 =>
        Sure.bind (Sure.getSerializer true (h2.1 _ (h1.1 _ hw.1)) keys r hw.2.1) fun s L _ hs => Sure.bind (ih _ _ _ _ hs.1 hv) fun b L _ hz =>
        Sure.next (Sure.readSize _ hz) fun sz L _ => Sure.setSize _ _
    | cond ser c defs => exact Sure.throw _
    | skip vals => exact Sure.pure _ trivial
    | structured id cls =>
      simp only [Threads.packInto]
      rcases vs with _ | ⟨v, _ | ⟨w, ws⟩⟩
      · exact Sure.throw _
      · exact Sure.bind (objPackInto_sure ih _ hv) fun r L _ hz => Sure.next (Sure.readSize _ hz) fun sz _ _ => Sure.setSize _ _
      · exact Sure.throw _
    | selfT id => exact Sure.throw _
    | compound id ss =>
      exact Sure.next (packIntoLoop_sure ih _ _ _ _ _ (fun s hs L hl => Sure.pure s ((readyList_mem.1 hw s hs).mono hl)) hv) fun _ _ _ => Sure.setSize _ _
    | specialized id p ss =>
      exact Sure.next (packIntoLoop_sure ih _ _ _ _ _ (fun s hs L hl => (Sure.prepack (hw.2 s hs) trivial).weaken fun _ _ h => h.1) hv) fun _ _ _ => Sure.setSize _ _

/-! ### `pack_write` -/

theorem ioWrite_sure (b : Bytes) {P : Know → Prop} (h : P K) : Sure anyClass K (fun _ => P) (ioWrite b) := Sure.free (fun _ => ⟨_, rfl⟩) h

theorem packWriteLoop_sure {packN : Ser → List Val → T Unit}
    (hN : ∀ s vs K, Ready false anyClass K s → Stocked env vs → Sure anyClass K (Sized s) (packN s vs))
    {pre : Ser → T Ser} :
    ∀ ss size vals K, (∀ s ∈ ss, ∀ L, K.le L → Sure anyClass L (fun s' M => Ready false anyClass M s') (pre s)) → Stocked env vals →
      Sure anyClass K (fun _ _ => True) (packWriteLoop packN pre size ss vals) := by
  intro ss
  induction ss with
  | nil => intro size vals K _ _; exact Sure.pure _ trivial
  | cons s ss ih =>
    intro size vals K hw hv
    rw [packWriteLoop]
    refine Sure.bind (hw s (by simp) K (.refl K)) fun s' L h1 hs' => Sure.bind (hN _ _ _ hs' (hv.take _)) fun b L h2 hz =>
      Sure.next (Sure.readSize _ hz) fun sz L h3 => ?_
    have hl0 := h1.trans (h2.trans h3)
    exact ih _ _ _ (fun s hs L hl => hw s (by simp [hs]) L (hl0.trans hl)) (hv.drop _)

theorem objPackWrite_sure {packN : Ser → List Val → T Unit}
    (hN : ∀ s vs K, Ready false anyClass K s → Stocked env vs → Sure anyClass K (Sized s) (packN s vs)) {v : Val} (hv : Stocked env [v]) :
    Sure anyClass K (fun s L => SizeKnown L s) (objPackWrite env packN v) := by
  cases v with
  | obj cls bo attrs =>
    refine Sure.bind (Sure.lift' _) fun r L _ hr => ?_
    obtain ⟨ci, ser⟩ := r
    exact Sure.bind (Sure.prepack (stocked_fed hv hr) trivial) fun s L _ hs => Sure.bind (Sure.lift' _) fun vals M hm he =>
      Sure.bind (hN _ _ _ (hs.1.mono hm) (stocked_attrs hv he)) fun _ M _ hz => Sure.pure _ (hs.2.2 _ hz)
  | _ => exact Sure.throw _

theorem packWrite_sure : ∀ n s vs K, Ready false anyClass K s → Stocked env vs → Sure anyClass K (Sized s) (packWrite env n s vs) := by
  intro n
  induction n with
  | zero => intro s vs K _ _; exact Sure.throw _
  | succ n ih =>
    intro s vs K hw hv
    cases s with
    | null => exact Sure.pure _ trivial
    | struct st => exact Sure.next (Sure.lift' _) fun _ _ _ => ioWrite_sure _ trivial
    | dynChar id st =>
      exact Sure.next (Sure.lift' _) fun _ _ _ => Sure.bind (Sure.setSize _ _) fun _ _ _ hz => Sure.next (Sure.lift' _) fun _ _ h4 => ioWrite_sure _ (h4.2 _ hz)
    | consuming id =>
      exact Sure.next (Sure.lift' _) fun _ _ _ => Sure.bind (Sure.setSize _ _) fun _ _ _ hz => ioWrite_sure _ hz
    | terminated id term =>
      exact Sure.next (Sure.lift' _) fun _ _ _ => Sure.bind (Sure.setSize _ _) fun _ _ _ hz => Sure.next (Sure.lift' _) fun _ _ h4 => ioWrite_sure _ (h4.2 _ hz)
    | net id =>
      exact Sure.next (Sure.lift' _) fun _ _ _ => Sure.bind (Sure.setSize _ _) fun _ _ _ hz => Sure.next (Sure.lift' _) fun _ _ h4 => ioWrite_sure _ (h4.2 _ hz)
    | unicode inner enc dec =>
      exact Sure.next (Sure.lift' _) fun _ _ h1 => ih inner _ _ (Ready.mono h1 (s := inner) hw) (Stocked.bytes _)
    | array id hdr item sl =>
      exact Sure.bind (pack_sure (n + 1) _ _ _ hw hv) fun _ _ _ hz => ioWrite_sure _ hz
    | staticArr count item ser => exact Sure.next (Sure.lift' _) fun _ _ _ => Sure.next (Sure.lift' _) fun _ _ _ => ioWrite_sure _ trivial
    | dynArr id cnt item =>
      exact Sure.next (Sure.lift' _) fun _ _ _ => Sure.bind (Sure.setSize _ _) fun _ _ _ hz => Sure.next (Sure.lift' _) fun _ _ h4 => ioWrite_sure _ (h4.2 _ hz)
    | tuple id inner =>
      simp only [Threads.packWrite]
      rcases vs with _ | ⟨v, _ | ⟨w, ws⟩⟩
      · exact Sure.throw _
      · exact Sure.bind (Sure.getPart hw.1) fun p L _ hp => Sure.bind (Sure.prepack hw.2.1 hp) fun inner' L _ hi =>
          Sure.bind (Sure.lift' _) fun vals L h2 e2 => (ih _ _ _ (hi.1.mono h2) (hv.iter e2)).weaken fun _ _ hz => hi.2.2 _ hz
      · exact Sure.throw _
    | lookback id decider keys opts dflt =>
      exact Sure.bind (Sure.getPart hw.1) fun p L h1 hp => Sure.next (Sure.lift' _) fun r L h2 =>
        Sure.bind (Sure.getSerializer true (h2.1 _ (h1.1 _ hw.1)) keys r hw.2) fun s L _ hs => Sure.bind (ih _ _ _ hs.1 hv) fun b L _ hz =>
        Sure.next (Sure.readSize _ hz) fun sz L _ => Sure.setSize _ _
    | lookahead id ra decider keys opts dflt =>
      exact Sure.bind (Sure.getPart hw.1) fun p L h1 hp => Sure.next (Sure.lift' _) fun r L h2 =>
        Sure.bind (Sure.getSerializer true (h2.1 _ (h1.1 _ hw.1)) keys r hw.2.1) fun s L _ hs => Sure.bind (ih _ _ _ hs.1 hv) fun b L _ hz =>
        Sure.next (Sure.readSize _ hz) fun sz L _ => Sure.setSize _ _
    | cond ser c defs => exact Sure.throw _
    | skip vals => exact Sure.pure _ trivial
    | structured id cls =>
      simp only [Threads.packWrite]
      rcases vs with _ | ⟨v, _ | ⟨w, ws⟩⟩
      · exact Sure.throw _
      · exact Sure.bind (objPackWrite_sure ih hv) fun r L _ hz => Sure.next (Sure.readSize _ hz) fun sz _ _ => Sure.setSize _ _
      · exact Sure.throw _
    | selfT id => exact Sure.throw _
    | compound id ss =>
      exact Sure.next (packWriteLoop_sure ih _ _ _ _ (fun s hs L hl => Sure.pure s ((readyList_mem.1 hw s hs).mono hl)) hv) fun _ _ _ => Sure.setSize _ _
    | specialized id p ss =>
      exact Sure.next (packWriteLoop_sure ih _ _ _ _ (fun s hs L hl => (Sure.prepack (hw.2 s hs) trivial).weaken fun _ _ h => h.1) hv) fun _ _ _ => Sure.setSize _ _

end Verif.Threads
