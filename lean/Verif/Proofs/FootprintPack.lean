import Verif.Proofs.FootprintBasic
/-
Packing uses only the serializers of the objects packed.
-/
namespace Verif.Threads

variable {α β : Type} {I : SerId → Prop} {C D : ClassId → Prop}

/-- The serializers of all objects in these values are within. -/
def Held (env : Env) (I : SerId → Prop) (C D : ClassId → Prop) (vs : List Val) : Prop :=
  ∀ c bo attrs, (c, bo, attrs) ∈ Val.nodesList vs → D c ∧ ∀ ci ser, objSer env c bo = .ok (ci, ser) → ser.Within I C D

variable {env : Env}

theorem Held.of {vs ws : List Val} (h : Held env I C D vs) (k : ∀ x, x ∈ Val.nodesList ws → x ∈ Val.nodesList vs) : Held env I C D ws :=
  fun c bo attrs hm => h c bo attrs (k _ hm)

theorem Held.sub {vs ws : List Val} (h : Held env I C D vs) (k : ∀ v, v ∈ ws → v ∈ vs) : Held env I C D ws :=
  h.of fun _ hx => by
    obtain ⟨v, hv, hx⟩ := nodesList_mem.1 hx
    exact nodesList_mem.2 ⟨v, k v hv, hx⟩

theorem Held.take {vs : List Val} (h : Held env I C D vs) (k : Nat) : Held env I C D (vs.take k) := h.sub fun _ => List.mem_of_mem_take
theorem Held.drop {vs : List Val} (h : Held env I C D vs) (k : Nat) : Held env I C D (vs.drop k) := h.sub fun _ => List.mem_of_mem_drop
theorem Held.first {vs : List Val} {v : Val} (h : Held env I C D vs) (e : first vs = .ok v) : Held env I C D [v] :=
  h.of fun _ hx => first_nodes e (by simpa [Val.nodesList] using hx)
theorem Held.iter {v : Val} {vs : List Val} (h : Held env I C D [v]) (e : pyIter v = .ok vs) : Held env I C D vs :=
  h.of fun _ hx => by simpa [Val.nodesList] using pyIter_nodes e hx
theorem Held.bytes (b : Bytes) : Held env I C D [.bytes b] := fun _ _ _ h => by simp [Val.nodesList, Val.nodes] at h
theorem Held.head {v : Val} {vs : List Val} (h : Held env I C D (v :: vs)) : Held env I C D [v] := h.sub fun _ hm => by simp_all
theorem Held.tail {v : Val} {vs : List Val} (h : Held env I C D (v :: vs)) : Held env I C D vs := h.sub fun _ hm => by simp_all

/-- An intermediate reply of which nothing is needed. -/
theorem Local.bindAny {x : T α} {f : α → T β} {P : α → Prop} {Q : β → Prop} (h : Local I D P x) (k : ∀ a, Local I D Q (f a)) : Local I D Q (x >>= f) :=
  h.bind fun a _ => k a

theorem Local.lift' (e : Except Err α) : Local I D (fun a => e = .ok a) (T.lift e) := Local.lift fun _ h => h

theorem Local.liftAny (e : Except Err α) : Local I D (fun _ => True) (T.lift e) := Local.lift fun _ _ => trivial

theorem packLoop_local {packN : Ser → List Val → T Bytes}
    (hN : ∀ s vs, s.Within I C D → Held env I C D vs → Local I D (fun _ => True) (packN s vs))
    {pre : Ser → T Ser} (hp : ∀ s, s.Within I C D → Local I D (Ser.Within I C D) (pre s)) :
    ∀ ss vals, Ser.WithinList I C D ss → Held env I C D vals → Local I D (fun _ => True) (packLoop packN pre ss vals) := by
  intro ss
  induction ss with
  | nil => intro vals _ _; exact Local.pure _ trivial
  | cons s ss ih =>
    intro vals hw hv
    rw [packLoop]
    exact Local.bind (hp s hw.1) fun s' hs' => Local.bindAny (hN _ _ hs' (hv.take _)) fun b =>
      Local.bindAny (Local.readSize _ hs') fun sz => Local.bindAny (ih _ hw.2 (hv.drop _)) fun _ => Local.pure _ trivial

theorem packItems_local {packN : Ser → List Val → T Bytes}
    (hN : ∀ s vs, s.Within I C D → Held env I C D vs → Local I D (fun _ => True) (packN s vs)) {item : Ser} (hw : item.Within I C D) :
    ∀ vals, Held env I C D vals → Local I D (fun _ => True) (packItems packN item vals) := by
  intro vals
  induction vals with
  | nil => intro _; exact Local.pure _ trivial
  | cons v vs ih =>
    intro hv
    rw [packItems]
    exact Local.bindAny (hN _ _ hw hv.head) fun b => Local.bindAny (Local.readSize _ hw) fun sz =>
      Local.bindAny (ih hv.tail) fun _ => Local.pure _ trivial

theorem held_attrs {c : ClassId} {bo : Option ByteOrder} {attrs : List (Name × Val)} {names : List Name} {vals : List Val}
    (h : Held env I C D [.obj c bo attrs]) (e : getAttrs attrs names = .ok vals) : Held env I C D vals :=
  h.of fun x hx => by
    have := getAttrs_nodes e hx
    simp [Val.nodesList, Val.nodes, this]

theorem objPack_local {packN : Ser → List Val → T Bytes}
    (hN : ∀ s vs, s.Within I C D → Held env I C D vs → Local I D (fun _ => True) (packN s vs)) {v : Val} (hv : Held env I C D [v]) :
    Local I D (fun r => r.2.Within I C D) (objPack env packN v) := by
  cases v with
  | obj cls bo attrs =>
    have hn := hv cls bo attrs (by simp [Val.nodesList, Val.nodes])
    refine Local.bind (Local.lift' _) fun r hr => ?_
    obtain ⟨ci, ser⟩ := r
    exact Local.bind (Local.prepack (hn.2 _ _ hr) hn.1) fun s hs => Local.bind (Local.lift' _) fun vals he =>
      Local.bindAny (hN _ _ hs (held_attrs hv he)) fun _ => Local.pure _ (hn.2 _ _ hr)
  | _ => exact Local.throw _

theorem pack_local : ∀ n s vs, s.Within I C D → Held env I C D vs → Local I D (fun _ => True) (pack env n s vs) := by
  intro n
  induction n with
  | zero => intro s vs _ _; exact Local.throw _
  | succ n ih =>
    intro s vs hw hv
    cases s with
    | null => exact Local.pure _ trivial
    | struct st => exact Local.liftAny _
    | dynChar id st =>
      exact Local.bindAny (Local.liftAny _) fun _ => Local.bindAny (Local.setSize hw _) fun _ => Local.liftAny _
    | consuming id =>
      exact Local.bindAny (Local.liftAny _) fun _ => Local.bindAny (Local.setSize hw _) fun _ => Local.pure _ trivial
    | terminated id term =>
      exact Local.bindAny (Local.liftAny _) fun _ => Local.bindAny (Local.setSize hw _) fun _ => Local.liftAny _
    | net id =>
      exact Local.bindAny (Local.liftAny _) fun _ => Local.bindAny (Local.setSize hw _) fun _ => Local.liftAny _
    | unicode inner enc dec =>
      exact Local.bindAny (Local.liftAny _) fun _ => ih _ _ hw (Held.bytes _)
    | array id hdr item sl =>
      exact Local.bind (Local.getPart hw.1) fun p hp => Local.bind (Local.prepack hw.2 hp) fun item' hi =>
        Local.bind (Local.lift' _) fun v h1 => Local.bind (Local.lift' _) fun items h2 =>
        Local.bindAny (packItems_local ih hi _ ((hv.first h1).iter h2)) fun _ => Local.bindAny (Local.liftAny _) fun _ =>
        Local.bindAny (Local.liftAny _) fun _ => Local.bindAny (Local.setSize hw.1 _) fun _ => Local.pure _ trivial
    | staticArr count item ser => exact Local.bindAny (Local.liftAny _) fun _ => Local.liftAny _
    | dynArr id cnt item =>
      exact Local.bindAny (Local.liftAny _) fun _ => Local.bindAny (Local.setSize hw _) fun _ => Local.liftAny _
    | tuple id inner =>
      simp only [Threads.pack]
      rcases vs with _ | ⟨v, _ | ⟨w, ws⟩⟩
      · exact Local.throw _
      · exact Local.bind (Local.getPart hw.1) fun p hp => Local.bind (Local.prepack hw.2 hp) fun inner' hi =>
          Local.bind (Local.lift' _) fun vals h2 => ih _ _ hi (hv.iter h2)
      · exact Local.throw _
    | lookback id decider keys opts dflt =>
      exact Local.bind (Local.getPart hw.1) fun p hp => Local.bindAny (Local.liftAny _) fun r =>
        Local.bind (Local.getSerializer true hw.1 keys r hw.2.1 hw.2.2) fun s hs => Local.bindAny (ih _ _ hs hv) fun b =>
        Local.bindAny (Local.readSize _ hs) fun sz => Local.bindAny (Local.setSize hw.1 _) fun _ => Local.pure _ trivial
    | lookahead id ra decider keys opts dflt =>
      exact Local.bind (Local.getPart hw.1) fun p hp => Local.bindAny (Local.liftAny _) fun r =>
        Local.bind (Local.getSerializer true hw.1 keys r hw.2.2.1 hw.2.2.2) fun s hs => Local.bindAny (ih _ _ hs hv) fun b =>
        Local.bindAny (Local.readSize _ hs) fun sz => Local.bindAny (Local.setSize hw.1 _) fun _ => Local.pure _ trivial
    | cond ser c defs => exact Local.throw _
    | skip vals => exact Local.pure _ trivial
    | structured id cls =>
      simp only [Threads.pack]
      rcases vs with _ | ⟨v, _ | ⟨w, ws⟩⟩
      · exact Local.throw _
      · exact Local.bind (objPack_local ih hv) fun r hr => Local.bindAny (Local.readSize _ hr) fun sz =>
          Local.bindAny (Local.setSize hw.1 _) fun _ => Local.pure _ trivial
      · exact Local.throw _
    | selfT id => exact Local.throw _
    | compound id ss =>
      exact Local.bindAny (packLoop_local ih (fun s hs => Local.pure s hs) _ _ hw.2 hv) fun _ =>
        Local.bindAny (Local.setSize hw.1 _) fun _ => Local.pure _ trivial
    | specialized id p ss =>
      exact Local.bindAny (packLoop_local ih (fun s hs => Local.prepack hs hw.2.1) _ _ hw.2.2 hv) fun _ =>
        Local.bindAny (Local.setSize hw.1 _) fun _ => Local.pure _ trivial

/-! ### `pack_into` -/

theorem structPackInto_local (s : StructSer) (off : Nat) (vs : List Val) :
    Local I D (fun _ => True) (structPackIntoM env s off vs) := by
  refine Local.free fun st => ?_
  unfold structPackIntoM
  rcases s.packInto env.plat st.buf off vs with ⟨b, _ | e⟩ <;> exact ⟨_, rfl⟩

theorem packIntoOpt_local (s : Option StructSer) (off : Nat) (vs : List Val) :
    Local I D (fun _ => True) (packIntoOpt env s off vs) := by
  cases s
  · exact Local.pure _ trivial
  · exact structPackInto_local _ _ _

theorem packIntoLoop_local {packN : Ser → Nat → List Val → T Unit}
    (hN : ∀ s off vs, s.Within I C D → Held env I C D vs → Local I D (fun _ => True) (packN s off vs))
    {pre : Ser → T Ser} (hp : ∀ s, s.Within I C D → Local I D (Ser.Within I C D) (pre s)) (off : Nat) :
    ∀ ss size vals, Ser.WithinList I C D ss → Held env I C D vals → Local I D (fun _ => True) (packIntoLoop packN pre off size ss vals) := by
  intro ss
  induction ss with
  | nil => intro size vals _ _; exact Local.pure _ trivial
  | cons s ss ih =>
    intro size vals hw hv
    rw [packIntoLoop]
    exact Local.bind (hp s hw.1) fun s' hs' => Local.bindAny (hN _ _ _ hs' (hv.take _)) fun b =>
      Local.bindAny (Local.readSize _ hs') fun sz => ih _ _ hw.2 (hv.drop _)

theorem packIntoItems_local {packN : Ser → Nat → List Val → T Unit}
    (hN : ∀ s off vs, s.Within I C D → Held env I C D vs → Local I D (fun _ => True) (packN s off vs)) {item : Ser}
    (hw : item.Within I C D) (off : Nat) :
    ∀ vals size, Held env I C D vals → Local I D (fun _ => True) (packIntoItems packN item off size vals) := by
  intro vals
  induction vals with
  | nil => intro _ _; exact Local.pure _ trivial
  | cons v vs ih =>
    intro size hv
    rw [packIntoItems]
    exact Local.bindAny (hN _ _ _ hw hv.head) fun b => Local.bindAny (Local.readSize _ hw) fun sz => ih _ hv.tail

theorem objPackInto_local {packN : Ser → Nat → List Val → T Unit}
    (hN : ∀ s off vs, s.Within I C D → Held env I C D vs → Local I D (fun _ => True) (packN s off vs)) (off : Nat) {v : Val}
    (hv : Held env I C D [v]) : Local I D (Ser.Within I C D) (objPackInto env packN off v) := by
  cases v with
  | obj cls bo attrs =>
    have hn := hv cls bo attrs (by simp [Val.nodesList, Val.nodes])
    refine Local.bind (Local.lift' _) fun r hr => ?_
    obtain ⟨ci, ser⟩ := r
    exact Local.bind (Local.prepack (hn.2 _ _ hr) hn.1) fun s hs => Local.bind (Local.lift' _) fun vals he =>
      Local.bindAny (hN _ _ _ hs (held_attrs hv he)) fun _ => Local.pure _ (hn.2 _ _ hr)
  | _ => exact Local.throw _

theorem packInto_local : ∀ n s off vs, s.Within I C D → Held env I C D vs → Local I D (fun _ => True) (packInto env n s off vs) := by
  intro n
  induction n with
  | zero => intro s off vs _ _; exact Local.throw _
  | succ n ih =>
    intro s off vs hw hv
    cases s with
    | null => exact Local.pure _ trivial
    | struct st => exact structPackInto_local _ _ _
    | dynChar id st =>
      exact Local.bindAny (Local.liftAny _) fun _ => Local.bindAny (Local.setSize hw _) fun _ => structPackInto_local _ _ _
    | consuming id =>
      exact Local.bindAny (Local.liftAny _) fun _ => Local.bindAny (Local.setSize hw _) fun _ => Local.free fun _ => ⟨_, rfl⟩
    | terminated id term =>
      exact Local.bindAny (Local.liftAny _) fun _ => Local.bindAny (Local.setSize hw _) fun _ =>
        Local.bindAny (Local.liftAny _) fun _ => packIntoOpt_local _ _ _
    | net id =>
      exact Local.bindAny (Local.liftAny _) fun _ => Local.bindAny (Local.setSize hw _) fun _ => structPackInto_local _ _ _
    | unicode inner enc dec =>
      exact Local.bindAny (Local.liftAny _) fun _ => ih _ _ _ hw (Held.bytes _)
    | array id hdr item sl =>
      exact Local.bind (Local.lift' _) fun v h1 => Local.bind (Local.getPart hw.1) fun p hp =>
        Local.bind (Local.prepack hw.2 hp) fun item' hi => Local.bind (Local.lift' _) fun items h2 =>
        Local.bindAny (packIntoItems_local ih hi _ _ _ ((hv.first h1).iter h2)) fun _ => Local.bindAny (Local.liftAny _) fun _ =>
        Local.bindAny (Local.setSize hw.1 _) fun _ => packIntoOpt_local _ _ _
    | staticArr count item ser => exact Local.bindAny (Local.liftAny _) fun _ => packIntoOpt_local _ _ _
    | dynArr id cnt item =>
      exact Local.bindAny (Local.liftAny _) fun _ => Local.bindAny (Local.setSize hw _) fun _ => structPackInto_local _ _ _
    | tuple id inner =>
      simp only [Threads.packInto]
      rcases vs with _ | ⟨v, _ | ⟨w, ws⟩⟩
      · exact Local.throw _
      · exact Local.bind (Local.getPart hw.1) fun p hp => Local.bind (Local.prepack hw.2 hp) fun inner' hi =>
          Local.bind (Local.lift' _) fun vals h2 => ih _ _ _ hi (hv.iter h2)
      · exact Local.throw _
    | lookback id decider keys opts dflt =>
      exact Local.bind (Local.getPart hw.1) fun p hp => Local.bindAny (Local.liftAny _) fun r =>
        Local.bind (Local.getSerializer true hw.1 keys r hw.2.1 hw.2.2) fun s hs => Local.bindAny (ih _ _ _ hs hv) fun b =>
        Local.bindAny (Local.readSize _ hs) fun sz => Local.setSize hw.1 _
    | lookahead id ra decider keys opts dflt =>
      exact Local.bind (Local.getPart hw.1) fun p hp => Local.bindAny (Local.liftAny _) fun r =>
        Local.bind (Local.getSerializer true hw.1 keys r hw.2.2.1 hw.2.2.2) fun s hs => Local.bindAny (ih _ _ _ hs hv) fun b =>
        Local.bindAny (Local.readSize _ hs) fun sz => Local.setSize hw.1 _
    | cond ser c defs => exact Local.throw _
    | skip vals => exact Local.pure _ trivial
    | structured id cls =>
      simp only [Threads.packInto]
      rcases vs with _ | ⟨v, _ | ⟨w, ws⟩⟩
      · exact Local.throw _
      · exact Local.bind (objPackInto_local ih _ hv) fun r hr => Local.bindAny (Local.readSize _ hr) fun sz => Local.setSize hw.1 _
      · exact Local.throw _
    | selfT id => exact Local.throw _
    | compound id ss =>
      exact Local.bindAny (packIntoLoop_local ih (fun s hs => Local.pure s hs) _ _ _ _ hw.2 hv) fun _ => Local.setSize hw.1 _
    | specialized id p ss =>
      exact Local.bindAny (packIntoLoop_local ih (fun s hs => Local.prepack hs hw.2.1) _ _ _ _ hw.2.2 hv) fun _ => Local.setSize hw.1 _

/-! ### `pack_write` -/

theorem ioWrite_local (b : Bytes) : Local I D (fun _ => True) (ioWrite b) := Local.free fun _ => ⟨_, rfl⟩

theorem packWriteLoop_local {packN : Ser → List Val → T Unit}
    (hN : ∀ s vs, s.Within I C D → Held env I C D vs → Local I D (fun _ => True) (packN s vs))
    {pre : Ser → T Ser} (hp : ∀ s, s.Within I C D → Local I D (Ser.Within I C D) (pre s)) :
    ∀ ss size vals, Ser.WithinList I C D ss → Held env I C D vals → Local I D (fun _ => True) (packWriteLoop packN pre size ss vals) := by
  intro ss
  induction ss with
  | nil => intro size vals _ _; exact Local.pure _ trivial
  | cons s ss ih =>
    intro size vals hw hv
    rw [packWriteLoop]
    exact Local.bind (hp s hw.1) fun s' hs' => Local.bindAny (hN _ _ hs' (hv.take _)) fun b =>
      Local.bindAny (Local.readSize _ hs') fun sz => ih _ _ hw.2 (hv.drop _)

theorem objPackWrite_local {packN : Ser → List Val → T Unit}
    (hN : ∀ s vs, s.Within I C D → Held env I C D vs → Local I D (fun _ => True) (packN s vs)) {v : Val}
    (hv : Held env I C D [v]) : Local I D (Ser.Within I C D) (objPackWrite env packN v) := by
  cases v with
  | obj cls bo attrs =>
    have hn := hv cls bo attrs (by simp [Val.nodesList, Val.nodes])
    refine Local.bind (Local.lift' _) fun r hr => ?_
    obtain ⟨ci, ser⟩ := r
    exact Local.bind (Local.prepack (hn.2 _ _ hr) hn.1) fun s hs => Local.bind (Local.lift' _) fun vals he =>
      Local.bindAny (hN _ _ hs (held_attrs hv he)) fun _ => Local.pure _ (hn.2 _ _ hr)
  | _ => exact Local.throw _

theorem packWrite_local : ∀ n s vs, s.Within I C D → Held env I C D vs → Local I D (fun _ => True) (packWrite env n s vs) := by
  intro n
  induction n with
  | zero => intro s vs _ _; exact Local.throw _
  | succ n ih =>
    intro s vs hw hv
    cases s with
    | null => exact Local.pure _ trivial
    | struct st => exact Local.bindAny (Local.liftAny _) fun _ => ioWrite_local _
    | dynChar id st =>
      exact Local.bindAny (Local.liftAny _) fun _ => Local.bindAny (Local.setSize hw _) fun _ =>
        Local.bindAny (Local.liftAny _) fun _ => ioWrite_local _
    | consuming id =>
      exact Local.bindAny (Local.liftAny _) fun _ => Local.bindAny (Local.setSize hw _) fun _ => ioWrite_local _
    | terminated id term =>
      exact Local.bindAny (Local.liftAny _) fun _ => Local.bindAny (Local.setSize hw _) fun _ =>
        Local.bindAny (Local.liftAny _) fun _ => ioWrite_local _
    | net id =>
      exact Local.bindAny (Local.liftAny _) fun _ => Local.bindAny (Local.setSize hw _) fun _ =>
        Local.bindAny (Local.liftAny _) fun _ => ioWrite_local _
    | unicode inner enc dec =>
      exact Local.bindAny (Local.liftAny _) fun _ => ih _ _ hw (Held.bytes _)
    | array id hdr item sl => exact Local.bindAny (pack_local (n + 1) _ _ hw hv) fun _ => ioWrite_local _
    | staticArr count item ser =>
      exact Local.bindAny (Local.liftAny _) fun _ => Local.bindAny (Local.liftAny _) fun _ => ioWrite_local _
    | dynArr id cnt item =>
      exact Local.bindAny (Local.liftAny _) fun _ => Local.bindAny (Local.setSize hw _) fun _ =>
        Local.bindAny (Local.liftAny _) fun _ => ioWrite_local _
    | tuple id inner =>
      simp only [Threads.packWrite]
      rcases vs with _ | ⟨v, _ | ⟨w, ws⟩⟩
      · exact Local.throw _
      · exact Local.bind (Local.getPart hw.1) fun p hp => Local.bind (Local.prepack hw.2 hp) fun inner' hi =>
          Local.bind (Local.lift' _) fun vals h2 => ih _ _ hi (hv.iter h2)
      · exact Local.throw _
    | lookback id decider keys opts dflt =>
      exact Local.bind (Local.getPart hw.1) fun p hp => Local.bindAny (Local.liftAny _) fun r =>
        Local.bind (Local.getSerializer true hw.1 keys r hw.2.1 hw.2.2) fun s hs => Local.bindAny (ih _ _ hs hv) fun b =>
        Local.bindAny (Local.readSize _ hs) fun sz => Local.setSize hw.1 _
    | lookahead id ra decider keys opts dflt =>
      exact Local.bind (Local.getPart hw.1) fun p hp => Local.bindAny (Local.liftAny _) fun r =>
        Local.bind (Local.getSerializer true hw.1 keys r hw.2.2.1 hw.2.2.2) fun s hs => Local.bindAny (ih _ _ hs hv) fun b =>
        Local.bindAny (Local.readSize _ hs) fun sz => Local.setSize hw.1 _
    | cond ser c defs => exact Local.throw _
    | skip vals => exact Local.pure _ trivial
    | structured id cls =>
      simp only [Threads.packWrite]
      rcases vs with _ | ⟨v, _ | ⟨w, ws⟩⟩
      · exact Local.throw _
      · exact Local.bind (objPackWrite_local ih hv) fun r hr => Local.bindAny (Local.readSize _ hr) fun sz => Local.setSize hw.1 _
      · exact Local.throw _
    | selfT id => exact Local.throw _
    | compound id ss =>
      exact Local.bindAny (packWriteLoop_local ih (fun s hs => Local.pure s hs) _ _ _ hw.2 hv) fun _ => Local.setSize hw.1 _
    | specialized id p ss =>
      exact Local.bindAny (packWriteLoop_local ih (fun s hs => Local.prepack hs hw.2.1) _ _ _ hw.2.2 hv) fun _ => Local.setSize hw.1 _

end Verif.Threads
