import Verif.Proofs.RefinePack
/-
`unpack`, `unpack_from` and `unpack_read` compute `Sem.dec`, from every state.
-/
namespace Verif
open Sem

/-- The source as data: the stream is taken from the state. -/
def Src.sem (src : Src) (st : St) : PSrc :=
  match src with
  | .buf b => .buf b
  | .at b off => .at b off
  | .io => .io st.io.data st.io.pos

/-- Only the stream position moved (to `pos`), and only if the stream was read from. -/
structure Adv (src : Src) (pos : Nat) (st st' : St) : Prop where
  buf : st'.buf = st.buf
  data : st'.io.data = st.io.data
  ioPos : src = .io → st'.io.pos = pos
  other : src ≠ .io → st'.io = st.io

/-- Nothing but serializer cells and the position of the stream that is read from changed. -/
def FrR (src : Src) (st st' : St) : Prop := ∃ pos, Adv src pos st st'

theorem Adv.refl (src : Src) (st : St) : Adv src (src.sem st).pos st st := by
  refine ⟨rfl, rfl, ?_, fun _ => rfl⟩
  rintro rfl; rfl

theorem Adv.of_fr {src : Src} {st st' : St} (h : Fr st st') : Adv src (src.sem st).pos st st' := by
  refine ⟨h.1, by rw [h.2], ?_, fun _ => h.2⟩
  rintro rfl; rw [h.2]; rfl

theorem Adv.trans {src : Src} {p q : Nat} {a b c : St} (h : Adv src p a b) (k : Adv src q b c) :
    Adv src q a c :=
  ⟨k.buf.trans h.buf, k.data.trans h.data, k.ioPos, fun e => (k.other e).trans (h.other e)⟩

theorem Adv.transFr {src : Src} {p : Nat} {a b c : St} (h : Adv src p a b) (k : Fr b c) :
    Adv src p a c :=
  ⟨k.1.trans h.buf, by rw [k.2]; exact h.data, fun e => by rw [k.2]; exact h.ioPos e,
    fun e => k.2.trans (h.other e)⟩

theorem Fr.transAdv {src : Src} {p : Nat} {a b c : St} (h : Fr a b) (k : Adv src p b c) :
    Adv src p a c :=
  ⟨k.buf.trans h.1, by rw [k.data, h.2], k.ioPos, fun e => (k.other e).trans h.2⟩

theorem FrR.of_fr {src : Src} {st st' : St} (h : Fr st st') : FrR src st st' := ⟨_, Adv.of_fr h⟩
theorem Adv.frR {src : Src} {p : Nat} {a b : St} (h : Adv src p a b) : FrR src a b := ⟨p, h⟩
theorem FrR.trans {src : Src} {a b c : St} (h : FrR src a b) (k : FrR src b c) : FrR src a c := by
  obtain ⟨_, h⟩ := h; obtain ⟨_, k⟩ := k; exact ⟨_, h.trans k⟩

theorem Src.next_io (src : Src) (k : Nat) : src.next k = .io ↔ src = .io := by
  cases src <;> simp [Src.next]

theorem Adv.next {src : Src} {k p : Nat} {a b : St} : Adv (src.next k) p a b ↔ Adv src p a b := by
  constructor
  · intro h; exact ⟨h.buf, h.data, fun e => h.ioPos ((Src.next_io _ _).2 e),
      fun e => h.other (fun e' => e ((Src.next_io _ _).1 e'))⟩
  · intro h; exact ⟨h.buf, h.data, fun e => h.ioPos ((Src.next_io _ _).1 e),
      fun e => h.other (fun e' => e ((Src.next_io _ _).2 e'))⟩

theorem FrR.next {src : Src} {k : Nat} {a b : St} : FrR (src.next k) a b ↔ FrR src a b := by
  simp only [FrR, Adv.next]

theorem sem_next {src : Src} {k p : Nat} {a b : St} (h : Adv src p a b) :
    (src.next k).sem b = (src.sem a).next k p := by
  cases src with
  | buf d => rfl
  | «at» d off => rfl
  | io => simp [Src.next, Src.sem, PSrc.next, h.data, h.ioPos rfl]

theorem sem_fr {src : Src} {a b : St} (h : Fr a b) : src.sem b = src.sem a := by
  cases src <;> simp [Src.sem, h.2]

/-- What holds after a successful unpacking with `s`. -/
structure UPost (s : Ser) (r : Dec) (src : Src) (st st' : St) : Prop where
  adv : Adv src r.pos st st'
  size : SizeIs s r.size st'
  keeps : Keeps r.touched st st'

def UnpackRel (unpackN : Ser → Src → M (List Val)) (decN : Ser → Option PObj → PSrc → Out Dec) : Prop :=
  ∀ s q src st, Primed s q st →
    Rel (FrR src st) (unpackN s src) (decN s q (src.sem st)) st
      (fun vs r st' => vs = r.vals ∧ UPost s r src st st')

/-! ### Leaves -/

/-- A struct serializer reads its values and moves on. -/
theorem structUnpackM_rel (env : Env) (s : StructSer) (src : Src) (st : St) :
    Rel (fun st' => FrR src st st' ∧ st'.cells = st.cells) (structUnpackM env s src)
      (.ofE (structDec env s (src.sem st))) st
      (fun vs r st' => vs = r.1 ∧ Adv src r.2 st st' ∧ st'.cells = st.cells) := by
  cases src with
  | buf b =>
    simp only [structUnpackM, Src.sem, structDec, bind, Except.bind]
    cases s.unpack env.plat b with
    | error e => exact ⟨st, rfl, ⟨_, Adv.refl ..⟩, rfl⟩
    | ok vs => exact ⟨vs, st, rfl, rfl, ⟨rfl, rfl, nofun, fun _ => rfl⟩, rfl⟩
  | «at» b off =>
    simp only [structUnpackM, Src.sem, structDec, bind, Except.bind]
    cases s.unpackFrom env.plat b off with
    | error e => exact ⟨st, rfl, ⟨_, Adv.refl ..⟩, rfl⟩
    | ok vs => exact ⟨vs, st, rfl, rfl, ⟨rfl, rfl, nofun, fun _ => rfl⟩, rfl⟩
  | io =>
    simp only [structUnpackM, Src.sem, structDec]
    refine Rel.step (a := (st.io.data.drop st.io.pos).take s.size)
      (st' := { st with io := { st.io with pos := st.io.pos + ((st.io.data.drop st.io.pos).take s.size).length } })
      rfl ?_
    generalize (st.io.data.drop st.io.pos).take s.size = d
    simp only [bind, Except.bind]
    cases s.unpackRead env.plat d with
    | error e => exact ⟨_, rfl, ⟨_, rfl, rfl, fun _ => rfl, fun h => (h rfl).elim⟩, rfl⟩
    | ok vs => exact ⟨vs, _, rfl, rfl, ⟨rfl, rfl, fun _ => rfl, fun h => (h rfl).elim⟩, rfl⟩

theorem structUnpackOpt_rel (env : Env) (s : Option StructSer) (src : Src) (st : St) :
    Rel (fun st' => FrR src st st' ∧ st'.cells = st.cells) (structUnpackOpt env s src)
      (.ofE (structDecOpt env s (src.sem st))) st
      (fun vs r st' => vs = r.1 ∧ Adv src r.2 st st' ∧ st'.cells = st.cells) := by
  cases s with
  | none => exact ⟨[], st, rfl, rfl, Adv.refl .., rfl⟩
  | some s => exact structUnpackM_rel env s src st

theorem Out.ofE_bind {x : Except Err α} {f : α → Except Err β} :
    Out.ofE (x >>= f) = (Out.ofE x >>= fun a => Out.ofE (f a)) := by
  cases x <;> rfl

theorem keeps_cells {a b : St} (h : b.cells = a.cells) (l : List SerId) : Keeps l a b := by
  intro id _; rw [h]

theorem dynCharUnpack_rel (env : Env) (id : SerId) (s : StructSer) (src : Src) (st : St) :
    Rel (FrR src st) (dynCharUnpack env id s src) (.ofE (dynCharDec env s (src.sem st))) st
      (fun vs r st' => vs = r.vals ∧ UPost (.dynChar id s) r src st st') := by
  simp only [dynCharUnpack, dynCharDec, Out.ofE_bind]
  refine Rel.bind ((structUnpackM_rel env s src st).mono (fun _ h => h.1) (fun _ _ _ h => h)) ?_
  rintro hv ⟨hv', pos⟩ st1 ⟨rfl, hadv, hc⟩
  cases hf : first hv with
  | error e => exact ⟨st1, rfl, hadv.frR⟩
  | ok v =>
  refine Rel.stepR (b := v) rfl ?_
  cases hn : needInt v with
  | error e =>
    refine ⟨st1, ?_, hadv.frR⟩
    show M.bind _ _ _ = _
    simp [M.bind, M.lift, bind, Except.bind, hn]
  | ok c =>
  refine Rel.step (a := c) (st' := st1) (by simp [M.lift, bind, Except.bind, hn]) (Rel.stepR (b := c) rfl ?_)
  refine Rel.step (setSize_run ..) ?_
  have hadv2 := hadv.transFr (Fr.withSize st1 id ((s.size : Int) + c).toNat)
  have hk2 : Keeps [] st (st1.withSize id ((s.size : Int) + c).toNat) :=
    (keeps_cells hc []).trans (Keeps.withSize _ _ _)
  cases src with
  | buf b =>
    refine ⟨_, _, rfl, rfl, ⟨hadv2.buf, hadv2.data, nofun, hadv2.other⟩, ?_, hk2⟩
    intro _; simp [Ser.readSize, getCellSize]
  | «at» b off =>
    simp only [Out.ofE_bind, Src.sem]
    cases hm : singleChar.matmul c with
    | error e => exact ⟨_, rfl, hadv2.frR⟩
    | ok t =>
      refine Rel.step (a := t) rfl (Rel.stepR (b := t) rfl ?_)
      have h := structUnpackOpt_rel env t ((Src.at b off).next s.size) (st1.withSize id ((s.size : Int) + c).toNat)
      rw [sem_next hadv2] at h
      show Rel _ _ (.ofE (structDecOpt env t ((PSrc.at b off).next s.size pos)) >>= _) _ _
      revert h
      show Rel _ _ (.ofE (structDecOpt env t ((PSrc.at b off).next s.size pos))) _ _ → _
      cases structDecOpt env t ((PSrc.at b off).next s.size pos) with
      | error e =>
        rintro ⟨st', h1, h2, _⟩
        exact ⟨st', h1, hadv2.frR.trans (FrR.next.1 h2)⟩
      | ok r =>
        rintro ⟨vs, st', h1, rfl, h3, h4⟩
        refine ⟨_, st', h1, rfl, hadv2.trans (Adv.next.1 h3), ?_, ?_⟩
        · intro _; simp [Ser.readSize, getCellSize, h4]
        · exact hk2.trans (keeps_cells h4 [])
  | io =>
    simp only [Out.ofE_bind, Src.sem]
    cases hm : singleChar.matmul c with
    | error e => exact ⟨_, rfl, hadv2.frR⟩
    | ok t =>
      refine Rel.step (a := t) rfl (Rel.stepR (b := t) rfl ?_)
      have h := structUnpackOpt_rel env t (Src.io.next s.size) (st1.withSize id ((s.size : Int) + c).toNat)
      rw [sem_next hadv2] at h
      show Rel _ _ (.ofE (structDecOpt env t ((PSrc.io st.io.data st.io.pos).next s.size pos)) >>= _) _ _
      revert h
      show Rel _ _ (.ofE (structDecOpt env t ((PSrc.io st.io.data st.io.pos).next s.size pos))) _ _ → _
      cases structDecOpt env t ((PSrc.io st.io.data st.io.pos).next s.size pos) with
      | error e =>
        rintro ⟨st', h1, h2, _⟩
        exact ⟨st', h1, hadv2.frR.trans (FrR.next.1 h2)⟩
      | ok r =>
        rintro ⟨vs, st', h1, rfl, h3, h4⟩
        refine ⟨_, st', h1, rfl, hadv2.trans (Adv.next.1 h3), ?_, ?_⟩
        · intro _; simp [Ser.readSize, getCellSize, h4]
        · exact hk2.trans (keeps_cells h4 [])

theorem consumingUnpack_rel (id : SerId) (src : Src) (st : St) :
    Rel (FrR src st) (consumingUnpack id src) (.ok (consumingDec (src.sem st))) st
      (fun vs r st' => vs = r.vals ∧ UPost (.consuming id) r src st st') := by
  cases src with
  | buf b =>
    refine ⟨_, _, rfl, rfl, ⟨rfl, rfl, nofun, fun _ => rfl⟩, ?_, Keeps.withSize _ _ _⟩
    intro _; simp [Ser.readSize, getCellSize, consumingDec, Src.sem]
  | «at» b off =>
    refine ⟨_, _, rfl, rfl, ⟨rfl, rfl, nofun, fun _ => rfl⟩, ?_, Keeps.withSize _ _ _⟩
    intro _; simp [Ser.readSize, getCellSize, consumingDec, Src.sem]
  | io =>
    refine ⟨_, _, rfl, rfl, ⟨rfl, rfl, fun _ => rfl, fun h => (h rfl).elim⟩, ?_, Keeps.withSize _ _ _⟩
    intro _; simp [Ser.readSize, getCellSize, consumingDec, Src.sem]

theorem terminatedUnpack_rel (id : SerId) (term : Byte) (src : Src) (st : St) :
    Rel (FrR src st) (terminatedUnpack id term src) (.ofE (terminatedDec term (src.sem st))) st
      (fun vs r st' => vs = r.vals ∧ UPost (.terminated id term) r src st st') := by
  cases src with
  | buf b =>
    simp only [terminatedUnpack, terminatedDec, Src.sem]
    cases findTerm term b with
    | none => exact ⟨st, rfl, (Adv.refl ..).frR⟩
    | some k =>
      refine ⟨_, _, rfl, rfl, ⟨rfl, rfl, nofun, fun _ => rfl⟩, ?_, Keeps.withSize _ _ _⟩
      intro _; simp [Ser.readSize, getCellSize]
  | «at» b off =>
    simp only [terminatedUnpack, terminatedDec, Src.sem]
    cases findTerm term (b.drop off) with
    | none => exact ⟨st, rfl, (Adv.refl ..).frR⟩
    | some k =>
      refine ⟨_, _, rfl, rfl, ⟨rfl, rfl, nofun, fun _ => rfl⟩, ?_, Keeps.withSize _ _ _⟩
      intro _; simp [Ser.readSize, getCellSize]
  | io =>
    simp only [terminatedUnpack, terminatedDec, Src.sem]
    refine Rel.step (a := st) (st' := st) rfl ?_
    cases termReadLoop term ((st.io.data.drop st.io.pos).length + 1) (st.io.data.drop st.io.pos) [] 0 with
    | none => exact ⟨_, rfl, _, rfl, rfl, fun _ => rfl, fun h => (h rfl).elim⟩
    | some ds =>
      obtain ⟨d, size⟩ := ds
      refine ⟨_, _, rfl, rfl, ⟨rfl, rfl, fun _ => rfl, fun h => (h rfl).elim⟩, ?_, Keeps.withSize _ _ _⟩
      intro _; simp [Ser.readSize, getCellSize]


theorem Src.seek_run (src : Src) (st st1 : St) (pos : Nat) (h : Adv src pos st st1) :
    ∃ st2, src.seek st.io.pos st1 = .ok () st2 ∧ src.sem st2 = src.sem st ∧
      Adv src (src.sem st).pos st st2 ∧ st2.cells = st1.cells := by
  cases src with
  | buf b => exact ⟨st1, rfl, rfl, ⟨h.buf, h.data, nofun, h.other⟩, rfl⟩
  | «at» b off => exact ⟨st1, rfl, rfl, ⟨h.buf, h.data, nofun, h.other⟩, rfl⟩
  | io =>
    refine ⟨_, rfl, ?_, ⟨h.buf, h.data, fun _ => rfl, fun e => (e rfl).elim⟩, rfl⟩
    simp [Src.sem, h.data]

theorem lift_bind_run {e : Except Err α} {a : α} {f : α → M β} {st : St} (h : e = .ok a) :
    (M.lift e >>= f) st = f a st := by
  subst h; rfl

theorem netTail_rel (env : Env) (id : SerId) (src : Src) (st st1 : St) (count size pos : Nat)
    (h : Adv src pos st st1) (hc : st1.cells = st.cells) :
    Rel (FrR src st) (do
        setSize id (size + count)
        match src with
        | .buf b => pure [.bytes ((b.drop size).take count)]
        | .at b off => M.lift (structUnpackFrom env.plat .default [⟨count, .str⟩] b (off + size))
        | .io => do
          let d ← ioRead count
          pure [.bytes d])
      (.ofE (match src.sem st with
        | .buf b => .ok ⟨[.bytes ((b.drop size).take count)], size + count, 0, []⟩
        | .at b off => do
          .ok ⟨← structUnpackFrom env.plat .default [⟨count, .str⟩] b (off + size), size + count, 0, []⟩
        | .io data _ =>
          let d := (data.drop pos).take count
          .ok ⟨[.bytes d], size + count, pos + d.length, []⟩)) st1
      (fun vs r st' => vs = r.vals ∧ UPost (.net id) r src st st') := by
  refine Rel.step (setSize_run ..) ?_
  have hadv2 := h.transFr (Fr.withSize st1 id (size + count))
  have hk2 : Keeps [] st (st1.withSize id (size + count)) :=
    (keeps_cells hc []).trans (Keeps.withSize _ _ _)
  have hsz : ∀ (st3 : St), st3.cells = (st1.withSize id (size + count)).cells →
      (Ser.net id).readSize st3 = .ok (size + count) st3 := by
    intro st3 h3
    simp [Ser.readSize, getCellSize, h3]
  cases src with
  | buf b => exact ⟨_, _, rfl, rfl, ⟨hadv2.buf, hadv2.data, nofun, hadv2.other⟩, fun _ => hsz _ rfl, hk2⟩
  | «at» b off =>
    simp only [Src.sem, bind, Except.bind]
    cases structUnpackFrom env.plat .default [⟨count, .str⟩] b (off + size) with
    | error e => exact ⟨_, rfl, hadv2.frR⟩
    | ok vs =>
      exact ⟨vs, _, rfl, rfl, ⟨hadv2.buf, hadv2.data, nofun, hadv2.other⟩, fun _ => hsz _ rfl, hk2⟩
  | io =>
    have e1 : (st1.withSize id (size + count)).io = st1.io := rfl
    have e2 : st1.io.pos = pos := h.ioPos rfl
    have e3 : st1.io.data = st.io.data := h.data
    refine ⟨_, _, rfl, ?_, ⟨h.buf, h.data, fun _ => ?_, fun e => (e rfl).elim⟩, fun _ => hsz _ rfl, ?_⟩
    · simp [e1, e2, e3]
    · simp [e1, e2, e3]
    · exact fun i hi => hk2 i hi

theorem netUnpack_rel (env : Env) (id : SerId) (src : Src) (st : St) :
    Rel (FrR src st) (netUnpack env id src) (.ofE (netDec env (src.sem st))) st
      (fun vs r st' => vs = r.vals ∧ UPost (.net id) r src st st') := by
  simp only [netUnpack, netDec, Out.ofE_bind]
  refine Rel.step (a := st) (st' := st) rfl ?_
  refine Rel.bind ((structUnpackM_rel env shortLen src st).mono (fun _ h => h.1) (fun _ _ _ h => h)) ?_
  rintro hv ⟨hv', pos⟩ st1 ⟨rfl, hadv, hc⟩
  cases hf : first hv with
  | error e => exact ⟨st1, rfl, hadv.frR⟩
  | ok v =>
  refine Rel.stepR (b := v) rfl ?_
  cases hn : needInt v with
  | error e =>
    refine ⟨st1, ?_, hadv.frR⟩
    show M.bind _ _ _ = _
    simp [M.bind, M.lift, bind, Except.bind, hn]
  | ok c =>
  refine Rel.step (a := c) (st' := st1) (by simp [M.lift, bind, Except.bind, hn]) (Rel.stepR (b := c) rfl ?_)
  by_cases h128 : 128 ≤ c
  · simp only [h128, ↓reduceIte, Out.ofE_bind]
    obtain ⟨st2, hs1, hs2, hs3, hs4⟩ := Src.seek_run src st st1 pos hadv
    refine Rel.step hs1 ?_
    have h2 := structUnpackM_rel env longLen src st2
    rw [hs2] at h2
    refine Rel.bind (h2.mono (fun _ h => hs3.frR.trans h.1) (fun _ _ _ h => h)) ?_
    rintro hv2 ⟨hv2', pos2⟩ st3 ⟨rfl, hadv3, hc3⟩
    have hadv3' := hs3.trans hadv3
    cases hf2 : first hv2 with
    | error e => exact ⟨st3, rfl, hadv3'.frR⟩
    | ok v2 =>
    refine Rel.stepR (b := v2) rfl ?_
    cases hn2 : needInt v2 with
    | error e =>
      refine ⟨st3, ?_, hadv3'.frR⟩
      show M.bind _ _ _ = _
      simp [M.bind, M.lift, bind, Except.bind, hn2]
    | ok c2 =>
    refine Rel.step (a := c2) (st' := st3) (by simp [M.lift, bind, Except.bind, hn2]) (Rel.stepR (b := c2) rfl ?_)
    cases hd : netDecode c2.toNat with
    | error e => exact ⟨st3, rfl, hadv3'.frR⟩
    | ok k =>
      refine Rel.step (a := k) (st' := st3) rfl (Rel.step (a := (k, longLen.size)) (st' := st3) rfl ?_)
      exact netTail_rel env id src st st3 k longLen.size pos2 hadv3' (hc3.trans (hs4.trans hc))
  · simp only [h128, ↓reduceIte]
    refine Rel.step (a := (c.toNat, shortLen.size)) (st' := st1) rfl ?_
    exact netTail_rel env id src st st1 _ _ pos hadv hc

/-! ### Containers -/

theorem unpackLoop_rel {unpackN : Ser → Src → M (List Val)} {decN : Ser → Option PObj → PSrc → Out Dec}
    (hN : UnpackRel unpackN decN) (src : Src) (st0 : St) :
    ∀ ss size pos st, Adv src pos st0 st →
      Rel (FrR src st0) (unpackLoop unpackN src size ss) (decLoop decN (src.sem st0) size pos ss) st
        (fun r d st' => r.1 = d.vals ∧ r.2 = d.size ∧ Adv src d.pos st0 st' ∧ Keeps d.touched st st') := by
  intro ss
  induction ss with
  | nil => intro size pos st h; exact Rel.pure ⟨rfl, rfl, h, Keeps.refl _ _⟩
  | cons s ss ih =>
    intro size pos st h
    rw [unpackLoop, decLoop]
    have h1 := hN s none (src.next size) st (Primed.none _ _)
    rw [sem_next h] at h1
    refine Rel.bind (h1.mono (fun _ k => h.frR.trans (FrR.next.1 k)) (fun _ _ _ k => k)) ?_
    rintro vs a st1 ⟨rfl, post⟩
    have hadv := h.trans (Adv.next.1 post.adv)
    refine Rel.size hadv.frR post.size ?_
    intro _
    refine Rel.bind (ih (size + a.size) a.pos st1 hadv) ?_
    rintro ⟨rest, total⟩ r st2 ⟨rfl, rfl, h3, h4⟩
    exact Rel.pure ⟨rfl, rfl, h3, post.keeps.trans h4⟩

theorem unpackLoopSpec_rel {unpackN : Ser → Src → M (List Val)} {decN : Ser → Option PObj → PSrc → Out Dec}
    (hN : UnpackRel unpackN decN) (upd : Upd) (src : Src) (st0 : St) :
    ∀ ss p done size pos st, Adv src pos st0 st →
      Rel (FrR src st0) (unpackLoopSpec unpackN upd src p done size ss)
        (decLoopSpec decN upd (src.sem st0) p done size pos ss) st
        (fun r d st' => r.1 = d.vals ∧ r.2 = d.size ∧ Adv src d.pos st0 st' ∧ Keeps d.touched st st') := by
  intro ss
  induction ss with
  | nil => intro p done size pos st h; exact Rel.pure ⟨rfl, rfl, h, Keeps.refl _ _⟩
  | cons s ss ih =>
    intro p done size pos st h
    rw [unpackLoopSpec, decLoopSpec]
    refine Rel.bind ((preunpack_rel s p st).mono (fun _ k => (h.transFr k).frR) (fun _ _ _ k => k)) ?_
    rintro s' ⟨s'', q⟩ st1 ⟨rfl, hpre, hp, hf1, hk1⟩
    have h' := h.transFr hf1
    have h1 := hN s' q (src.next size) st1 hp
    rw [sem_next h'] at h1
    refine Rel.bind (h1.mono (fun _ k => h'.frR.trans (FrR.next.1 k)) (fun _ _ _ k => k)) ?_
    rintro vs a st2 ⟨rfl, post⟩
    have hadv := h'.trans (Adv.next.1 post.adv)
    refine Rel.bind (Rel.lift hadv.frR (Φ := fun a b st' => a = b ∧ st' = st2) (by simp)) ?_
    rintro p' _ _ ⟨rfl, rfl⟩
    refine Rel.size hadv.frR post.size ?_
    intro _
    refine Rel.bind (ih p' _ _ a.pos _ hadv) ?_
    rintro ⟨rest, total⟩ r st3 ⟨rfl, rfl, h3, h4⟩
    exact Rel.pure ⟨rfl, rfl, h3, (hk1.trans post.keeps).trans h4⟩

theorem unpackItems_rel {unpackN : Ser → Src → M (List Val)} {decN : Ser → Option PObj → PSrc → Out Dec}
    (hN : UnpackRel unpackN decN) (item : Ser) (q : Option PObj) (src : Src) (st0 : St) :
    ∀ k size pos st, Adv src pos st0 st → Primed item q st →
      Rel (FrR src st0) (unpackItems unpackN item src size k)
        (decItems decN item q (src.sem st0) size pos k) st
        (fun r d st' => r.1 = d.vals ∧ r.2 = d.size ∧ Adv src d.pos st0 st' ∧ Keeps d.touched st st') := by
  intro k
  induction k with
  | zero => intro size pos st h _; exact Rel.pure ⟨rfl, rfl, h, Keeps.refl _ _⟩
  | succ k ih =>
    intro size pos st h hp
    rw [unpackItems, decItems]
    have h1 := hN item q (src.next size) st hp
    rw [sem_next h] at h1
    refine Rel.bind (h1.mono (fun _ k => h.frR.trans (FrR.next.1 k)) (fun _ _ _ k => k)) ?_
    rintro vs a st1 ⟨rfl, post⟩
    have hadv := h.trans (Adv.next.1 post.adv)
    refine Rel.size hadv.frR post.size ?_
    intro _
    split
    · trivial
    · rename_i hno
      have hp2 : Primed item q st1 := hp.keep post.keeps (by
        intro id hid
        simpa [hid] using hno)
      refine Rel.bind (ih (size + a.size) a.pos st1 hadv hp2) ?_
      rintro ⟨rest, total⟩ r st2 ⟨rfl, rfl, h3, h4⟩
      exact Rel.pure ⟨rfl, rfl, h3, post.keeps.trans h4⟩

theorem createUnpackWith_rel {env : Env} {unpackN : Upd → Ser → Src → M (List Val)}
    {decN : Upd → Ser → Option PObj → PSrc → Out Dec} (hN : ∀ upd, UnpackRel (unpackN upd) (decN upd))
    (cls : ClassId) (src : Src) (st : St) :
    Rel (FrR src st) (createUnpackWith env unpackN cls src) (decObj env decN cls (src.sem st)) st
      (fun a r st' => a.1 = r.1 ∧ a.2 = r.2.2 ∧ Adv src r.2.1.pos st st' ∧
        SizeIs r.2.2 r.2.1.size st' ∧ Keeps r.2.1.touched st st') := by
  simp only [createUnpackWith, decObj]
  cases env.classes cls with
  | none => exact Rel.throw (Adv.refl ..).frR
  | some ci =>
    simp only
    refine Rel.bind ((preunpack_rel ci.serializer _ st).mono (fun _ k => FrR.of_fr k) (fun _ _ _ k => k)) ?_
    rintro s' ⟨s'', q⟩ st1 ⟨rfl, hpre, hp, hf1, hk1⟩
    have h1 := hN (assignVals ci.attrs) s' q src st1 hp
    rw [sem_fr hf1] at h1
    refine Rel.bind (h1.mono (fun _ k => (FrR.of_fr hf1).trans k) (fun _ _ _ k => k)) ?_
    rintro vs a st2 ⟨rfl, post⟩
    have hadv := hf1.transAdv post.adv
    refine Rel.bind (Rel.lift hadv.frR (Φ := fun a b st' => a = b ∧ st' = st2) (by simp)) ?_
    rintro v _ _ ⟨rfl, rfl⟩
    refine Rel.pure ⟨rfl, rfl, hadv, ?_, hk1.trans post.keeps⟩
    intro hs
    obtain ⟨h1, h2⟩ := preU_readSize hpre hs
    show ci.serializer.readSize _ = _
    rw [h1]
    exact post.size h2

theorem unionUnpack_rel {unpackN : Ser → Src → M (List Val)} {decN : Ser → Option PObj → PSrc → Out Dec}
    (hN : UnpackRel unpackN decN) {u : Ser} {id : SerId} {keys : List Val} {opts : List Ser} {dflt : Ser}
    {r : Val} {p : PObj} {src : Src} {st : St} (hg : getPart id st = .ok p st)
    (hs : ∀ st', u.readSize st' = .ok ((st'.cells id).size) st') :
    Rel (FrR src st) (do
        let s ← getSerializer false id keys opts dflt r
        unionUnpack unpackN id s src)
      (decUnion decN keys opts dflt p r (src.sem st)) st
      (fun vs r st' => vs = r.vals ∧ UPost u r src st st') := by
  unfold decUnion
  cases hu : unionPick keys opts dflt r with
  | error e =>
    refine ⟨st, ?_, (Adv.refl ..).frR⟩
    show M.bind (M.bind _ _) _ _ = _
    simp [M.bind, M.lift, hu]
  | ok s =>
    have e1 : getSerializer false id keys opts dflt r st = s.preunpack p st := by
      show M.bind _ _ st = _
      simp only [M.bind, M.lift, hu]
      show M.bind _ _ st = _
      simp only [M.bind, hg]; rfl
    refine Rel.stepR (b := s) rfl ?_
    have hpr := preunpack_rel s p st
    refine Rel.bind (x := getSerializer false id keys opts dflt r) (o := Out.ofE (preU s p))
      (Φ := fun s' x st' => s' = x.1 ∧ preU s p = .ok x ∧ Primed x.1 x.2 st' ∧ Fr st st' ∧
        Keeps (touch s) st st') ?_ ?_
    · have := hpr.mono (F' := FrR src st) (fun _ k => FrR.of_fr k) (fun _ _ _ k => k)
      unfold Rel at this ⊢
      rw [e1]
      exact this
    rintro s' ⟨s'', q⟩ st1 ⟨rfl, hpre, hp, hf1, hk1⟩
    simp only [unionUnpack]
    split
    · trivial
    · have h1 := hN s' q src st1 hp
      rw [sem_fr hf1] at h1
      refine Rel.bind (h1.mono (fun _ k => (FrR.of_fr hf1).trans k) (fun _ _ _ k => k)) ?_
      rintro vs a st2 ⟨rfl, post⟩
      have hadv := hf1.transAdv post.adv
      refine Rel.size hadv.frR post.size ?_
      intro _
      refine Rel.step (setSize_run ..) (Rel.pure ⟨rfl, hadv.transFr (Fr.withSize ..), ?_, ?_⟩)
      · intro _; rw [hs]; simp
      · simpa using (hk1.trans post.keeps).trans (Keeps.withSize st2 id a.size)

/-- `unpack`, `unpack_from` and `unpack_read` compute `Sem.dec`. -/
theorem unpack_rel (env : Env) (n : Nat) (upd : Upd) : UnpackRel (unpack env n upd) (dec env n upd) := by
  induction n generalizing upd with
  | zero => intro s q src st _; exact Rel.throw (Adv.refl ..).frR
  | succ n ih =>
    intro s q src st hp
    cases s with
    | null => exact Rel.pure ⟨rfl, Adv.refl .., fun _ => rfl, Keeps.refl _ _⟩
    | struct s =>
      simp only [unpack, dec]
      have h := structUnpackM_rel env s src st
      revert h
      cases structDec env s (src.sem st) with
      | error e => rintro ⟨st', h1, h2, _⟩; exact ⟨st', h1, h2⟩
      | ok r =>
        rintro ⟨vs, st', h1, rfl, h3, h4⟩
        exact ⟨_, st', h1, rfl, h3, fun _ => rfl, keeps_cells h4 _⟩
    | dynChar id s => exact dynCharUnpack_rel env id s src st
    | net id => exact netUnpack_rel env id src st
    | consuming id => exact consumingUnpack_rel id src st
    | terminated id term => exact terminatedUnpack_rel id term src st
    | dynArr id c i =>
      simp only [unpack, dec, Out.ofE_bind]
      refine Rel.bind ((structUnpackM_rel env c src st).mono (fun _ h => h.1) (fun _ _ _ h => h)) ?_
      rintro hv ⟨hv', pos⟩ st1 ⟨rfl, hadv, hc⟩
      have tail : ∀ v, Rel (FrR src st) (do
            let c' ← M.lift (needInt v)
            let s ← M.lift (i.mul c')
            let vs ← structUnpackOpt env s (src.next c.size)
            setSize id (c.size + s.elim 0 StructSer.size)
            pure [.list vs])
          (.ofE (do
            let c' ← needInt v
            let s ← i.mul c'
            let (vs, pos') ← structDecOpt env s ((src.sem st).next c.size pos)
            .ok ⟨[.list vs], c.size + s.elim 0 StructSer.size, pos', []⟩)) st1
          (fun vs r st' => vs = r.vals ∧ UPost (.dynArr id c i) r src st st') := by
        intro v
        simp only [Out.ofE_bind]
        refine Rel.bind (Rel.lift hadv.frR (Φ := fun a b st' => a = b ∧ st' = st1) (by simp)) ?_
        rintro c' _ _ ⟨rfl, rfl⟩
        rename_i st1
        refine Rel.bind (Rel.lift hadv.frR (Φ := fun a b st' => a = b ∧ st' = st1) (by simp)) ?_
        rintro s _ _ ⟨rfl, rfl⟩
        rename_i st1
        have h1 := structUnpackOpt_rel env s (src.next c.size) st1
        rw [sem_next hadv] at h1
        refine Rel.bind (h1.mono (fun _ k => hadv.frR.trans (FrR.next.1 k.1)) (fun _ _ _ k => k)) ?_
        rintro vs ⟨vs', pos'⟩ st2 ⟨rfl, hadv2, hc2⟩
        have hadv3 := hadv.trans (Adv.next.1 hadv2)
        refine Rel.step (setSize_run ..) (Rel.pure ⟨rfl, hadv3.transFr (Fr.withSize ..), ?_, ?_⟩)
        · intro _; simp [Ser.readSize, getCellSize]
        · exact (keeps_cells (hc2.trans hc) []).trans (Keeps.withSize _ _ _)
      rcases hv with _ | ⟨v, _ | ⟨w, ws⟩⟩
      · exact Rel.throw hadv.frR
      · exact tail v
      · exact Rel.throw hadv.frR
    | unicode inner en de =>
      simp only [unpack, dec]
      refine Rel.bind (ih noUpd inner none src st (Primed.none _ _)) ?_
      rintro vs a st1 ⟨rfl, post⟩
      cases hd : unicodeDecode de a.vals with
      | error e => exact ⟨st1, rfl, post.adv.frR⟩
      | ok ws =>
        exact ⟨ws, st1, rfl, rfl, post.adv, fun h => post.size (by simpa [Ser.sized] using h), post.keeps⟩
    | array id hdr item sl =>
      simp only [unpack, dec]
      refine Rel.bind ((structUnpackOpt_rel env hdr src st).mono (fun _ h => h.1) (fun _ _ _ h => h)) ?_
      rintro hv ⟨hv', pos⟩ st1 ⟨rfl, hadv, hc⟩
      refine Rel.bind (Rel.lift hadv.frR (Φ := fun a b st' => a = b ∧ st' = st1) (by simp)) ?_
      rintro ⟨count, ds⟩ _ _ ⟨rfl, rfl⟩
      cases q with
      | none => trivial
      | some p =>
        rename_i st1
        have hp1 : Primed (.array id hdr item sl) (some p) st1 := by
          intro p' hp'; obtain ⟨i, h1, h2⟩ := hp p' hp'; exact ⟨i, h1, by rw [hc]; exact h2⟩
        refine Rel.step (hp1.getPart rfl) ?_
        refine Rel.bind ((preunpack_rel item p st1).mono (fun _ k => (hadv.transFr k).frR) (fun _ _ _ k => k)) ?_
        rintro item' ⟨i', qi⟩ st2 ⟨rfl, hpre, hp2, hf2, hk2⟩
        refine Rel.bind (unpackItems_rel (ih noUpd) item' qi src st _ _ pos st2 (hadv.transFr hf2) hp2) ?_
        rintro ⟨items, size⟩ r st3 ⟨rfl, rfl, hadv3, hk3⟩
        refine Rel.bind (Rel.lift hadv3.frR (Φ := fun a b st' => a = b ∧ st' = st3) (by simp)) ?_
        rintro _ _ _ ⟨rfl, rfl⟩
        refine Rel.step (setSize_run ..) (Rel.pure ⟨rfl, hadv3.transFr (Fr.withSize ..), ?_, ?_⟩)
        · intro _; simp [Ser.readSize, getCellSize]
        · have := (((keeps_cells hc []).trans hk2).trans hk3).trans (Keeps.withSize _ id r.size)
          simpa using this
    | staticArr count item ser =>
      simp only [unpack, dec, Out.ofE_bind]
      refine Rel.bind ((structUnpackOpt_rel env ser src st).mono (fun _ h => h.1) (fun _ _ _ h => h)) ?_
      rintro vs ⟨vs', pos⟩ st1 ⟨rfl, hadv, hc⟩
      exact Rel.pure ⟨rfl, hadv, fun _ => rfl, keeps_cells hc _⟩
    | tuple id inner =>
      simp only [unpack, dec]
      cases q with
      | none => trivial
      | some p =>
        refine Rel.step (hp.getPart rfl) ?_
        refine Rel.bind ((preunpack_rel inner p st).mono (fun _ k => FrR.of_fr k) (fun _ _ _ k => k)) ?_
        rintro inner' ⟨i', qi⟩ st1 ⟨rfl, hpre, hp1, hf1, hk1⟩
        simp only
        split
        · trivial
        · have h1 := ih noUpd inner' qi src st1 hp1
          rw [sem_fr hf1] at h1
          refine Rel.bind (h1.mono (fun _ k => (FrR.of_fr hf1).trans k) (fun _ _ _ k => k)) ?_
          rintro vs a st2 ⟨rfl, post⟩
          refine Rel.pure ⟨rfl, hf1.transAdv post.adv, ?_, hk1.trans post.keeps⟩
          intro hs
          obtain ⟨h1, h2⟩ := preU_readSize hpre (by simpa [Ser.sized] using hs)
          show inner.readSize st2 = _
          rw [h1]
          exact post.size h2
    | lookback id d k o df =>
      simp only [unpack, dec]
      cases q with
      | none => trivial
      | some p =>
        have hg := hp.getPart (id := id) rfl
        refine Rel.step hg ?_
        refine Rel.bind (Rel.lift (Adv.refl src st).frR (Φ := fun a b st' => a = b ∧ st' = st) (by simp)) ?_
        rintro r _ _ ⟨rfl, rfl⟩
        exact unionUnpack_rel (ih noUpd) hg (fun _ => rfl)
    | lookahead id ra d k o df =>
      simp only [unpack, dec]
      refine Rel.bind (ih noUpd ra none src st (Primed.none _ _)) ?_
      rintro hv hr st1 ⟨rfl, post⟩
      refine Rel.bind (Rel.lift post.adv.frR (Φ := fun a b st' => a = b ∧ st' = st1) (by simp)) ?_
      rintro r _ _ ⟨rfl, rfl⟩
      rename_i st1
      have hback : src = .io → ra.sized = true → ∃ st2, src.rewind ra st1 = .ok () st2 ∧
          src.sem st2 = (src.sem st).back hr.pos hr.size ∧
          Adv src (st2.io.pos) st st2 ∧ st2.cells = st1.cells := by
        rintro rfl hsz
        refine ⟨{ st1 with io := st1.io.seekCur (-(hr.size : Int)) }, ?_, ?_,
          ⟨post.adv.buf, post.adv.data, fun _ => rfl, fun e => (e rfl).elim⟩, rfl⟩
        · show M.bind _ _ _ = _
          simp only [M.bind, post.size hsz]; rfl
        · simp only [Src.sem, PSrc.back, Stream.seekCur, post.adv.data, post.adv.ioPos rfl]
          rfl
      have hother : src ≠ .io → src.rewind ra st1 = .ok () st1 ∧
          src.sem st1 = (src.sem st).back hr.pos hr.size ∧ (src.sem st).isIo = false := by
        intro h
        cases src with
        | buf b => exact ⟨rfl, rfl, rfl⟩
        | «at» b off => exact ⟨rfl, rfl, rfl⟩
        | io => exact (h rfl).elim
      by_cases hio : src = .io
      · by_cases hsz : ra.sized = true
        · obtain ⟨st2, h1, h2, h3, h4⟩ := hback hio hsz
          rw [if_neg (by simp [hsz])]
          split
          · trivial
          · rename_i hno
            cases q with
            | none => trivial
            | some p =>
              refine Rel.step h1 ?_
              have hp2 : Primed (.lookahead id ra d k o df) (some p) st2 := by
                refine (hp.keep post.keeps ?_ : Primed _ _ st1).keep (keeps_cells h4 []) (by simp)
                intro id' hid'
                cases hid'
                simpa using hno
              have hg := hp2.getPart (id := id) rfl
              have hu := unionUnpack_rel (u := .lookahead id ra d k o df) (keys := k) (opts := o)
                (dflt := df) (r := r) (src := src) (ih noUpd) hg (fun _ => rfl)
              rw [h2] at hu
              revert hu
              show Rel _ _ _ _ _ → Rel _ _ (decUnion (dec env n noUpd) k o df p r ((src.sem st).back hr.pos hr.size) >>= _) _ _
              cases decUnion (dec env n noUpd) k o df p r ((src.sem st).back hr.pos hr.size) with
              | stuck => intro _; trivial
              | err e => rintro ⟨st', h5, h6⟩; exact ⟨st', h5, h3.frR.trans h6⟩
              | ok a =>
                rintro ⟨vs, st', h5, rfl, h6⟩
                refine ⟨_, st', h5, rfl, h3.trans h6.adv, h6.size, ?_⟩
                have := (post.keeps.trans (keeps_cells h4 [])).trans h6.keeps
                simpa using this
        · rw [if_pos (by subst hio; simpa [Src.sem, PSrc.isIo] using hsz)]
          refine ⟨st1, ?_, post.adv.frR⟩
          subst hio
          show M.bind (M.bind _ _) _ _ = _
          simp [M.bind, readSize_unsized ra (by simpa using hsz) st1]
      · obtain ⟨h1, h2, h3⟩ := hother hio
        rw [if_neg (by simp [h3])]
        split
        · trivial
        · rename_i hno
          cases q with
          | none => trivial
          | some p =>
            refine Rel.step h1 ?_
            have hp2 : Primed (.lookahead id ra d k o df) (some p) st1 := by
              refine (hp.keep post.keeps ?_ : Primed _ _ st1)
              intro id' hid'
              cases hid'
              simpa using hno
            have hg := hp2.getPart (id := id) rfl
            have hu := unionUnpack_rel (u := .lookahead id ra d k o df) (keys := k) (opts := o)
              (dflt := df) (r := r) (src := src) (ih noUpd) hg (fun _ => rfl)
            rw [h2] at hu
            revert hu
            show Rel _ _ _ _ _ → Rel _ _ (decUnion (dec env n noUpd) k o df p r ((src.sem st).back hr.pos hr.size) >>= _) _ _
            cases decUnion (dec env n noUpd) k o df p r ((src.sem st).back hr.pos hr.size) with
            | stuck => intro _; trivial
            | err e => rintro ⟨st', h5, h6⟩; exact ⟨st', h5, post.adv.frR.trans h6⟩
            | ok a =>
              rintro ⟨vs, st', h5, rfl, h6⟩
              exact ⟨_, st', h5, rfl, post.adv.trans h6.adv, h6.size, post.keeps.trans h6.keeps⟩
    | cond => exact Rel.throw (Adv.refl ..).frR
    | skip vals => exact Rel.pure ⟨rfl, Adv.refl .., fun _ => rfl, Keeps.refl _ _⟩
    | structured id cls =>
      simp only [unpack, dec]
      refine Rel.bind (createUnpackWith_rel ih cls src st) ?_
      rintro ⟨v, ser⟩ ⟨v', r, ser'⟩ st1 ⟨h1, h2, hadv, hs1, hk1⟩
      simp only at h1 h2 hadv hs1 hk1
      subst h1 h2
      refine Rel.size hadv.frR hs1 ?_
      intro _
      refine Rel.step (setSize_run ..) (Rel.pure ⟨rfl, hadv.transFr (Fr.withSize ..), ?_, ?_⟩)
      · intro _; simp [Ser.readSize, getCellSize]
      · simpa using hk1.trans (Keeps.withSize st1 id r.size)
    | selfT => exact Rel.throw (Adv.refl ..).frR
    | compound id ss =>
      simp only [unpack, dec]
      have h := unpackLoop_rel (ih noUpd) src st ss 0 (src.sem st).pos st (Adv.refl ..)
      revert h
      cases decLoop (dec env n noUpd) (src.sem st) 0 (src.sem st).pos ss with
      | stuck => intro _; trivial
      | err e =>
        rintro ⟨st', h1, h2⟩
        refine ⟨st', ?_, h2⟩
        show M.bind _ _ _ = _
        simp [M.bind, h1]
      | ok r =>
        rintro ⟨⟨vs, t⟩, st', h1, rfl, rfl, h4, h5⟩
        refine ⟨_, st'.withSize id r.size, ?_, rfl, h4.transFr (Fr.withSize ..), ?_, ?_⟩
        · show M.bind _ _ _ = _
          simp only [M.bind, h1]; rfl
        · intro _; simp [Ser.readSize, getCellSize]
        · simpa using h5.trans (Keeps.withSize st' id r.size)
    | specialized id p ss =>
      simp only [unpack, dec]
      have h := unpackLoopSpec_rel (ih noUpd) upd src st ss p 0 0 (src.sem st).pos st (Adv.refl ..)
      revert h
      cases decLoopSpec (dec env n noUpd) upd (src.sem st) p 0 0 (src.sem st).pos ss with
      | stuck => intro _; trivial
      | err e =>
        rintro ⟨st', h1, h2⟩
        refine ⟨st', ?_, h2⟩
        show M.bind _ _ _ = _
        simp [M.bind, h1]
      | ok r =>
        rintro ⟨⟨vs, t⟩, st', h1, rfl, rfl, h4, h5⟩
        refine ⟨_, st'.withSize id r.size, ?_, rfl, h4.transFr (Fr.withSize ..), ?_, ?_⟩
        · show M.bind _ _ _ = _
          simp only [M.bind, h1]; rfl
        · intro _; simp [Ser.readSize, getCellSize]
        · simpa using h5.trans (Keeps.withSize st' id r.size)

end Verif
