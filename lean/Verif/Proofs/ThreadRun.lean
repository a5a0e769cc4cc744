import Verif.Threads
/-
A thread that runs alone does what `Ops.lean` says.
-/
namespace Verif.Threads

theorem exec_bind (x : Prog α) (f : α → Prog β) : ∀ c, (x.bind f).exec c = (f (x.exec c).1).exec (x.exec c).2 := by
  induction x with
  | ret a => intro c; rfl
  | getSize id k ih => intro c; simp only [Prog.bind, Prog.exec]; exact ih _ _
  | getPart id k ih => intro c; simp only [Prog.bind, Prog.exec]; exact ih _ _
  | setSize id n k ih => intro c; simp only [Prog.bind, Prog.exec]; exact ih _
  | setPart id p k ih => intro c; simp only [Prog.bind, Prog.exec]; exact ih _

/-- Running is a monad morphism. -/
theorem run_bind (x : T α) (f : α → T β) : T.run (x >>= f) = T.run x >>= fun a => T.run (f a) := by
  funext st
  show T.run (T.bind x f) st = M.bind (T.run x) _ st
  simp only [T.run, T.bind, M.bind, exec_bind]
  generalize (x ⟨st.buf, st.io⟩).exec st.cells = y
  obtain ⟨⟨r, l⟩, c⟩ := y
  cases r <;> rfl

@[simp] theorem run_pure (a : α) : T.run (pure a : T α) = pure a := rfl
@[simp] theorem run_pure' (a : α) : T.run (T.pure a : T α) = pure a := rfl
@[simp] theorem run_throw (e : Err) : T.run (T.throw e : T α) = M.throw e := rfl
@[simp] theorem run_lift (x : Except Err α) : T.run (T.lift x) = M.lift x := by cases x <;> rfl
@[simp] theorem run_setSize (i : SerId) (n : Nat) : T.run (setSize i n) = Verif.setSize i n := rfl
@[simp] theorem run_setPart (i : SerId) (p : PObj) : T.run (setPart i p) = Verif.setPart i p := rfl
@[simp] theorem run_getCellSize (i : SerId) : T.run (getCellSize i) = Verif.getCellSize i := rfl
@[simp] theorem run_getPart (i : SerId) : T.run (getPart i) = Verif.getPart i := by
  funext st
  simp only [T.run, getPart, Verif.getPart, Prog.exec]
  cases (st.cells i).part <;> rfl

/-- The same steps, one after the other. -/
theorem run_bind_eq {x : T α} {y : M α} {f : α → T β} {g : α → M β} (h1 : T.run x = y) (h2 : ∀ a, T.run (f a) = g a) :
    T.run (x >>= f) = y >>= g := by
  rw [run_bind, h1]
  congr 1
  funext a
  exact h2 a

theorem run_get_eq {f : Loc → T α} {g : St → M α} {st : St} (h : T.run (f ⟨st.buf, st.io⟩) st = g st st) :
    T.run (T.get >>= f) st = (M.get >>= g) st := h

theorem run_readSize : ∀ s : Ser, T.run (readSize s) = s.readSize
  | .unicode inner _ _ => by rw [readSize, Ser.readSize]; exact run_readSize inner
  | .tuple _ inner => by rw [readSize, Ser.readSize]; exact run_readSize inner
  | .null | .struct _ | .dynChar _ _ | .consuming _ | .terminated _ _ | .net _ | .array _ _ _ _ | .staticArr _ _ _ | .dynArr _ _ _
  | .lookback _ _ _ _ _ | .lookahead _ _ _ _ _ _ | .cond _ _ _ | .skip _ | .structured _ _ | .selfT _ | .compound _ _
  | .specialized _ _ _ => rfl

theorem run_prepack (s : Ser) (p : PObj) : T.run (prepack s p) = s.prepack p := by
  cases s <;> first | rfl | exact run_lift _

theorem run_preunpack (s : Ser) (p : PObj) : T.run (preunpack s p) = s.preunpack p := by
  cases s <;> first | rfl | exact run_lift _

theorem run_getSerializer (packing id keys opts dflt r) :
    T.run (getSerializer packing id keys opts dflt r) = Verif.getSerializer packing id keys opts dflt r := by
  refine run_bind_eq (run_lift _) fun s => run_bind_eq (run_getPart _) fun p => ?_
  cases packing
  · exact run_preunpack s p
  · exact run_prepack s p

theorem run_packLoop {f : Ser → List Val → T Bytes} {g : Ser → List Val → M Bytes} {pre : Ser → T Ser} {pre' : Ser → M Ser}
    (h : ∀ s vs, T.run (f s vs) = g s vs) (hp : ∀ s, T.run (pre s) = pre' s) :
    ∀ ss vs, T.run (packLoop f pre ss vs) = Verif.packLoop g pre' ss vs
  | [], _ => rfl
  | s :: ss, vs => by
    refine run_bind_eq (hp s) fun s' => run_bind_eq (h _ _) fun b => run_bind_eq (run_readSize _) fun sz =>
      run_bind_eq (run_packLoop h hp ss _) fun a => rfl

theorem run_packItems {f : Ser → List Val → T Bytes} {g : Ser → List Val → M Bytes} (h : ∀ s vs, T.run (f s vs) = g s vs) (item : Ser) :
    ∀ vs, T.run (packItems f item vs) = Verif.packItems g item vs
  | [] => rfl
  | _ :: vs => run_bind_eq (h _ _) fun _ => run_bind_eq (run_readSize _) fun _ => run_bind_eq (run_packItems h item vs) fun _ => rfl

theorem run_objPack (env : Env) {f : Ser → List Val → T Bytes} {g : Ser → List Val → M Bytes} (h : ∀ s vs, T.run (f s vs) = g s vs)
    (v : Val) : T.run (objPack env f v) = Verif.objPack env g v := by
  cases v with
  | obj cls bo attrs =>
    exact run_bind_eq (run_lift _) fun _ => run_bind_eq (run_prepack _ _) fun _ => run_bind_eq (run_lift _) fun _ =>
      run_bind_eq (h _ _) fun _ => rfl
  | _ => rfl

theorem run_pack (env : Env) : ∀ n s vs, T.run (pack env n s vs) = Verif.pack env n s vs
  | 0, _, _ => rfl
  | n + 1, s, vs => by
    have ih := run_pack env n
    cases s with
    | null => rfl
    | struct st => exact run_lift _
    | dynChar id st => exact run_bind_eq (run_lift _) fun _ => run_bind_eq (run_setSize _ _) fun _ => run_lift _
    | consuming id => exact run_bind_eq (run_lift _) fun _ => run_bind_eq (run_setSize _ _) fun _ => rfl
    | terminated id term => exact run_bind_eq (run_lift _) fun _ => run_bind_eq (run_setSize _ _) fun _ => run_lift _
    | net id => exact run_bind_eq (run_lift _) fun _ => run_bind_eq (run_setSize _ _) fun _ => run_lift _
    | unicode inner enc dec => exact run_bind_eq (run_lift _) fun _ => ih _ _
    | array id hdr item sl =>
      exact run_bind_eq (run_getPart _) fun _ => run_bind_eq (run_prepack _ _) fun _ => run_bind_eq (run_lift _) fun _ =>
        run_bind_eq (run_lift _) fun _ => run_bind_eq (run_packItems ih _ _) fun _ => run_bind_eq (run_lift _) fun _ =>
        run_bind_eq (run_lift _) fun _ => run_bind_eq (run_setSize _ _) fun _ => rfl
    | staticArr count item ser => exact run_bind_eq (run_lift _) fun _ => run_lift _
    | dynArr id cnt item => exact run_bind_eq (run_lift _) fun _ => run_bind_eq (run_setSize _ _) fun _ => run_lift _
    | tuple id inner =>
      match vs with
      | [v] =>
        exact run_bind_eq (run_getPart _) fun _ => run_bind_eq (run_prepack _ _) fun _ => run_bind_eq (run_lift _) fun _ => ih _ _
      | [] | _ :: _ :: _ => rfl
    | lookback id decider keys opts dflt =>
      exact run_bind_eq (run_getPart _) fun _ => run_bind_eq (run_lift _) fun _ => run_bind_eq (run_getSerializer ..) fun _ =>
        run_bind_eq (ih _ _) fun _ => run_bind_eq (run_readSize _) fun _ => run_bind_eq (run_setSize _ _) fun _ => rfl
    | lookahead id ra decider keys opts dflt =>
      exact run_bind_eq (run_getPart _) fun _ => run_bind_eq (run_lift _) fun _ => run_bind_eq (run_getSerializer ..) fun _ =>
        run_bind_eq (ih _ _) fun _ => run_bind_eq (run_readSize _) fun _ => run_bind_eq (run_setSize _ _) fun _ => rfl
    | cond => rfl
    | skip => rfl
    | structured id cls =>
      match vs with
      | [v] =>
        exact run_bind_eq (run_objPack env ih _) fun _ => run_bind_eq (run_readSize _) fun _ => run_bind_eq (run_setSize _ _) fun _ => rfl
      | [] | _ :: _ :: _ => rfl
    | selfT => rfl
    | compound id ss =>
      exact run_bind_eq (run_packLoop ih (fun _ => rfl) _ _) fun _ => run_bind_eq (run_setSize _ _) fun _ => rfl
    | specialized id p ss =>
      exact run_bind_eq (run_packLoop ih (fun _ => run_prepack _ _) _ _) fun _ => run_bind_eq (run_setSize _ _) fun _ => rfl

/-! ### `pack_into` -/

theorem run_structPackInto (env s off vs) : T.run (structPackIntoM env s off vs) = Verif.structPackIntoM env s off vs := by
  funext st
  simp only [T.run, structPackIntoM, Verif.structPackIntoM]
  generalize s.packInto env.plat st.buf off vs = y
  obtain ⟨b, o⟩ := y
  cases o <;> rfl

theorem run_packIntoOpt (env s off vs) : T.run (packIntoOpt env s off vs) = Verif.packIntoOpt env s off vs := by
  cases s with
  | none => rfl
  | some s => exact run_structPackInto env s off vs

theorem run_packIntoLoop {f : Ser → Nat → List Val → T Unit} {g : Ser → Nat → List Val → M Unit} {pre : Ser → T Ser}
    {pre' : Ser → M Ser} (h : ∀ s off vs, T.run (f s off vs) = g s off vs) (hp : ∀ s, T.run (pre s) = pre' s) (off : Nat) :
    ∀ size ss vs, T.run (packIntoLoop f pre off size ss vs) = Verif.packIntoLoop g pre' off size ss vs
  | _, [], _ => rfl
  | _, s :: ss, _ => run_bind_eq (hp s) fun _ => run_bind_eq (h _ _ _) fun _ => run_bind_eq (run_readSize _) fun _ =>
      run_packIntoLoop h hp off _ ss _

theorem run_packIntoItems {f : Ser → Nat → List Val → T Unit} {g : Ser → Nat → List Val → M Unit}
    (h : ∀ s off vs, T.run (f s off vs) = g s off vs) (item : Ser) (off : Nat) :
    ∀ size vs, T.run (packIntoItems f item off size vs) = Verif.packIntoItems g item off size vs
  | _, [] => rfl
  | _, _ :: vs => run_bind_eq (h _ _ _) fun _ => run_bind_eq (run_readSize _) fun _ => run_packIntoItems h item off _ vs

theorem run_objPackInto (env : Env) {f : Ser → Nat → List Val → T Unit} {g : Ser → Nat → List Val → M Unit}
    (h : ∀ s off vs, T.run (f s off vs) = g s off vs) (off : Nat) (v : Val) :
    T.run (objPackInto env f off v) = Verif.objPackInto env g off v := by
  cases v with
  | obj cls bo attrs =>
    exact run_bind_eq (run_lift _) fun _ => run_bind_eq (run_prepack _ _) fun _ => run_bind_eq (run_lift _) fun _ =>
      run_bind_eq (h _ _ _) fun _ => rfl
  | _ => rfl

theorem run_packInto (env : Env) : ∀ n s off vs, T.run (packInto env n s off vs) = Verif.packInto env n s off vs
  | 0, _, _, _ => rfl
  | n + 1, s, off, vs => by
    have ih := run_packInto env n
    cases s with
    | null => rfl
    | struct st => exact run_structPackInto ..
    | dynChar id st => exact run_bind_eq (run_lift _) fun _ => run_bind_eq (run_setSize _ _) fun _ => run_structPackInto ..
    | consuming id => exact run_bind_eq (run_lift _) fun _ => run_bind_eq (run_setSize _ _) fun _ => rfl
    | terminated id term =>
      exact run_bind_eq (run_lift _) fun _ => run_bind_eq (run_setSize _ _) fun _ => run_bind_eq (run_lift _) fun _ => run_packIntoOpt ..
    | net id => exact run_bind_eq (run_lift _) fun _ => run_bind_eq (run_setSize _ _) fun _ => run_structPackInto ..
    | unicode inner enc dec => exact run_bind_eq (run_lift _) fun _ => ih _ _ _
    | array id hdr item sl =>
      exact run_bind_eq (run_lift _) fun _ => run_bind_eq (run_getPart _) fun _ => run_bind_eq (run_prepack _ _) fun _ =>
        run_bind_eq (run_lift _) fun _ => run_bind_eq (run_packIntoItems ih _ _ _ _) fun _ => run_bind_eq (run_lift _) fun _ =>
        run_bind_eq (run_setSize _ _) fun _ => run_packIntoOpt ..
    | staticArr count item ser => exact run_bind_eq (run_lift _) fun _ => run_packIntoOpt ..
    | dynArr id cnt item => exact run_bind_eq (run_lift _) fun _ => run_bind_eq (run_setSize _ _) fun _ => run_structPackInto ..
    | tuple id inner =>
      match vs with
      | [v] =>
        exact run_bind_eq (run_getPart _) fun _ => run_bind_eq (run_prepack _ _) fun _ => run_bind_eq (run_lift _) fun _ => ih _ _ _
      | [] | _ :: _ :: _ => rfl
    | lookback id decider keys opts dflt =>
      exact run_bind_eq (run_getPart _) fun _ => run_bind_eq (run_lift _) fun _ => run_bind_eq (run_getSerializer ..) fun _ =>
        run_bind_eq (ih _ _ _) fun _ => run_bind_eq (run_readSize _) fun _ => run_setSize _ _
    | lookahead id ra decider keys opts dflt =>
      exact run_bind_eq (run_getPart _) fun _ => run_bind_eq (run_lift _) fun _ => run_bind_eq (run_getSerializer ..) fun _ =>
        run_bind_eq (ih _ _ _) fun _ => run_bind_eq (run_readSize _) fun _ => run_setSize _ _
    | cond => rfl
    | skip => rfl
    | structured id cls =>
      match vs with
      | [v] => exact run_bind_eq (run_objPackInto env ih _ _) fun _ => run_bind_eq (run_readSize _) fun _ => run_setSize _ _
      | [] | _ :: _ :: _ => rfl
    | selfT => rfl
    | compound id ss => exact run_bind_eq (run_packIntoLoop ih (fun _ => rfl) _ _ _ _) fun _ => run_setSize _ _
    | specialized id p ss => exact run_bind_eq (run_packIntoLoop ih (fun _ => run_prepack _ _) _ _ _ _) fun _ => run_setSize _ _

/-! ### `pack_write` -/

theorem run_packWriteLoop {f : Ser → List Val → T Unit} {g : Ser → List Val → M Unit} {pre : Ser → T Ser}
    {pre' : Ser → M Ser} (h : ∀ s vs, T.run (f s vs) = g s vs) (hp : ∀ s, T.run (pre s) = pre' s) :
    ∀ size ss vs, T.run (packWriteLoop f pre size ss vs) = Verif.packWriteLoop g pre' size ss vs
  | _, [], _ => rfl
  | _, s :: ss, _ => run_bind_eq (hp s) fun _ => run_bind_eq (h _ _) fun _ => run_bind_eq (run_readSize _) fun _ =>
      run_packWriteLoop h hp _ ss _

theorem run_objPackWrite (env : Env) {f : Ser → List Val → T Unit} {g : Ser → List Val → M Unit}
    (h : ∀ s vs, T.run (f s vs) = g s vs) (v : Val) : T.run (objPackWrite env f v) = Verif.objPackWrite env g v := by
  cases v with
  | obj cls bo attrs =>
    exact run_bind_eq (run_lift _) fun _ => run_bind_eq (run_prepack _ _) fun _ => run_bind_eq (run_lift _) fun _ =>
      run_bind_eq (h _ _) fun _ => rfl
  | _ => rfl

theorem run_packWrite (env : Env) : ∀ n s vs, T.run (packWrite env n s vs) = Verif.packWrite env n s vs
  | 0, _, _ => rfl
  | n + 1, s, vs => by
    have ih := run_packWrite env n
    cases s with
    | null => rfl
    | struct st => exact run_bind_eq (run_lift _) fun _ => rfl
    | dynChar id st =>
      exact run_bind_eq (run_lift _) fun _ => run_bind_eq (run_setSize _ _) fun _ => run_bind_eq (run_lift _) fun _ => rfl
    | consuming id => exact run_bind_eq (run_lift _) fun _ => run_bind_eq (run_setSize _ _) fun _ => rfl
    | terminated id term =>
      exact run_bind_eq (run_lift _) fun _ => run_bind_eq (run_setSize _ _) fun _ => run_bind_eq (run_lift _) fun _ => rfl
    | net id =>
      exact run_bind_eq (run_lift _) fun _ => run_bind_eq (run_setSize _ _) fun _ => run_bind_eq (run_lift _) fun _ => rfl
    | unicode inner enc dec => exact run_bind_eq (run_lift _) fun _ => ih _ _
    | array id hdr item sl => exact run_bind_eq (run_pack _ _ _ _) fun _ => rfl
    | staticArr count item ser => exact run_bind_eq (run_lift _) fun _ => run_bind_eq (run_lift _) fun _ => rfl
    | dynArr id cnt item =>
      exact run_bind_eq (run_lift _) fun _ => run_bind_eq (run_setSize _ _) fun _ => run_bind_eq (run_lift _) fun _ => rfl
    | tuple id inner =>
      match vs with
      | [v] =>
        exact run_bind_eq (run_getPart _) fun _ => run_bind_eq (run_prepack _ _) fun _ => run_bind_eq (run_lift _) fun _ => ih _ _
      | [] | _ :: _ :: _ => rfl
    | lookback id decider keys opts dflt =>
      exact run_bind_eq (run_getPart _) fun _ => run_bind_eq (run_lift _) fun _ => run_bind_eq (run_getSerializer ..) fun _ =>
        run_bind_eq (ih _ _) fun _ => run_bind_eq (run_readSize _) fun _ => run_setSize _ _
    | lookahead id ra decider keys opts dflt =>
      exact run_bind_eq (run_getPart _) fun _ => run_bind_eq (run_lift _) fun _ => run_bind_eq (run_getSerializer ..) fun _ =>
        run_bind_eq (ih _ _) fun _ => run_bind_eq (run_readSize _) fun _ => run_setSize _ _
    | cond => rfl
    | skip => rfl
    | structured id cls =>
      match vs with
      | [v] => exact run_bind_eq (run_objPackWrite env ih _) fun _ => run_bind_eq (run_readSize _) fun _ => run_setSize _ _
      | [] | _ :: _ :: _ => rfl
    | selfT => rfl
    | compound id ss => exact run_bind_eq (run_packWriteLoop ih (fun _ => rfl) _ _ _) fun _ => run_setSize _ _
    | specialized id p ss => exact run_bind_eq (run_packWriteLoop ih (fun _ => run_prepack _ _) _ _ _) fun _ => run_setSize _ _

/-! ### Unpacking -/

theorem run_structUnpack (env s src) : T.run (structUnpackM env s src) = Verif.structUnpackM env s src := by
  cases src with
  | buf b => exact run_lift _
  | «at» b off => exact run_lift _
  | io => exact run_bind_eq (by rfl) fun _ => run_lift _

theorem run_structUnpackOpt (env s src) : T.run (structUnpackOpt env s src) = Verif.structUnpackOpt env s src := by
  cases s with
  | none => rfl
  | some s => exact run_structUnpack env s src

theorem run_dynCharUnpack (env id st src) : T.run (dynCharUnpack env id st src) = Verif.dynCharUnpack env id st src := by
  refine run_bind_eq (run_structUnpack ..) fun _ => run_bind_eq (run_lift _) fun _ => run_bind_eq (run_setSize _ _) fun _ => ?_
  cases src with
  | buf b => rfl
  | «at» b off => exact run_bind_eq (run_lift _) fun _ => run_structUnpackOpt ..
  | io => exact run_bind_eq (run_lift _) fun _ => run_structUnpackOpt ..

theorem run_consumingUnpack (id src) : T.run (consumingUnpack id src) = Verif.consumingUnpack id src := by
  cases src <;> rfl

theorem run_terminatedUnpack (id term src) : T.run (terminatedUnpack id term src) = Verif.terminatedUnpack id term src := by
  cases src with
  | buf b =>
    simp only [terminatedUnpack, Verif.terminatedUnpack]
    cases findTerm term b <;> rfl
  | «at» b off =>
    simp only [terminatedUnpack, Verif.terminatedUnpack]
    cases findTerm term (b.drop off) <;> rfl
  | io =>
    funext st
    simp only [terminatedUnpack, Verif.terminatedUnpack]
    refine run_get_eq ?_
    simp only
    cases termReadLoop term ((st.io.data.drop st.io.pos).length + 1) (st.io.data.drop st.io.pos) [] 0 <;> rfl

theorem run_seek (src : Src) (pos : Nat) : T.run (seek src pos) = src.seek pos := by cases src <;> rfl

theorem run_netUnpack (env id src) : T.run (netUnpack env id src) = Verif.netUnpack env id src := by
  funext st
  unfold netUnpack Verif.netUnpack
  refine run_get_eq (congrFun ?_ st)
  refine run_bind_eq (run_structUnpack ..) fun hv => run_bind_eq (run_lift _) fun c => ?_
  have fin : ∀ (y : Nat × Nat), T.run (do
      setSize id (y.2 + y.1)
      match src with
      | .buf b => pure [.bytes ((b.drop y.2).take y.1)]
      | .at b off => T.lift (structUnpackFrom env.plat .default [⟨y.1, .str⟩] b (off + y.2))
      | .io => do
        let d ← ioRead y.1
        pure [Val.bytes d]) = (do
      Verif.setSize id (y.2 + y.1)
      match src with
      | .buf b => pure [.bytes ((b.drop y.2).take y.1)]
      | .at b off => M.lift (structUnpackFrom env.plat .default [⟨y.1, .str⟩] b (off + y.2))
      | .io => do
        let d ← Verif.ioRead y.1
        pure [Val.bytes d]) := by
    intro y
    refine run_bind_eq (run_setSize _ _) fun _ => ?_
    cases src with
    | buf b => rfl
    | «at» b off => exact run_lift _
    | io => rfl
  by_cases hc : 128 ≤ c
  · simp only [if_pos hc]
    exact run_bind_eq (run_seek _ _) fun _ => run_bind_eq (run_structUnpack ..) fun _ => run_bind_eq (run_lift _) fun _ =>
      run_bind_eq (run_lift _) fun n => run_bind_eq rfl fun y => fin y
  · simp only [if_neg hc]
    exact run_bind_eq rfl fun y => fin y

theorem run_unpackLoop {f : Ser → Src → T (List Val)} {g : Ser → Src → M (List Val)} (h : ∀ s src, T.run (f s src) = g s src)
    (src : Src) : ∀ size ss, T.run (unpackLoop f src size ss) = Verif.unpackLoop g src size ss
  | _, [] => rfl
  | _, _ :: ss => run_bind_eq (h _ _) fun _ => run_bind_eq (run_readSize _) fun _ =>
      run_bind_eq (run_unpackLoop h src _ ss) fun _ => rfl

theorem run_unpackLoopSpec {f : Ser → Src → T (List Val)} {g : Ser → Src → M (List Val)} (h : ∀ s src, T.run (f s src) = g s src)
    (upd : Upd) (src : Src) : ∀ p done size ss, T.run (unpackLoopSpec f upd src p done size ss) = Verif.unpackLoopSpec g upd src p done size ss
  | _, _, _, [] => rfl
  | _, _, _, _ :: ss => run_bind_eq (run_preunpack _ _) fun _ => run_bind_eq (h _ _) fun _ => run_bind_eq (run_lift _) fun _ =>
      run_bind_eq (run_readSize _) fun _ => run_bind_eq (run_unpackLoopSpec h upd src _ _ _ ss) fun _ => rfl

theorem run_unpackItems {f : Ser → Src → T (List Val)} {g : Ser → Src → M (List Val)} (h : ∀ s src, T.run (f s src) = g s src)
    (item : Ser) (src : Src) : ∀ size k, T.run (unpackItems f item src size k) = Verif.unpackItems g item src size k
  | _, 0 => rfl
  | _, k + 1 => run_bind_eq (h _ _) fun _ => run_bind_eq (run_readSize _) fun _ =>
      run_bind_eq (run_unpackItems h item src _ k) fun _ => rfl

theorem run_createUnpackWith (env : Env) {f : Upd → Ser → Src → T (List Val)} {g : Upd → Ser → Src → M (List Val)}
    (h : ∀ upd s src, T.run (f upd s src) = g upd s src) (cls : ClassId) (src : Src) :
    T.run (createUnpackWith env f cls src) = Verif.createUnpackWith env g cls src := by
  unfold createUnpackWith Verif.createUnpackWith
  cases env.classes cls with
  | none => rfl
  | some ci =>
    exact run_bind_eq (run_preunpack _ _) fun _ => run_bind_eq (h _ _ _) fun _ => run_bind_eq (run_lift _) fun _ => rfl

theorem run_unionUnpack {f : Ser → Src → T (List Val)} {g : Ser → Src → M (List Val)} (h : ∀ s src, T.run (f s src) = g s src)
    (id : SerId) (s : Ser) (src : Src) : T.run (unionUnpack f id s src) = Verif.unionUnpack g id s src := by
  unfold unionUnpack Verif.unionUnpack
  split
  · exact run_bind_eq (run_readSize _) fun _ => run_bind_eq (run_setSize _ _) fun _ => h _ _
  · exact run_bind_eq (h _ _) fun _ => run_bind_eq (run_readSize _) fun _ => run_bind_eq (run_setSize _ _) fun _ => rfl

theorem run_rewind (src : Src) (ra : Ser) : T.run (rewind src ra) = src.rewind ra := by
  cases src with
  | io => exact run_bind_eq (run_readSize _) fun _ => rfl
  | _ => rfl

theorem run_unpack (env : Env) : ∀ n upd s src, T.run (unpack env n upd s src) = Verif.unpack env n upd s src
  | 0, _, _, _ => rfl
  | n + 1, upd, s, src => by
    have ih := run_unpack env n
    cases s with
    | null => rfl
    | struct st => exact run_structUnpack ..
    | dynChar id st => exact run_dynCharUnpack ..
    | consuming id => exact run_consumingUnpack ..
    | terminated id term => exact run_terminatedUnpack ..
    | net id => exact run_netUnpack ..
    | unicode inner enc dec => exact run_bind_eq (ih _ _ _) fun _ => run_lift _
    | array id hdr item sl =>
      exact run_bind_eq (run_structUnpackOpt ..) fun _ => run_bind_eq (run_lift _) fun _ => run_bind_eq (run_getPart _) fun _ =>
        run_bind_eq (run_preunpack _ _) fun _ => run_bind_eq (run_unpackItems (ih _) _ _ _ _) fun _ => run_bind_eq (run_lift _) fun _ =>
        run_bind_eq (run_setSize _ _) fun _ => rfl
    | staticArr count item ser => exact run_bind_eq (run_structUnpackOpt ..) fun _ => rfl
    | dynArr id cnt item =>
      refine run_bind_eq (run_structUnpack ..) fun hv => ?_
      have fin : ∀ c : Int, T.run (do
          let s ← T.lift (item.mul c)
          let vs ← structUnpackOpt env s (src.next cnt.size)
          setSize id (cnt.size + s.elim 0 StructSer.size)
          pure [Val.list vs]) = (do
          let s ← M.lift (item.mul c)
          let vs ← Verif.structUnpackOpt env s (src.next cnt.size)
          Verif.setSize id (cnt.size + s.elim 0 StructSer.size)
          pure [Val.list vs]) :=
        fun c => run_bind_eq (run_lift _) fun _ => run_bind_eq (run_structUnpackOpt ..) fun _ => run_bind_eq (run_setSize _ _) fun _ => rfl
      match hv with
      | [c] => exact run_bind_eq (run_lift _) fun _ => fin _
      | [] | _ :: _ :: _ => rfl
    | tuple id inner =>
      refine run_bind_eq (run_getPart _) fun _ => run_bind_eq (run_preunpack _ _) fun i => ?_
      split
      · rfl
      · exact run_bind_eq (ih _ _ _) fun _ => rfl
    | lookback id decider keys opts dflt =>
      exact run_bind_eq (run_getPart _) fun _ => run_bind_eq (run_lift _) fun _ => run_bind_eq (run_getSerializer ..) fun _ =>
        run_unionUnpack (ih _) _ _ _
    | lookahead id ra decider keys opts dflt =>
      exact run_bind_eq (ih _ _ _) fun _ => run_bind_eq (run_lift _) fun _ => run_bind_eq (run_rewind _ _) fun _ =>
        run_bind_eq (run_getSerializer ..) fun _ => run_unionUnpack (ih _) _ _ _
    | cond => rfl
    | skip => rfl
    | structured id cls =>
      exact run_bind_eq (run_createUnpackWith env ih _ _) fun _ => run_bind_eq (run_readSize _) fun _ =>
        run_bind_eq (run_setSize _ _) fun _ => rfl
    | selfT => rfl
    | compound id ss => exact run_bind_eq (run_unpackLoop (ih _) _ _ _) fun _ => run_bind_eq (run_setSize _ _) fun _ => rfl
    | specialized id p ss =>
      exact run_bind_eq (run_unpackLoopSpec (ih _) _ _ _ _ _ _) fun _ => run_bind_eq (run_setSize _ _) fun _ => rfl

/-! ### Objects -/

theorem run_packObj (env n v) : T.run (packObj env n v) = Obj.pack env n v :=
  run_bind_eq (run_objPack env (run_pack env n) v) fun _ => rfl

theorem run_packObjInto (env n off v) : T.run (packObjInto env n off v) = Obj.packInto env n off v :=
  run_bind_eq (run_objPackInto env (run_packInto env n) off v) fun _ => rfl

theorem run_packObjWrite (env n v) : T.run (packObjWrite env n v) = Obj.packWrite env n v :=
  run_bind_eq (run_objPackWrite env (run_packWrite env n) v) fun _ => rfl

theorem run_createUnpack (env n cls src) : T.run (createUnpack env n cls src) = Verif.createUnpack env n cls src :=
  run_bind_eq (run_createUnpackWith env (run_unpack env n) cls src) fun _ => rfl

theorem run_unpackObj (env n v src) : T.run (unpackObj env n v src) = Obj.unpack env n v src := by
  cases v with
  | obj cls bo attrs =>
    refine run_bind_eq (run_lift _) fun _ => run_bind_eq (run_preunpack _ _) fun _ => run_bind_eq (run_unpack ..) fun _ => ?_
    split <;> rfl
  | _ => rfl

end Verif.Threads
