import Verif.Spec.Share
import Verif.Spec.Read
import Verif.Proofs.RefineInto
import Verif.Proofs.Proxy
import Verif.Proofs.Enough
/-
Unpacking with identities gives the values of unpacking, new objects and defaults.
-/
namespace Verif.Share

/-- `x` from identity `c` on does what `y` does. -/
def Sim (c : Nat) (x : T α) (y : M β) (R : α → Nat → β → Prop) : Prop :=
  ∀ st, match y st with
    | .ok b st' => ∃ a c', x c st = .ok (a, c') st' ∧ c ≤ c' ∧ R a c' b
    | .err e st' => x c st = .err e st'

theorem Sim.bind {x : T α} {y : M β} {f : α → T γ} {g : β → M δ} {R : α → Nat → β → Prop} {Q : γ → Nat → δ → Prop}
    (h : Sim c x y R) (hf : ∀ a c' b, c ≤ c' → R a c' b → Sim c' (f a) (g b) Q) : Sim c (x >>= f) (y >>= g) Q := by
  intro st
  have h1 := h st
  show match M.bind y g st with | .ok b st' => _ | .err e st' => _
  unfold M.bind
  cases hy : y st with
  | err e st' =>
    rw [hy] at h1
    show T.bind x f c st = _
    unfold T.bind
    simp only [] at h1
    rw [h1]
  | ok b st' =>
    rw [hy] at h1
    obtain ⟨a, c', hx, hc, hr⟩ := h1
    have h2 := hf a c' b hc hr st'
    have e : (x >>= f) c st = f a c' st' := by
      show T.bind x f c st = _
      unfold T.bind
      rw [hx]
    simp only [e]
    cases hg : g b st' with
    | err e' st2 => rw [hg] at h2; exact h2
    | ok d st2 =>
      rw [hg] at h2
      obtain ⟨a2, c2, p, q, r⟩ := h2
      exact ⟨a2, c2, p, by omega, r⟩

theorem Sim.liftBind {y : M β} {f : β → T γ} {g : β → M δ} {Q : γ → Nat → δ → Prop}
    (hf : ∀ b st st', y st = .ok b st' → Sim c (f b) (g b) Q) : Sim c (T.lift y >>= f) (y >>= g) Q := by
  intro st
  show match M.bind y g st with | .ok b st' => _ | .err e st' => _
  unfold M.bind
  have e : (T.lift y >>= f) c st = T.bind (T.lift y) f c st := rfl
  rw [e]
  unfold T.bind T.lift
  cases hy : y st with
  | err e st' => rfl
  | ok b st' => exact hf b st st' hy st'

theorem Sim.pure {a : α} {b : β} {R : α → Nat → β → Prop} (h : R a c b) :
    Sim c (Pure.pure a : T α) (Pure.pure b : M β) R :=
  fun _ => ⟨a, c, rfl, Nat.le_refl _, h⟩

theorem Sim.throw {R : α → Nat → β → Prop} : Sim c (T.lift (M.throw e)) (M.throw e) R := fun _ => rfl

theorem Sim.mono {x : T α} {y : M β} {R Q : α → Nat → β → Prop} (h : Sim c x y R) (hR : ∀ a c' b, c ≤ c' → R a c' b → Q a c' b) :
    Sim c x y Q := by
  intro st
  have h1 := h st
  cases hy : y st with
  | err e st' => rw [hy] at h1; exact h1
  | ok b st' =>
    rw [hy] at h1
    obtain ⟨a, c', p, q, r⟩ := h1
    exact ⟨a, c', p, q, hR a c' b q r⟩

/-- Values made from identity `c` up to `c'`. -/
structure Good (D : Val → Prop) (c : Nat) (ts : List TVal) (c' : Nat) (vs : List Val) : Prop where
  erase : eraseL ts = vs
  inside : ∀ l ∈ locsL ts, c ≤ l ∧ l < c'
  nodup : (locsL ts).Nodup
  olds : ∀ v ∈ oldsL ts, D v

theorem eraseL_append (ts us : List TVal) : eraseL (ts ++ us) = eraseL ts ++ eraseL us := by
  induction ts with
  | nil => simp [eraseL]
  | cons t ts ih => simp [eraseL, ih]

theorem locsL_append (ts us : List TVal) : locsL (ts ++ us) = locsL ts ++ locsL us := by
  induction ts with
  | nil => simp [locsL]
  | cons t ts ih => simp [locsL, ih]

theorem oldsL_append (ts us : List TVal) : oldsL (ts ++ us) = oldsL ts ++ oldsL us := by
  induction ts with
  | nil => simp [oldsL]
  | cons t ts ih => simp [oldsL, ih]

theorem eraseL_length (ts : List TVal) : (eraseL ts).length = ts.length := by
  induction ts with
  | nil => rfl
  | cons t ts ih => simp [eraseL, ih]

theorem eraseL_plain (vs : List Val) : eraseL (vs.map TVal.plain) = vs := by
  induction vs with
  | nil => rfl
  | cons v vs ih => simp [eraseL, TVal.erase, ih]

theorem locsL_plain (vs : List Val) : locsL (vs.map TVal.plain) = [] := by
  induction vs with
  | nil => rfl
  | cons v vs ih => simp [locsL, TVal.locs, ih]

theorem oldsL_plain (vs : List Val) : oldsL (vs.map TVal.plain) = [] := by
  induction vs with
  | nil => rfl
  | cons v vs ih => simp [oldsL, TVal.olds, ih]

theorem good_plain (vs : List Val) : Good D c (vs.map TVal.plain) c vs :=
  ⟨eraseL_plain vs, (by rw [locsL_plain]; intro l h; cases h), (by rw [locsL_plain]; exact List.nodup_nil),
    (by rw [oldsL_plain]; intro l h; cases h)⟩

theorem good_nil : Good D c [] c [] := good_plain []

theorem Good.append (h : Good D c ts c1 vs) (g : Good D c1 us c2 ws) (h1 : c ≤ c1) (h2 : c1 ≤ c2) :
    Good D c (ts ++ us) c2 (vs ++ ws) := by
  refine ⟨by rw [eraseL_append, h.erase, g.erase], ?_, ?_, ?_⟩
  · intro l hl
    rw [locsL_append] at hl
    rcases List.mem_append.1 hl with a | a
    · have := h.inside l a; omega
    · have := g.inside l a; omega
  · rw [locsL_append, List.nodup_append]
    refine ⟨h.nodup, g.nodup, fun a ha b hb => ?_⟩
    have := h.inside a ha
    have := g.inside b hb
    omega
  · intro v hv
    rw [oldsL_append] at hv
    rcases List.mem_append.1 hv with a | a
    · exact h.olds v a
    · exact g.olds v a

/-- Good values with a number beside them. -/
def GoodN (D : Val → Prop) (c : Nat) (r : List TVal × Nat) (c' : Nat) (q : List Val × Nat) : Prop :=
  Good D c r.1 c' q.1 ∧ r.2 = q.2

theorem leaf_sim (y : M (List Val)) : Sim c (leaf y) y (fun ts c' vs => Good D c ts c' vs) := by
  intro st
  unfold leaf
  have e : (T.lift y >>= fun vs => (Pure.pure (vs.map TVal.plain) : T (List TVal))) c st
      = T.bind (T.lift y) (fun vs => T.pure (vs.map TVal.plain)) c st := rfl
  rw [e]
  unfold T.bind T.lift
  cases y st with
  | err e st' => rfl
  | ok b st' => exact ⟨b.map TVal.plain, c, rfl, Nat.le_refl _, good_plain b⟩

theorem newList_sim (h : Good D c0 ts c vs) (hc : c0 ≤ c) :
    Sim c (newList ts) (pure [.list vs]) (fun ts c' vs => Good D c0 ts c' vs) := by
  intro st
  refine ⟨[.list c ts], c + 1, rfl, by omega, ?_, ?_, ?_, ?_⟩
  · simp [eraseL, TVal.erase, h.erase]
  · intro l hl
    simp only [locsL, TVal.locs, List.append_nil, List.mem_cons] at hl
    rcases hl with e | e
    · omega
    · have := h.inside l e; omega
  · simp only [locsL, TVal.locs, List.append_nil, List.nodup_cons]
    refine ⟨fun hl => ?_, h.nodup⟩
    have := h.inside c hl
    omega
  · intro v hv
    simp only [oldsL, TVal.olds, List.append_nil] at hv
    exact h.olds v hv

/-- The defaults of a serializer are in `D` when they are mutable. -/
def Held (D : Val → Prop) (s : Ser) : Prop := ∀ v ∈ defaults s, frozen v = false → D v
def HeldL (D : Val → Prop) (ss : List Ser) : Prop := ∀ v ∈ defaultsL ss, frozen v = false → D v

theorem mem_defaultsL {s : Ser} {ss : List Ser} (h : s ∈ ss) (hv : v ∈ defaults s) : v ∈ defaultsL ss := by
  induction ss with
  | nil => cases h
  | cons t ts ih =>
    unfold defaultsL
    rcases List.mem_cons.1 h with e | e
    · subst e; exact List.mem_append_left _ hv
    · exact List.mem_append_right _ (ih e)

theorem HeldL.mem (h : HeldL D ss) (hs : s ∈ ss) : Held D s := fun v hv => h v (mem_defaultsL hs hv)

theorem lift_inv {x : Except Err α} (h : M.lift x st = .ok a st') : x = .ok a := by
  unfold M.lift at h
  cases x with
  | error e => cases h
  | ok b => cases h; rfl

theorem held_condPick {ser s' : Ser} (h : condPick ser vals r = .ok s') (hs : Held D (.cond ser d vals)) : Held D s' := by
  unfold condPick at h
  split at h
  · cases h
  · split at h
    · cases h
      intro v hv
      exact hs v (by unfold defaults; exact List.mem_append_right _ hv)
    · split at h
      · cases h
        intro v hv
        unfold defaults at hv
        exact hs v (by unfold defaults; exact List.mem_append_left _ hv)
      · cases h

theorem held_prepack {s s' : Ser} (h : s.prepack p st = .ok s' st') (hs : Held D s) : Held D s' := by
  unfold Ser.prepack at h
  split at h
  · cases h; exact hs
  · cases h; exact hs
  · cases h; exact hs
  · cases h; exact hs
  · have h1 := lift_inv h
    rename_i ser d vals
    cases hd : d p with
    | error e => rw [hd] at h1; cases h1
    | ok r => rw [hd] at h1; exact held_condPick h1 hs
  · cases h; intro v hv; unfold defaults at hv; cases hv
  · cases h
    split
    · intro v hv; unfold defaults at hv; exact hs v (by unfold defaults; exact hv)
    · exact hs
  · cases h; exact hs

theorem held_preunpack {s s' : Ser} (h : s.preunpack p st = .ok s' st') (hs : Held D s) : Held D s' := by
  unfold Ser.preunpack at h
  split at h
  · have h1 := lift_inv h
    cases hc : clsOfPartial p with
    | error e => rw [hc] at h1; cases h1
    | ok c => rw [hc] at h1; cases h1; intro v hv; unfold defaults at hv; cases hv
  · exact held_prepack h hs

theorem lookupOpt_mem {keys : List Val} {opts : List Ser} (h : lookupOpt keys opts r = some s) : s ∈ opts := by
  unfold lookupOpt at h
  cases hf : (keys.zip opts).find? (fun p => p.1.keyEq r) with
  | none => rw [hf] at h; cases h
  | some q =>
    rw [hf] at h
    cases h
    exact (List.of_mem_zip (List.mem_of_find?_eq_some hf)).2

theorem held_getSerializer {id : SerId} {opts : List Ser} {d : Ser} (h : getSerializer false id keys opts d r st = .ok s st')
    (hs : HeldL D opts) (hd : Held D d) : Held D s := by
  unfold getSerializer at h
  obtain ⟨s0, st1, h1, h⟩ := M.bind_ok h
  obtain ⟨p, st2, _, h⟩ := M.bind_ok h
  have h1 := lift_inv h1
  refine held_preunpack h ?_
  unfold unionPick at h1
  split at h1
  · cases h1
  · split at h1
    · rename_i s' hl
      cases h1
      exact hs.mem (lookupOpt_mem hl)
    · split at h1
      · cases h1
      · cases h1; exact hd

/-- What is proved of `unpack` of one fuel. -/
abbrev Ok (D : Val → Prop) (unT : Upd → Ser → Src → T (List TVal)) (unM : Upd → Ser → Src → M (List Val)) : Prop :=
  ∀ upd s src c, Held D s → Sim c (unT upd s src) (unM upd s src) (fun ts c' vs => Good D c ts c' vs)

theorem loop_sim {unT : Upd → Ser → Src → T (List TVal)} {unM : Upd → Ser → Src → M (List Val)} (h : Ok D unT unM)
    (src : Src) (ss : List Ser) (hs : HeldL D ss) (size c : Nat) :
    Sim c (loop (unT u) src size ss) (unpackLoop (unM u) src size ss) (GoodN D c) := by
  induction ss generalizing size c with
  | nil => unfold loop unpackLoop; exact Sim.pure ⟨good_nil, rfl⟩
  | cons s ss ih =>
    unfold loop unpackLoop
    refine Sim.bind (h _ _ _ _ (hs.mem List.mem_cons_self)) fun ts c1 vs h1 hg => ?_
    refine Sim.liftBind fun sz _ _ _ => ?_
    refine Sim.bind (ih (fun v hv => hs v (by unfold defaultsL; exact List.mem_append_right _ hv)) _ _) fun r c2 q h2 hr => ?_
    obtain ⟨rest, total⟩ := r
    obtain ⟨rest', total'⟩ := q
    obtain ⟨hr, he⟩ := hr
    cases he
    exact Sim.pure ⟨hg.append hr h1 h2, rfl⟩

theorem loopSpec_sim {unT : Upd → Ser → Src → T (List TVal)} {unM : Upd → Ser → Src → M (List Val)} (h : Ok D unT unM)
    (src : Src) (upd : Upd) (ss : List Ser) (hs : HeldL D ss) (p : PObj) (done size c : Nat) :
    Sim c (loopSpec (unT u) upd src p done size ss) (unpackLoopSpec (unM u) upd src p done size ss) (GoodN D c) := by
  induction ss generalizing size c p done with
  | nil => unfold loopSpec unpackLoopSpec; exact Sim.pure ⟨good_nil, rfl⟩
  | cons s ss ih =>
    unfold loopSpec unpackLoopSpec
    refine Sim.liftBind fun s' _ _ hp => ?_
    refine Sim.bind (h _ _ _ _ (held_preunpack hp (hs.mem List.mem_cons_self))) fun ts c1 vs h1 hg => ?_
    have he := hg.erase
    subst he
    refine Sim.liftBind fun p' _ _ _ => ?_
    refine Sim.liftBind fun sz _ _ _ => ?_
    rw [eraseL_length]
    refine Sim.bind (ih (fun v hv => hs v (by unfold defaultsL; exact List.mem_append_right _ hv)) _ _ _ _) fun r c2 q h2 hr => ?_
    obtain ⟨rest, total⟩ := r
    obtain ⟨rest', total'⟩ := q
    obtain ⟨hr, he⟩ := hr
    cases he
    exact Sim.pure ⟨hg.append hr h1 h2, rfl⟩

theorem items_sim {unT : Upd → Ser → Src → T (List TVal)} {unM : Upd → Ser → Src → M (List Val)} (h : Ok D unT unM)
    (src : Src) (item : Ser) (hs : Held D item) (k size c : Nat) :
    Sim c (items (unT u) item src size k) (unpackItems (unM u) item src size k) (GoodN D c) := by
  induction k generalizing size c with
  | zero => unfold items unpackItems; exact Sim.pure ⟨good_nil, rfl⟩
  | succ k ih =>
    unfold items unpackItems
    refine Sim.bind (h _ _ _ _ hs) fun ts c1 vs h1 hg => ?_
    refine Sim.liftBind fun sz _ _ _ => ?_
    refine Sim.bind (ih _ _) fun r c2 q h2 hr => ?_
    obtain ⟨rest, total⟩ := r
    obtain ⟨rest', total'⟩ := q
    obtain ⟨hr, he⟩ := hr
    cases he
    exact Sim.pure ⟨hg.append hr h1 h2, rfl⟩

theorem union_sim {unT : Upd → Ser → Src → T (List TVal)} {unM : Upd → Ser → Src → M (List Val)} (h : Ok D unT unM)
    (src : Src) (s : Ser) (hs : Held D s) (id : SerId) (c : Nat) :
    Sim c (union (unT u) id s src) (unionUnpack (unM u) id s src) (fun ts c' vs => Good D c ts c' vs) := by
  unfold union unionUnpack
  split
  · refine Sim.liftBind fun sz _ _ _ => ?_
    refine Sim.liftBind fun _ _ _ _ => ?_
    exact h _ _ _ _ hs
  · refine Sim.bind (h _ _ _ _ hs) fun ts c1 vs h1 hg => ?_
    refine Sim.liftBind fun sz _ _ _ => ?_
    refine Sim.liftBind fun _ _ _ _ => ?_
    exact Sim.pure hg

theorem build_sim (ci : ClassInfo) (hp : ci.postInit = Except.ok) (h : Good D c0 ts c vs) (hc : c0 ≤ c) :
    Sim c (build cls ci ts) (M.lift (construct cls ci vs)) (fun t c' v => Good D c0 [t] c' [v]) := by
  unfold build construct
  have he := h.erase
  subst he
  rw [eraseL_length, hp]
  split
  · intro st
    refine ⟨.obj c cls ci.attrs ts, c + 1, rfl, by omega, ?_, ?_, ?_, ?_⟩
    · simp [eraseL, TVal.erase]
    · intro l hl
      simp only [locsL, TVal.locs, List.append_nil, List.mem_cons] at hl
      rcases hl with e | e
      · omega
      · have := h.inside l e; omega
    · simp only [locsL, TVal.locs, List.append_nil, List.nodup_cons]
      refine ⟨fun hl => ?_, h.nodup⟩
      have := h.inside c hl
      omega
    · intro v hv
      simp only [oldsL, TVal.olds, List.append_nil] at hv
      exact h.olds v hv
  · intro st
    rfl

theorem createWith_sim {env : Env} (hpost : env.noPost)
    (hD : ∀ c ci, env.classes c = some ci → Held D ci.serializer)
    {unT : Upd → Ser → Src → T (List TVal)} {unM : Upd → Ser → Src → M (List Val)} (h : Ok D unT unM)
    (cls : ClassId) (src : Src) (c : Nat) :
    Sim c (createWith env unT cls src) (createUnpackWith env unM cls src)
      (fun r c' q => Good D c [r.1] c' [q.1] ∧ r.2 = q.2) := by
  unfold createWith createUnpackWith
  cases hc : env.classes cls with
  | none => exact Sim.throw
  | some ci =>
    refine Sim.liftBind fun s _ _ hp => ?_
    refine Sim.bind (h _ _ _ _ (held_preunpack hp (hD cls ci hc))) fun ts c1 vs h1 hg => ?_
    refine Sim.bind (build_sim ci (hpost cls ci hc) hg h1) fun t c2 v h2 hb => ?_
    exact Sim.pure ⟨hb, rfl⟩

theorem erase_dflt (vals : List Val) : eraseL (vals.map dflt) = vals := by
  induction vals with
  | nil => rfl
  | cons v vs ih =>
    have h : (dflt v).erase = v := by unfold dflt; split <;> rfl
    simp [eraseL, ih, h]

theorem locs_dflt (vals : List Val) : locsL (vals.map dflt) = [] := by
  induction vals with
  | nil => rfl
  | cons v vs ih =>
    have h : (dflt v).locs = [] := by unfold dflt; split <;> rfl
    simp [locsL, ih, h]

theorem olds_dflt (vals : List Val) : oldsL (vals.map dflt) = vals.filter (fun v => !frozen v) := by
  induction vals with
  | nil => rfl
  | cons v vs ih =>
    have h : (dflt v).olds = if frozen v then [] else [v] := by unfold dflt; split <;> rfl
    simp only [List.map_cons, oldsL, ih, h, List.filter_cons]
    cases frozen v <;> rfl

theorem unpack_sim {env : Env} (hpost : env.noPost) (hD : ∀ c ci, env.classes c = some ci → Held D ci.serializer)
    (n : Nat) : Ok D (unpack env n) (Verif.unpack env n) := by
  induction n with
  | zero => intro upd s src c hs; exact Sim.throw
  | succ n ih =>
    intro upd s src c hs
    cases s with
    | null => exact Sim.pure good_nil
    | struct st => exact leaf_sim _
    | dynChar id st => exact leaf_sim _
    | consuming id => exact leaf_sim _
    | terminated id t => exact leaf_sim _
    | net id => exact leaf_sim _
    | unicode inner enc dec =>
      refine Sim.bind (ih noUpd inner src c (fun v hv => hs v (by unfold defaults; exact hv))) fun ts c1 vs h1 hg => ?_
      have he := hg.erase
      subst he
      refine Sim.mono (leaf_sim (D := D) _) fun a c2 b h2 g => ⟨g.erase, fun l hl => ?_, g.nodup, g.olds⟩
      have := g.inside l hl
      omega
    | array id hdr item sl =>
      refine Sim.liftBind fun hv _ _ _ => ?_
      refine Sim.liftBind fun cd _ _ _ => ?_
      obtain ⟨count, ds⟩ := cd
      refine Sim.liftBind fun p _ _ _ => ?_
      refine Sim.liftBind fun item' _ _ hp => ?_
      refine Sim.bind (items_sim ih src item' (held_preunpack hp fun v hv => hs v (by unfold defaults; exact hv)) _ _ _)
        fun r c1 q h1 hg => ?_
      obtain ⟨its, size⟩ := r
      obtain ⟨its', size'⟩ := q
      obtain ⟨hg, he⟩ := hg
      cases he
      refine Sim.liftBind fun _ _ _ _ => ?_
      refine Sim.liftBind fun _ _ _ _ => ?_
      exact newList_sim hg h1
    | staticArr k item ser =>
      exact Sim.bind (leaf_sim _) fun ts c1 vs h1 hg => newList_sim hg h1
    | dynArr id cnt item =>
      refine Sim.liftBind fun hv _ _ _ => ?_
      have key : ∀ y : M Int, Sim c
          (T.lift y >>= fun k => T.lift (M.lift (item.mul k)) >>= fun s => leaf (structUnpackOpt env s (src.next cnt.size)) >>=
            fun vs => T.lift (setSize id (cnt.size + s.elim 0 StructSer.size)) >>= fun _ => newList vs)
          (y >>= fun k => M.lift (item.mul k) >>= fun s => structUnpackOpt env s (src.next cnt.size) >>=
            fun vs => setSize id (cnt.size + s.elim 0 StructSer.size) >>= fun _ => pure [.list vs])
          (fun ts c' vs => Good D c ts c' vs) := by
        intro y
        refine Sim.liftBind fun k _ _ _ => ?_
        refine Sim.liftBind fun s _ _ _ => ?_
        refine Sim.bind (leaf_sim (D := D) _) fun ts c1 vs h1 hg => ?_
        refine Sim.liftBind fun _ _ _ _ => ?_
        exact newList_sim hg h1
      match hv with
      | [] => exact key (M.throw .valueError)
      | [k] => exact key (M.lift (needInt k))
      | _ :: _ :: _ => exact key (M.throw .valueError)
    | tuple id inner =>
      refine Sim.liftBind fun p _ _ _ => ?_
      refine Sim.liftBind fun inner' _ _ hp => ?_
      have hi : Held D inner' := held_preunpack hp fun v hv => hs v (by unfold defaults; exact hv)
      cases hl : inner'.isLazy with
      | true => exact Sim.pure (good_plain [.gen])
      | false =>
        refine Sim.bind (ih noUpd inner' src c hi) fun ts c1 vs h1 hg => ?_
        refine Sim.pure ⟨?_, ?_, ?_, ?_⟩
        · simp [eraseL, TVal.erase, hg.erase]
        · simpa [locsL, TVal.locs] using hg.inside
        · simpa [locsL, TVal.locs] using hg.nodup
        · simpa [oldsL, TVal.olds] using hg.olds
    | lookback id decider keys opts d =>
      refine Sim.liftBind fun p _ _ _ => ?_
      refine Sim.liftBind fun r _ _ _ => ?_
      refine Sim.liftBind fun s _ _ h => ?_
      refine union_sim ih src s (held_getSerializer h ?_ ?_) id c
      · intro v hv; exact hs v (by unfold defaults; exact List.mem_append_left _ hv)
      · intro v hv; exact hs v (by unfold defaults; exact List.mem_append_right _ hv)
    | lookahead id readAhead decider keys opts d =>
      refine Sim.bind (ih noUpd readAhead src c ?_) fun ts c1 vs h1 hg => ?_
      · intro v hv; exact hs v (by unfold defaults; exact List.mem_append_left _ (List.mem_append_left _ hv))
      have he := hg.erase
      subst he
      refine Sim.liftBind fun r _ _ _ => ?_
      refine Sim.liftBind fun _ _ _ _ => ?_
      refine Sim.liftBind fun s _ _ h => ?_
      refine Sim.mono (union_sim ih src s (held_getSerializer h ?_ ?_) id c1) fun a c2 b h2 g =>
        ⟨g.erase, fun l hl => ?_, g.nodup, g.olds⟩
      · intro v hv; exact hs v (by unfold defaults; exact List.mem_append_left _ (List.mem_append_right _ hv))
      · intro v hv; exact hs v (by unfold defaults; exact List.mem_append_right _ hv)
      · have := g.inside l hl
        omega
    | cond s d vals => exact Sim.throw
    | skip vals =>
      refine Sim.pure ⟨erase_dflt vals, ?_, ?_, ?_⟩
      · rw [locs_dflt]; intro l h; cases h
      · rw [locs_dflt]; exact List.nodup_nil
      · rw [olds_dflt]
        intro v hv
        obtain ⟨h1, h2⟩ := List.mem_filter.1 hv
        exact hs v (by unfold defaults; exact h1) (by simpa using h2)
    | structured id cls =>
      refine Sim.bind (createWith_sim hpost hD ih cls src c) fun r c1 q h1 hg => ?_
      obtain ⟨t, s⟩ := r
      obtain ⟨v, s'⟩ := q
      obtain ⟨hg, he⟩ := hg
      cases he
      refine Sim.liftBind fun sz _ _ _ => ?_
      refine Sim.liftBind fun _ _ _ _ => ?_
      exact Sim.pure hg
    | selfT id => exact Sim.throw
    | compound id ss =>
      refine Sim.bind (loop_sim ih src ss (fun v hv => hs v (by unfold defaults; exact hv)) 0 c) fun r c1 q h1 hg => ?_
      obtain ⟨its, size⟩ := r
      obtain ⟨its', size'⟩ := q
      obtain ⟨hg, he⟩ := hg
      cases he
      refine Sim.liftBind fun _ _ _ _ => ?_
      exact Sim.pure hg
    | specialized id p ss =>
      refine Sim.bind (loopSpec_sim ih src upd ss (fun v hv => hs v (by unfold defaults; exact hv)) p 0 0 c) fun r c1 q h1 hg => ?_
      obtain ⟨its, size⟩ := r
      obtain ⟨its', size'⟩ := q
      obtain ⟨hg, he⟩ := hg
      cases he
      refine Sim.liftBind fun _ _ _ _ => ?_
      exact Sim.pure hg

theorem create_sim {env : Env} (hpost : env.noPost) (n : Nat) (cls : ClassId) (src : Src) (c : Nat) :
    Sim c (create env n cls src) (createUnpack env n cls src) (fun t c' v => Good (Default env) c [t] c' [v]) := by
  have hD : ∀ c ci, env.classes c = some ci → Held (Default env) ci.serializer :=
    fun c ci h v hv hf => ⟨hf, c, ci, h, hv⟩
  unfold create createUnpack
  refine Sim.bind (createWith_sim hpost hD (unpack_sim hpost hD n) cls src c) fun r c1 q h1 hg => ?_
  exact Sim.pure hg.1

mutual
theorem put_same (l : Nat) (ws : List TVal) : (t : TVal) → l ∉ t.locs → t.put l ws = t
  | .plain v, _ => rfl
  | .shared v, _ => rfl
  | .list m vs, h => by
    simp only [TVal.locs, List.mem_cons, not_or] at h
    have e : m ≠ l := fun e => h.1 e.symm
    simp only [TVal.put, e, if_false, putL_same l ws vs h.2]
  | .tup vs, h => by
    simp only [TVal.locs] at h
    simp only [TVal.put, putL_same l ws vs h]
  | .obj m cls names vs, h => by
    simp only [TVal.locs, List.mem_cons, not_or] at h
    have e : m ≠ l := fun e => h.1 e.symm
    simp only [TVal.put, e, if_false, putL_same l ws vs h.2]
theorem putL_same (l : Nat) (ws : List TVal) : (ts : List TVal) → l ∉ locsL ts → putL l ws ts = ts
  | [], _ => rfl
  | t :: ts, h => by
    simp only [locsL, List.mem_append, not_or] at h
    simp only [putL, put_same l ws t h.1, putL_same l ws ts h.2]
end

theorem find_zip (names : List Name) (vals : List TVal) (a : Name) :
    getAttr? (names.zip (eraseL vals)) a = ((names.zip vals).find? (fun p => p.1 == a)).map (fun p => p.2.erase) := by
  unfold getAttr?
  induction names generalizing vals with
  | nil => rfl
  | cons b names ih =>
    cases vals with
    | nil => rfl
    | cons t ts =>
      simp only [eraseL, List.zip_cons_cons, List.find?_cons]
      cases b == a with
      | true => rfl
      | false => exact ih ts

theorem gather_erase (names : List Name) (vals : List TVal) (as : List Name) :
    getAttrs (names.zip (eraseL vals)) as = (gather names vals as).map eraseL := by
  induction as with
  | nil => rfl
  | cons a as ih =>
    unfold getAttrs gather
    rw [find_zip]
    cases (names.zip vals).find? (fun p => p.1 == a) with
    | none => rfl
    | some p =>
      simp only [Option.map_some, ih]
      cases gather names vals as <;> rfl

theorem mem_locsL {t : TVal} {ts : List TVal} (h : t ∈ ts) (hl : l ∈ t.locs) : l ∈ locsL ts := by
  induction ts with
  | nil => cases h
  | cons u us ih =>
    unfold locsL
    rcases List.mem_cons.1 h with e | e
    · subst e; exact List.mem_append_left _ hl
    · exact List.mem_append_right _ (ih e)

theorem gather_mem {names : List Name} {vals us : List TVal} {as : List Name} (h : gather names vals as = .ok us) :
    us.length = as.length ∧ ∀ u ∈ us, u ∈ vals := by
  induction as generalizing us with
  | nil => cases h; exact ⟨rfl, fun u h => nomatch h⟩
  | cons a as ih =>
    unfold gather at h
    cases hf : (names.zip vals).find? (fun p => p.1 == a) with
    | none => rw [hf] at h; cases h
    | some p =>
      rw [hf] at h
      cases hg : gather names vals as with
      | error e => rw [hg] at h; cases h
      | ok ws =>
        rw [hg] at h
        cases h
        obtain ⟨h1, h2⟩ := ih hg
        refine ⟨by simp [h1], fun u hu => ?_⟩
        rcases List.mem_cons.1 hu with e | e
        · subst e; exact (List.of_mem_zip (List.mem_of_find?_eq_some hf)).2
        · exact h2 u e

theorem gather_locs {names : List Name} {vals us : List TVal} {as : List Name} (h : gather names vals as = .ok us)
    (hl : l ∈ locsL us) : l ∈ locsL vals := by
  have hm := (gather_mem h).2
  clear h
  induction us with
  | nil => cases hl
  | cons u us ih =>
    unfold locsL at hl
    rcases List.mem_append.1 hl with e | e
    · exact mem_locsL (hm u List.mem_cons_self) e
    · exact ih e fun w hw => hm w (List.mem_cons_of_mem _ hw)

theorem gather_self {names : List Name} {vals : List TVal} (hn : names.Nodup) (hl : names.length = vals.length) :
    gather names vals names = .ok vals := by
  have gen : ∀ (front : List Name) (fv : List TVal) (as : List Name) (vs : List TVal), (front ++ as).Nodup →
      front.length = fv.length → as.length = vs.length → gather (front ++ as) (fv ++ vs) as = .ok vs := by
    intro front fv as
    induction as generalizing front fv with
    | nil => intro vs _ _ h; cases vs with
      | nil => rfl
      | cons _ _ => cases h
    | cons a as ih =>
      intro vs hn h1 h2
      cases vs with
      | nil => cases h2
      | cons v vs =>
        unfold gather
        have hz : (front ++ a :: as).zip (fv ++ v :: vs) = front.zip fv ++ (a, v) :: as.zip vs := by
          rw [List.zip_append h1]; rfl
        have hf : ((front ++ a :: as).zip (fv ++ v :: vs)).find? (fun p => p.1 == a) = some (a, v) := by
          rw [hz, List.find?_append]
          have : (front.zip fv).find? (fun p => p.1 == a) = none := by
            rw [List.find?_eq_none]
            intro p hp he
            have := (List.of_mem_zip (show (p.1, p.2) ∈ front.zip fv from hp)).1
            rw [List.nodup_append] at hn
            exact hn.2.2 p.1 this a List.mem_cons_self (by simpa using he)
          rw [this]
          simp
        rw [hf]
        have e := ih (front ++ [a]) (fv ++ [v]) vs (by simpa using hn) (by simp [h1]) (by simpa using h2)
        simp only [List.append_assoc, List.singleton_append] at e
        simp only [e]
        rfl
  simpa using gen [] [] names vals (by simpa using hn) rfl hl

/-- Attributes without identities. -/
def eraseA (as : List (Name × TVal)) : List (Name × Val) := as.map fun p => (p.1, p.2.erase)

theorem zip_eraseA (names : List Name) (vals : List TVal) : names.zip (eraseL vals) = eraseA (names.zip vals) := by
  induction names generalizing vals with
  | nil => rfl
  | cons a names ih => cases vals with
    | nil => rfl
    | cons t ts =>
      show (a, t.erase) :: names.zip (eraseL ts) = (a, t.erase) :: eraseA (names.zip ts)
      rw [ih]

theorem unzip_eraseA (as : List (Name × TVal)) : (as.map Prod.fst).zip (eraseL (as.map Prod.snd)) = eraseA as := by
  induction as with
  | nil => rfl
  | cons p as ih =>
    show (p.1, p.2.erase) :: (as.map Prod.fst).zip (eraseL (as.map Prod.snd)) = (p.1, p.2.erase) :: eraseA as
    rw [ih]

theorem setT_erase (as : List (Name × TVal)) (a : Name) (t : TVal) : eraseA (setT as a t) = setAttr (eraseA as) a t.erase := by
  induction as with
  | nil => rfl
  | cons p as ih =>
    obtain ⟨b, u⟩ := p
    unfold setT
    show _ = setAttr ((b, u.erase) :: eraseA as) a t.erase
    unfold setAttr
    by_cases h : b = a
    · simp only [h, if_true, beq_self_eq_true]; rfl
    · simp only [h, if_false, beq_eq_false_iff_ne.2 h]
      show (b, u.erase) :: eraseA (setT as a t) = _
      rw [ih]
      rfl

theorem assign_erase (nvs as : List (Name × TVal)) :
    eraseA (nvs.foldl (fun as nv => setT as nv.1 nv.2) as) = (eraseA nvs).foldl (fun as nv => setAttr as nv.1 nv.2) (eraseA as) := by
  induction nvs generalizing as with
  | nil => rfl
  | cons p nvs ih =>
    show eraseA (nvs.foldl _ (setT as p.1 p.2)) = (eraseA nvs).foldl _ (setAttr (eraseA as) p.1 p.2.erase)
    rw [ih, setT_erase]

theorem setT_mem {as : List (Name × TVal)} {a : Name} {t u : TVal} (h : u ∈ (setT as a t).map Prod.snd) :
    u = t ∨ u ∈ as.map Prod.snd := by
  induction as with
  | nil => simp only [setT, List.map_cons, List.map_nil, List.mem_singleton] at h; exact .inl h
  | cons p as ih =>
    obtain ⟨b, w⟩ := p
    unfold setT at h
    by_cases hb : b = a
    · simp only [hb, if_true, List.map_cons, List.mem_cons] at h
      rcases h with e | e
      · exact .inl e
      · exact .inr (by simp only [List.map_cons, List.mem_cons]; exact .inr e)
    · simp only [hb, if_false, List.map_cons, List.mem_cons] at h
      rcases h with e | e
      · exact .inr (by simp only [List.map_cons, List.mem_cons]; exact .inl e)
      · rcases ih e with e | e
        · exact .inl e
        · exact .inr (by simp only [List.map_cons, List.mem_cons]; exact .inr e)

theorem assign_mem {nvs as : List (Name × TVal)} {u : TVal}
    (h : u ∈ (nvs.foldl (fun as nv => setT as nv.1 nv.2) as).map Prod.snd) : u ∈ as.map Prod.snd ∨ u ∈ nvs.map Prod.snd := by
  induction nvs generalizing as with
  | nil => exact .inl h
  | cons p nvs ih =>
    rcases ih h with e | e
    · rcases setT_mem e with e | e
      · exact .inr (by simp only [List.map_cons, List.mem_cons]; exact .inl e)
      · exact .inl e
    · exact .inr (by simp only [List.map_cons, List.mem_cons]; exact .inr e)

theorem setT_fst {as : List (Name × TVal)} {a : Name} {t : TVal} (h : a ∈ as.map Prod.fst) :
    (setT as a t).map Prod.fst = as.map Prod.fst := by
  induction as with
  | nil => cases h
  | cons p as ih =>
    obtain ⟨b, w⟩ := p
    unfold setT
    by_cases hb : b = a
    · simp only [hb, if_true, List.map_cons]
    · simp only [hb, if_false, List.map_cons]
      rw [ih]
      simp only [List.map_cons, List.mem_cons] at h
      exact h.resolve_left fun e => hb e.symm

theorem setT_front {as bs : List (Name × TVal)} {a : Name} {t : TVal} (h : a ∉ as.map Prod.fst) :
    setT (as ++ bs) a t = as ++ setT bs a t := by
  induction as with
  | nil => rfl
  | cons p as ih =>
    obtain ⟨b, w⟩ := p
    simp only [List.map_cons, List.mem_cons, not_or] at h
    show setT ((b, w) :: (as ++ bs)) a t = _
    rw [setT, if_neg (Ne.symm h.1), ih h.2]
    rfl

/-- Assigning every attribute leaves none of the old values. -/
theorem assign_all {names : List Name} (hn : names.Nodup) {old new : List TVal} (h1 : names.length = old.length)
    (h2 : names.length = new.length) :
    (names.zip new).foldl (fun as nv => setT as nv.1 nv.2) (names.zip old) = names.zip new := by
  have gen : ∀ (ns : List Name) (old new : List TVal) (front : List (Name × TVal)), (front.map Prod.fst ++ ns).Nodup →
      ns.length = old.length → ns.length = new.length →
      (ns.zip new).foldl (fun as nv => setT as nv.1 nv.2) (front ++ ns.zip old) = front ++ ns.zip new := by
    intro ns
    induction ns with
    | nil => intro old new front _ _ _; simp
    | cons a ns ih =>
      intro old new front hn h1 h2
      cases old with
      | nil => cases h1
      | cons o old =>
      cases new with
      | nil => cases h2
      | cons t new =>
        simp only [List.zip_cons_cons, List.foldl_cons]
        have hf : a ∉ front.map Prod.fst := by
          rw [List.nodup_append] at hn
          intro h
          exact hn.2.2 a h a List.mem_cons_self rfl
        rw [setT_front hf]
        simp only [setT, if_true]
        have e := ih old new (front ++ [(a, t)]) (by simpa using hn) (by simpa using h1) (by simpa using h2)
        simp only [List.append_assoc, List.singleton_append] at e
        exact e
  simpa using gen names old new [] (by simpa using hn) h1 h2

mutual
theorem defaults_order (bo : ByteOrder) : ∀ {s s' : Ser}, s.withByteOrder bo = .ok s' → defaults s' = defaults s
  | .struct st, s', h => by
    simp only [Ser.withByteOrder] at h
    cases h1 : st.withByteOrder bo <;> rw [h1] at h <;> cases h
    rfl
  | .dynChar id st, s', h => by
    simp only [Ser.withByteOrder] at h
    cases h1 : st.withByteOrder bo <;> rw [h1] at h <;> cases h
    rfl
  | .array id hdr item sl, s', h => by
    simp only [Ser.withByteOrder] at h
    cases hdr with
    | none =>
      obtain ⟨hdr', _, h⟩ := Except.bind_ok' h
      obtain ⟨item', h2, h⟩ := Except.bind_ok' h
      cases h
      simp only [defaults]
      exact defaults_order bo h2
    | some hd =>
      obtain ⟨_, _, h⟩ := Except.bind_ok' h
      obtain ⟨hdr', _, h⟩ := Except.bind_ok' h
      obtain ⟨item', h2, h⟩ := Except.bind_ok' h
      cases h
      simp only [defaults]
      exact defaults_order bo h2
  | .staticArr count item ser, s', h => by
    simp only [Ser.withByteOrder] at h
    obtain ⟨item', h1, h⟩ := Except.bind_ok' h
    obtain ⟨ser', h2, h⟩ := Except.bind_ok' h
    cases h
    rfl
  | .dynArr id cnt item, s', h => by
    simp only [Ser.withByteOrder] at h
    obtain ⟨hdr', h1, h⟩ := Except.bind_ok' h
    obtain ⟨item', h2, h⟩ := Except.bind_ok' h
    cases h
    rfl
  | .cond ser c defs, s', h => by
    simp only [Ser.withByteOrder] at h
    obtain ⟨ser', h1, h⟩ := Except.bind_ok' h
    split at h <;> cases h
    simp only [defaults, defaults_order bo h1]
  | .compound id ss, s', h => by
    simp only [Ser.withByteOrder] at h
    obtain ⟨ss', h1, h⟩ := Except.bind_ok' h
    unfold mkCompound at h
    split at h <;> cases h
    simp only [defaults, defaultsL_order bo h1]
  | .specialized id p ss, s', h => by
    simp only [Ser.withByteOrder] at h
    obtain ⟨ss', h1, h⟩ := Except.bind_ok' h
    unfold mkCompound at h
    split at h <;> cases h
    simp only [defaults, defaultsL_order bo h1]
  | .null, s', h | .consuming _, s', h | .terminated .., s', h | .net _, s', h | .unicode .., s', h
  | .tuple .., s', h | .lookback .., s', h | .lookahead .., s', h | .skip _, s', h | .structured .., s', h
  | .selfT _, s', h => by simp only [Ser.withByteOrder] at h; cases h; rfl
theorem defaultsL_order (bo : ByteOrder) : ∀ {ss ss' : List Ser}, Ser.withByteOrderList bo ss = .ok ss' → defaultsL ss' = defaultsL ss
  | [], ss', h => by simp only [Ser.withByteOrderList] at h; cases h; rfl
  | s :: ss, ss', h => by
    simp only [Ser.withByteOrderList] at h
    obtain ⟨s', h1, h⟩ := Except.bind_ok' h
    obtain ⟨ss'', h2, h⟩ := Except.bind_ok' h
    cases h
    simp only [defaultsL, defaults_order bo h1, defaultsL_order bo h2]
end

theorem objSer_class {env : Env} {cls : ClassId} {bo : Option ByteOrder} {ci : ClassInfo} {ser : Ser}
    (h : objSer env cls bo = .ok (ci, ser)) : env.classes cls = some ci ∧ defaults ser = defaults ci.serializer := by
  unfold objSer at h
  cases hc : env.classes cls with
  | none => rw [hc] at h; cases h
  | some ci' =>
    rw [hc] at h
    cases bo with
    | none => cases h; exact ⟨rfl, rfl⟩
    | some b =>
      cases hw : ci'.serializer.withByteOrder b with
      | error e => simp only [hw] at h; cases h
      | ok s => simp only [hw] at h; cases h; exact ⟨rfl, defaults_order b hw⟩

/-- What is left of an object that was unpacked into. -/
def Refilled (env : Env) (x : Inst) (c : Nat) (y : Inst) (c' : Nat) (v : Val) : Prop :=
  y.erase = v ∧ y.loc = x.loc ∧ y.cls = x.cls ∧ y.order = x.order ∧ ∃ ci news, env.classes x.cls = some ci ∧
    news.length = ci.attrs.length ∧ (∀ u ∈ y.vals, u ∈ x.vals ∨ u ∈ news) ∧
    (x.names = ci.attrs → ci.attrs.Nodup → x.names.length = x.vals.length → y.vals = news) ∧
    (∀ l ∈ locsL news, c ≤ l ∧ l < c') ∧ (locsL news).Nodup ∧ ∀ w ∈ oldsL news, Default env w

theorem objUnpack_sim {env : Env} (hpost : env.noPost) (n : Nat) (x : Inst) (src : Src) (c : Nat) :
    Sim c (objUnpack env n x src) (Obj.unpack env n x.erase src) (Refilled env x c) := by
  have hD : ∀ c ci, env.classes c = some ci → Held (Default env) ci.serializer :=
    fun c ci h v hv hf => ⟨hf, c, ci, h, hv⟩
  obtain ⟨l, cls, cur, names, vals⟩ := x
  simp only [Inst.erase, Obj.unpack, objUnpack]
  refine Sim.liftBind fun r _ _ hr => ?_
  obtain ⟨ci, ser⟩ := r
  obtain ⟨hc, hd⟩ := objSer_class (lift_inv hr)
  have hs : Held (Default env) ser := by
    intro v hv
    rw [hd] at hv
    exact hD cls ci hc v hv
  refine Sim.liftBind fun s _ _ hp => ?_
  refine Sim.bind (unpack_sim hpost hD n _ s src c (held_preunpack hp hs)) fun ts c1 vs h1 hg => ?_
  have he := hg.erase
  subst he
  rw [eraseL_length]
  split
  · rename_i hl
    refine Sim.pure ⟨?_, rfl, rfl, rfl, ci, ts, hc, hl, ?_, ?_, hg.inside, hg.nodup, hg.olds⟩
    · simp only [Inst.erase, unzip_eraseA, assign_erase, ← zip_eraseA]
    · intro u hu
      rcases assign_mem hu with e | e
      · obtain ⟨p, hp, rfl⟩ := List.mem_map.1 e
        exact .inl (List.of_mem_zip (show (p.1, p.2) ∈ names.zip vals from hp)).2
      · obtain ⟨p, hp, rfl⟩ := List.mem_map.1 e
        exact .inr (List.of_mem_zip (show (p.1, p.2) ∈ ci.attrs.zip ts from hp)).2
    · intro e hn hv
      simp only at e hv
      subst e
      simp only [assign_all hn hv hl.symm]
      exact List.map_snd_zip (Nat.le_of_eq hl)
  · exact Sim.throw

end Verif.Share
