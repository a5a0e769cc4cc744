import Verif.Proofs.ThreadUnpack
/-
Unpacking writes the sizes of nested classes of fixed size, and no others, before it reads them.
-/
namespace Verif.Threads

variable {α β : Type} {F : Sizes} {env : Env}

theorem safe_bind {Q : Known → α → Prop} {R : Known → β → Prop} {f : α → Prog β} (x : Prog α) :
    ∀ {known : Known}, x.safe F Q known → (∀ a k, Q k a → (f a).safe F R k) → (x.bind f).safe F R known := by
  induction x with
  | ret a => intro k hx hf; exact hf a k hx
  | getSize id k ih => intro kn hx hf; exact ⟨hx.1, fun n hn => ih n (hx.2 n hn) hf⟩
  | getPart id k ih => intro kn hx hf o; exact ih o (hx o) hf
  | setSize id n k ih => intro kn hx hf; exact ⟨hx.1, ih hx.2 hf⟩
  | setPart id p k ih => intro kn hx hf; exact ih hx hf

/-- `x` is safe when `known` has been written; `R` holds of what has been written then, and of the value returned. -/
def Safe (F : Sizes) (known : Known) (x : T α) (R : Known → α → Prop) : Prop :=
  ∀ l, (x l).safe F (fun k y => ∀ a, y.1 = .ok a → R k a) known

theorem Safe.bind {known : Known} {x : T α} {f : α → T β} {R : Known → α → Prop} {S : Known → β → Prop} (hx : Safe F known x R)
    (hf : ∀ a k, R k a → Safe F k (f a) S) : Safe F known (x >>= f) S := by
  intro l
  refine safe_bind _ (hx l) fun y k hy => ?_
  obtain ⟨y, l'⟩ := y
  cases y with
  | ok a => exact hf a k (hy a rfl) l'
  | error e => exact fun a h => by cases h

theorem safe_mono {Q R : Known → α → Prop} (h : ∀ k a, Q k a → R k a) (x : Prog α) : ∀ {known : Known}, x.safe F Q known → x.safe F R known := by
  induction x with
  | ret a => intro k hx; exact h k a hx
  | getSize id k ih => intro kn hx; exact ⟨hx.1, fun n hn => ih n (hx.2 n hn)⟩
  | getPart id k ih => intro kn hx o; exact ih o (hx o)
  | setSize id n k ih => intro kn hx; exact ⟨hx.1, ih hx.2⟩
  | setPart id p k ih => intro kn hx; exact ih hx

theorem Safe.mono {known : Known} {x : T α} {R S : Known → α → Prop} (h : Safe F known x R) (hi : ∀ k a, R k a → S k a) : Safe F known x S :=
  fun l => safe_mono (fun _ _ hy a ha => hi _ _ (hy a ha)) _ (h l)

theorem Safe.pure {known : Known} {a : α} {R : Known → α → Prop} (h : R known a) : Safe F known (Pure.pure a : T α) R :=
  fun _ b hb => by cases hb; exact h

theorem Safe.throw {known : Known} {R : Known → α → Prop} (e : Err) : Safe F known (T.throw e : T α) R := fun _ b hb => by cases hb

theorem Safe.lift {known : Known} (e : Except Err α) : Safe F known (T.lift e) fun k a => k = known ∧ e = .ok a := fun _ _ hb => ⟨rfl, hb⟩

/-- What does not touch the attributes. -/
theorem Safe.still {known : Known} {x : T α} (h : ∀ l, ∃ z, x l = .ret z) : Safe F known x fun k _ => k = known := by
  intro l
  obtain ⟨z, e⟩ := h l
  rw [e]
  exact fun _ _ => rfl

theorem Safe.setSize {known : Known} {id : SerId} {n : Nat} (h : ∀ m, F id = some m → n = m) :
    Safe F known (setSize id n) fun k _ => k = fun j => known j ∨ j = id := fun _ => ⟨h, fun _ _ => rfl⟩

theorem isNone_vacuous {id : SerId} (h : (F id).isNone = true) {p : Nat → Prop} : ∀ m, F id = some m → p m := by
  intro m hm
  rw [hm] at h; cases h

theorem Safe.setOther {known : Known} {id : SerId} {n : Nat} (h : (F id).isNone = true) :
    Safe F known (Threads.setSize id n) fun k _ => k = fun j => known j ∨ j = id := Safe.setSize (isNone_vacuous h)

theorem Safe.getPart {known : Known} {id : SerId} : Safe F known (getPart id) fun k _ => k = known := by
  intro l o
  cases o with
  | none => exact fun _ _ => rfl
  | some p => exact fun _ _ => rfl

/-! ### Serializers -/

/-- Where `size` is read. -/
def sizeIds : Ser → List SerId
  | .structured id _ => [id]
  | .unicode inner _ _ => sizeIds inner
  | .tuple _ inner => sizeIds inner
  | _ => []

/-- The thread has written the sizes of this serializer. -/
def Knows (s : Ser) (k : Known) : Prop := ∀ j ∈ sizeIds s, k j

theorem fitsList_mem {ss : List Ser} : fitsList F env ss = true ↔ ∀ s ∈ ss, fits F env s = true := by
  induction ss with
  | nil => simp [fitsList]
  | cons s ss ih => simp [fitsList, ih]

theorem safe_cell {known : Known} {id : SerId} (h : (F id).isNone = true) : Safe F known (getCellSize id) fun k _ => k = known :=
  fun _ => ⟨isNone_vacuous h, fun _ _ _ _ => rfl⟩

theorem safe_readSize : ∀ {s : Ser}, fits F env s = true → ∀ {known : Known}, Knows s known → Safe F known (readSize s) fun k _ => k = known
  | .null, _, _, _ | .struct _, _, _, _ | .staticArr .., _, _, _ | .skip _, _, _, _ => Safe.pure rfl
  | .dynChar .., h, _, _ | .consuming _, h, _, _ | .terminated .., h, _, _ | .net _, h, _, _ | .dynArr .., h, _, _ => safe_cell (by simpa only [fits] using h)
  | .unicode inner _ _, h, _, hk => safe_readSize (s := inner) (by simpa only [fits] using h) hk
  | .tuple _ inner, h, _, hk => safe_readSize (s := inner) (by simpa only [fits] using h) hk
  | .array .., h, _, _ => by simp only [fits, Bool.and_eq_true] at h; exact safe_cell h.1
  | .lookback .., h, _, _ => by simp only [fits, Bool.and_eq_true] at h; exact safe_cell h.1.1
  | .lookahead .., h, _, _ => by simp only [fits, Bool.and_eq_true] at h; exact safe_cell h.1.1.1
  | .compound .., h, _, _ => by simp only [fits, Bool.and_eq_true] at h; exact safe_cell h.1
  | .specialized .., h, _, _ => by simp only [fits, Bool.and_eq_true] at h; exact safe_cell h.1
  | .cond .., _, _, _ | .selfT _, _, _, _ => Safe.throw _
  | .structured id _, _, _, hk => fun _ => ⟨fun _ _ => hk id (by simp [sizeIds]), fun _ _ _ _ => rfl⟩

theorem sized_other {id : SerId} (h : (F id).isNone = true) (c : ClassId) : sized F env id c = true := by
  unfold sized
  cases hF : F id with
  | none => rfl
  | some m => rw [hF] at h; cases h

theorem safe_prepack {s : Ser} (h : fits F env s = true) (p : PObj) {known : Known} :
    Safe F known (prepack s p) fun k s' => k = known ∧ fits F env s' = true ∧ ∀ j ∈ sizeIds s, j ∈ sizeIds s' := by
  cases s with
  | array | tuple | lookback | lookahead => exact fun _ a ha => by cases ha; exact ⟨rfl, h, fun _ h => h⟩
  | cond ser c defs =>
    refine (Safe.lift _).mono fun k s' hs => ⟨hs.1, ?_, fun _ h => by cases h⟩
    obtain ⟨r, _, h2⟩ := Except.bind_ok' hs.2
    unfold condPick at h2
    split at h2
    · cases h2
    · split at h2
      · cases h2; simpa only [fits] using h
      · split at h2
        · cases h2; rfl
        · cases h2
  | selfT id => exact Safe.pure ⟨rfl, sized_other (by simpa only [fits] using h) _, fun _ h => by cases h⟩
  | compound id ss =>
    refine Safe.pure ⟨rfl, ?_, fun _ h => by cases h⟩
    split
    · simpa only [fits] using h
    · exact h
  | _ => exact Safe.pure ⟨rfl, h, fun _ h => h⟩

theorem safe_preunpack {s : Ser} (h : fits F env s = true) (p : PObj) {known : Known} :
    Safe F known (preunpack s p) fun k s' => k = known ∧ fits F env s' = true ∧ ∀ j ∈ sizeIds s, j ∈ sizeIds s' := by
  cases s with
  | selfT id =>
    refine (Safe.lift _).mono fun k s' hs => ⟨hs.1, ?_, fun _ h => by cases h⟩
    obtain ⟨r, _, h2⟩ := Except.bind_ok' hs.2
    cases h2
    exact sized_other (by simpa only [fits] using h) _
  | _ => exact safe_prepack h p

theorem fits_unionPick {keys : List Val} {opts : List Ser} {dflt o : Ser} {r : Val}
    (h : unionPick keys opts dflt r = .ok o) (ho : fitsList F env opts = true) (hd : fits F env dflt = true) : fits F env o = true := by
  unfold unionPick at h
  by_cases h1 : ¬ r.hashable = true
  · rw [if_pos h1] at h; cases h
  · rw [if_neg h1] at h
    cases hl : lookupOpt keys opts r with
    | some s =>
      rw [hl] at h
      cases h
      unfold lookupOpt at hl
      cases hf : (keys.zip opts).find? (fun p => p.1.keyEq r) with
      | none => rw [hf] at hl; cases hl
      | some q =>
        rw [hf] at hl
        cases hl
        exact fitsList_mem.1 ho _ (List.of_mem_zip (List.mem_of_find?_eq_some hf)).2
    | none =>
      rw [hl] at h
      cases dflt <;> first | (cases h; done) | (cases h; exact hd)

theorem safe_getSerializer {id : SerId} {keys : List Val} {opts : List Ser} {dflt : Ser} {r : Val} {known : Known}
    (ho : fitsList F env opts = true) (hd : fits F env dflt = true) :
    Safe F known (getSerializer false id keys opts dflt r) fun _ s => fits F env s = true := by
  refine (Safe.lift _).bind fun s k hs => Safe.getPart.bind fun p k' _ => ?_
  exact (safe_preunpack (fits_unionPick hs.2 ho hd) p).mono fun _ _ h => h.2.1

/-! ### Unpacking -/

theorem still_structUnpack (env : Env) (s src) : ∀ l, ∃ z, structUnpackM env s src l = .ret z := fun l => by cases src <;> exact ⟨_, rfl⟩

theorem still_structUnpackOpt (env : Env) (s src) : ∀ l, ∃ z, structUnpackOpt env s src l = .ret z := fun l => by
  cases s with
  | none => exact ⟨_, rfl⟩
  | some s => exact still_structUnpack env s src l

/-- Anything, then a result of which nothing is needed. -/
abbrev Some' : Known → α → Prop := fun _ _ => True

theorem safe_dynChar {id : SerId} (h : (F id).isNone = true) (st src) {known : Known} : Safe F known (dynCharUnpack env id st src) Some' := by
  refine (Safe.still (still_structUnpack env st src)).bind fun hv k _ => (Safe.lift _).bind fun c k _ => (Safe.setOther h).bind fun _ k _ => ?_
  cases src with
  | buf b => exact Safe.pure trivial
  | «at» b off => exact (Safe.lift _).bind fun s k _ => (Safe.still (still_structUnpackOpt env s _)).mono fun _ _ _ => trivial
  | io => exact (Safe.lift _).bind fun s k _ => (Safe.still (still_structUnpackOpt env s _)).mono fun _ _ _ => trivial

theorem safe_consuming {id : SerId} (h : (F id).isNone = true) (src) {known : Known} : Safe F known (consumingUnpack id src) Some' := by
  cases src with
  | buf b => exact (Safe.setOther h).bind fun _ _ _ => Safe.pure trivial
  | «at» b off => exact (Safe.setOther h).bind fun _ _ _ => Safe.pure trivial
  | io => exact (Safe.still fun _ => ⟨_, rfl⟩).bind fun _ _ _ => (Safe.setOther h).bind fun _ _ _ => Safe.pure trivial

theorem safe_terminated {id : SerId} (h : (F id).isNone = true) (term src) {known : Known} : Safe F known (terminatedUnpack id term src) Some' := by
  cases src with
  | buf b =>
    simp only [terminatedUnpack]
    cases findTerm term b with
    | none => exact Safe.throw _
    | some k => exact (Safe.setOther h).bind fun _ _ _ => Safe.pure trivial
  | «at» b off =>
    simp only [terminatedUnpack]
    cases findTerm term (b.drop off) with
    | none => exact Safe.throw _
    | some k => exact (Safe.setOther h).bind fun _ _ _ => Safe.pure trivial
  | io =>
    refine (Safe.still (x := T.get) fun _ => ⟨_, rfl⟩).bind fun st k _ => ?_
    simp only
    cases termReadLoop term ((st.io.data.drop st.io.pos).length + 1) (st.io.data.drop st.io.pos) [] 0 with
    | none => exact (Safe.still fun _ => ⟨_, rfl⟩).bind fun _ _ _ => Safe.throw _
    | some r => exact (Safe.still fun _ => ⟨_, rfl⟩).bind fun _ _ _ => (Safe.setOther h).bind fun _ _ _ => Safe.pure trivial

theorem safe_net {id : SerId} (h : (F id).isNone = true) (src) {known : Known} : Safe F known (netUnpack env id src) Some' := by
  have fin : ∀ (cs : Nat × Nat) (known : Known), Safe F known (do
      setSize id (cs.2 + cs.1)
      match src with
      | .buf b => pure [.bytes ((b.drop cs.2).take cs.1)]
      | .at b off => T.lift (structUnpackFrom env.plat .default [⟨cs.1, .str⟩] b (off + cs.2))
      | .io => do
        let d ← ioRead cs.1
        pure [.bytes d] : T (List Val)) Some' := fun cs known => by
    refine (Safe.setOther h).bind fun _ k _ => ?_
    cases src with
    | buf b => exact Safe.pure trivial
    | «at» b off => exact (Safe.lift _).mono fun _ _ _ => trivial
    | io => exact (Safe.still fun _ => ⟨_, rfl⟩).bind fun _ _ _ => Safe.pure trivial
  refine (Safe.still (x := T.get) fun _ => ⟨_, rfl⟩).bind fun l k _ => (Safe.still (still_structUnpack env _ src)).bind fun hv k _ =>
    (Safe.lift _).bind fun c k _ => ?_
  by_cases hc : (128 : Int) ≤ c
  · simp only [if_pos hc]
    refine Safe.bind (x := seek src l.io.pos) (R := Some') ?_ fun _ k _ => (Safe.still (still_structUnpack env _ src)).bind fun hv k _ =>
      (Safe.lift _).bind fun c k _ => (Safe.lift _).bind fun n k _ => fin (n, _) k
    cases src with
    | io => exact (Safe.still fun _ => ⟨_, rfl⟩).mono fun _ _ _ => trivial
    | _ => exact Safe.pure trivial
  · simp only [if_neg hc]
    exact fin (_, _) _

/-- Unpacking with any serializer is safe, and its sizes are written then. -/
def Unpacked (F : Sizes) (env : Env) (unpackN : Ser → Src → T (List Val)) : Prop :=
  ∀ s src known, fits F env s = true → Safe F known (unpackN s src) fun k _ => Knows s k

variable {unpackN : Ser → Src → T (List Val)}

theorem safe_unpackLoop (hN : Unpacked F env unpackN) {src : Src} : ∀ (ss : List Ser) (size : Nat) (known : Known),
    fitsList F env ss = true → Safe F known (unpackLoop unpackN src size ss) Some'
  | [], _, _, _ => Safe.pure trivial
  | s :: ss, size, known, h => by
    have h' := fitsList_mem.1 h
    have hs := h' s (List.mem_cons_self ..)
    refine (hN s _ known hs).bind fun vs k hk => (safe_readSize hs hk).bind fun sz k' _ => ?_
    exact (safe_unpackLoop hN ss _ k' (fitsList_mem.2 fun s hs => h' s (List.mem_cons_of_mem _ hs))).bind fun _ _ _ => Safe.pure trivial

theorem safe_unpackLoopSpec (hN : Unpacked F env unpackN) {upd : Upd} {src : Src} : ∀ (ss : List Ser) (p : PObj) (done size : Nat) (known : Known),
    fitsList F env ss = true → Safe F known (unpackLoopSpec unpackN upd src p done size ss) Some'
  | [], _, _, _, _, _ => Safe.pure trivial
  | s :: ss, p, done, size, known, h => by
    have h' := fitsList_mem.1 h
    refine (safe_preunpack (h' s (List.mem_cons_self ..)) p).bind fun s' k hs => ?_
    refine (hN s' _ k hs.2.1).bind fun vs k hk => (Safe.lift _).bind fun p' k' hp => ?_
    obtain ⟨rfl, _⟩ := hp
    refine (safe_readSize hs.2.1 hk).bind fun sz k' _ => ?_
    exact (safe_unpackLoopSpec hN ss _ _ _ k' (fitsList_mem.2 fun s hs => h' s (List.mem_cons_of_mem _ hs))).bind fun _ _ _ => Safe.pure trivial

theorem safe_unpackItems (hN : Unpacked F env unpackN) {src : Src} {item : Ser} (hs : fits F env item = true) : ∀ (n size : Nat) (known : Known),
    Safe F known (unpackItems unpackN item src size n) Some'
  | 0, _, _ => Safe.pure trivial
  | n + 1, _, known => by
    refine (hN item _ known hs).bind fun vs k hk => (safe_readSize hs hk).bind fun sz k' _ => ?_
    exact (safe_unpackItems hN hs n _ k').bind fun _ _ _ => Safe.pure trivial

theorem safe_createUnpackWith (he : Fitting F env) {unpackN : Upd → Ser → Src → T (List Val)} (hN : ∀ upd, Unpacked F env (unpackN upd))
    (cls : ClassId) (src : Src) {known : Known} :
    Safe F known (createUnpackWith env unpackN cls src) fun k y => ∃ ci, env.classes cls = some ci ∧ y.2 = ci.serializer ∧ fits F env y.2 = true ∧ Knows y.2 k := by
  unfold createUnpackWith
  cases hc : env.classes cls with
  | none => exact Safe.throw _
  | some ci =>
    have hf : fits F env ci.serializer = true := he cls Option.none ci ci.serializer (by simp [objSer, hc])
    refine (safe_preunpack hf _).bind fun s k hs => (hN _ s src k hs.2.1).bind fun vs k hk => (Safe.lift _).bind fun v k' hv => ?_
    obtain ⟨rfl, _⟩ := hv
    exact Safe.pure ⟨ci, rfl, rfl, hf, fun j hj => hk j (hs.2.2 j hj)⟩

theorem not_lazy_knows {s : Ser} (h : s.isLazy = true) (k : Known) : Knows s k := by
  cases s <;> first | (cases h; done) | (exact fun _ h => by cases h)

theorem safe_unionUnpack (hN : Unpacked F env unpackN) {id : SerId} (h : (F id).isNone = true) {s : Ser} (hs : fits F env s = true) (src : Src)
    {known : Known} : Safe F known (unionUnpack unpackN id s src) Some' := by
  unfold unionUnpack
  by_cases hl : s.isLazy = true
  · rw [if_pos hl]
    refine (safe_readSize hs (not_lazy_knows hl _)).bind fun sz k _ => (Safe.setOther h).bind fun _ k _ => ?_
    exact (hN s src k hs).mono fun _ _ _ => trivial
  · rw [if_neg hl]
    exact (hN s src _ hs).bind fun vs k hk => (safe_readSize hs hk).bind fun sz k _ => (Safe.setOther h).bind fun _ k _ => Safe.pure trivial

theorem nothing_known {s : Ser} (h : sizeIds s = []) (k : Known) : Knows s k := fun j hj => by rw [h] at hj; cases hj

theorem safe_unpack (he : Fitting F env) : ∀ (n : Nat) (upd : Upd), Unpacked F env (unpack env n upd)
  | 0, _ => fun _ _ _ _ => Safe.throw _
  | n + 1, upd => by
    intro s src known hs
    have ih := safe_unpack he n
    have any : ∀ {x : T (List Val)} {known : Known}, sizeIds s = [] → Safe F known x Some' → Safe F known x fun k _ => Knows s k :=
      fun h hx => hx.mono fun k _ _ => nothing_known h k
    unfold unpack
    cases s with
    | null => exact Safe.pure (nothing_known rfl _)
    | struct st => exact (Safe.still (still_structUnpack env st src)).mono fun k _ _ => nothing_known rfl k
    | dynChar id st => exact any rfl (safe_dynChar (by simpa only [fits] using hs) st src)
    | consuming id => exact any rfl (safe_consuming (by simpa only [fits] using hs) src)
    | terminated id term => exact any rfl (safe_terminated (by simpa only [fits] using hs) term src)
    | net id => exact any rfl (safe_net (by simpa only [fits] using hs) src)
    | unicode inner enc dec =>
      refine (ih _ inner src known (by simpa only [fits] using hs)).bind fun vs k hk => (Safe.lift _).mono fun k' _ h => ?_
      rw [h.1]; exact hk
    | array id hdr item sl =>
      simp only [fits, Bool.and_eq_true] at hs
      refine any rfl ((Safe.still (still_structUnpackOpt env hdr src)).bind fun hv k _ => (Safe.lift _).bind fun cd k _ => Safe.getPart.bind fun p k _ => ?_)
      refine (safe_preunpack hs.2 p).bind fun item' k hi => (safe_unpackItems (ih _) hi.2.1 _ _ k).bind fun r k _ => ?_
      exact (Safe.lift _).bind fun _ k _ => (Safe.setOther hs.1).bind fun _ k _ => Safe.pure trivial
    | staticArr c item ser => exact any rfl ((Safe.still (still_structUnpackOpt env ser src)).bind fun _ _ _ => Safe.pure trivial)
    | dynArr id cnt item =>
      refine any rfl ((Safe.still (still_structUnpack env cnt src)).bind fun hv k _ => ?_)
      have tail : ∀ (c : Int) (k : Known), Safe F k (do
        let s ← T.lift (item.mul c)
        let vs ← structUnpackOpt env s (src.next cnt.size)
        setSize id (cnt.size + s.elim 0 StructSer.size)
        pure [.list vs] : T (List Val)) Some' := fun c k =>
        (Safe.lift _).bind fun s k _ => (Safe.still (still_structUnpackOpt env s _)).bind fun vs k _ =>
          (Safe.setOther (by simpa only [fits] using hs)).bind fun _ _ _ => Safe.pure trivial
      match hv with
      | [c] => exact (Safe.lift _).bind fun c k _ => tail c k
      | [] | _ :: _ :: _ => exact Safe.throw _
    | tuple id inner =>
      simp only [fits] at hs
      refine Safe.getPart.bind fun p k _ => (safe_preunpack hs p).bind fun inner' k hi => ?_
      by_cases hl : inner'.isLazy = true
      · rw [if_pos hl]
        exact Safe.pure fun j hj => not_lazy_knows hl k j (hi.2.2 j hj)
      · rw [if_neg hl]
        exact (ih _ inner' src k hi.2.1).bind fun vs k hk => Safe.pure fun j hj => hk j (hi.2.2 j hj)
    | lookback id d keys opts dflt =>
      simp only [fits, Bool.and_eq_true] at hs
      refine any rfl (Safe.getPart.bind fun p k _ => (Safe.lift _).bind fun r k _ => (safe_getSerializer hs.1.2 hs.2).bind fun s k hs' => ?_)
      exact safe_unionUnpack (ih _) hs.1.1 hs' src
    | lookahead id ra d keys opts dflt =>
      simp only [fits, Bool.and_eq_true] at hs
      refine any rfl ((ih _ ra src known hs.1.1.2).bind fun hv k hk => (Safe.lift _).bind fun r k' hr => ?_)
      obtain ⟨rfl, _⟩ := hr
      refine Safe.bind (x := rewind src ra) (R := Some') ?_ fun _ k _ => (safe_getSerializer hs.1.2 hs.2).bind fun s k hs' => safe_unionUnpack (ih _) hs.1.1.1 hs' src
      cases src with
      | io => exact (safe_readSize hs.1.1.2 hk).bind fun _ k _ => (Safe.still fun _ => ⟨_, rfl⟩).mono fun _ _ _ => trivial
      | _ => exact Safe.pure trivial
    | cond ser c defs => exact Safe.throw _
    | skip vals => exact Safe.pure (nothing_known rfl _)
    | structured id cls =>
      refine (safe_createUnpackWith he ih cls src).bind fun y k hy => ?_
      obtain ⟨ci, hc, hy2, hf, hk⟩ := hy
      obtain ⟨v, ser⟩ := y
      simp only at hy2 hf hk ⊢
      have last : ∀ (n : Nat) (k : Known), (∀ m, F id = some m → n = m) → Safe F k (do setSize id n; pure [v] : T (List Val)) fun k _ => Knows (.structured id cls) k :=
        fun n k h => (Safe.setSize h).bind fun _ k' hk' => Safe.pure fun j hj => by
          rw [hk']
          simp only [sizeIds, List.mem_singleton] at hj
          exact .inr hj
      cases hF : F id with
      | none => exact (safe_readSize hf hk).bind fun n k _ => last n k fun m hm => by rw [hF] at hm; cases hm
      | some m =>
        simp only [fits, sized, hF, hc] at hs
        rw [hy2]
        cases hser : ci.serializer with
        | struct s =>
          rw [hser] at hs
          have : s.size = m := by simpa using hs
          exact last s.size k fun m' hm => by rw [hF] at hm; cases hm; exact this
        | _ => rw [hser] at hs; cases hs
    | selfT id => exact Safe.throw _
    | compound id ss =>
      simp only [fits, Bool.and_eq_true] at hs
      refine any rfl ((safe_unpackLoop (ih _) ss 0 known hs.2).bind fun r k _ => ?_)
      exact (Safe.setOther hs.1).bind fun _ _ _ => Safe.pure trivial
    | specialized id p ss =>
      simp only [fits, Bool.and_eq_true] at hs
      refine any rfl ((safe_unpackLoopSpec (ih _) ss p 0 0 known hs.2).bind fun r k _ => ?_)
      exact (Safe.setOther hs.1).bind fun _ _ _ => Safe.pure trivial

theorem safe_createUnpack (he : Fitting F env) (n : Nat) (cls : ClassId) (src : Src) (known : Known) : Safe F known (createUnpack env n cls src) Some' :=
  (safe_createUnpackWith he (safe_unpack he n) cls src).bind fun _ _ _ => Safe.pure trivial

theorem safe_unpackObj (he : Fitting F env) (n : Nat) (v : Val) (src : Src) (known : Known) : Safe F known (unpackObj env n v src) Some' := by
  cases v with
  | obj cls bo attrs =>
    refine (Safe.lift _).bind fun cs k hs => ?_
    refine (safe_preunpack (he cls bo cs.1 cs.2 hs.2) _).bind fun s k hs => (safe_unpack he n _ s src k hs.2.1).bind fun vals k _ => ?_
    split
    · exact Safe.pure trivial
    · exact Safe.throw _
  | _ => exact Safe.throw _

end Verif.Threads
