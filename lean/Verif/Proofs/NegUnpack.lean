import Verif.Spec.NegOffset
import Verif.Proofs.Rel
import Verif.Proofs.Enough
/-
Unpacking at an integer offset against unpacking at the natural number it stands for.
-/
namespace Verif.Neg

/-- `o` and `m` name the same place of a buffer of length `len`: they are equal, or `o` counts from the end (only when
not `strict`). -/
def Off (strict : Bool) (len : Nat) (o : Int) (m : Nat) : Prop :=
  o = m ∨ (strict = false ∧ o + len = m)

theorem Off.add {strict : Bool} {len : Nat} {o : Int} {m k : Nat} (h : Off strict len o m) : Off strict len (o + k) (m + k) := by
  rcases h with h | ⟨h1, h2⟩
  · left; omega
  · right; exact ⟨h1, by omega⟩

/-- A success is the same success; an exception is the same exception if `strict`. -/
def Agree (strict : Bool) (f : α → β) (r : Res α) (r' : NRes β) : Prop :=
  match r with
  | .ok a st => r' = .ok (f a) (emb st)
  | .err e _ => strict = true → ∃ ns, r' = .err e ns

variable {strict : Bool} {α β γ δ : Type}

theorem Agree.bind {f : α → β} {g : γ → δ} {x : M α} {x' : N β} {k : α → M γ} {k' : β → N δ} {st : St}
    (h : Agree strict f (x st) (x' (emb st)))
    (hk : ∀ a st1, x st = .ok a st1 → Agree strict g (k a st1) (k' (f a) (emb st1))) :
    Agree strict g ((x >>= k) st) ((x' >>= k') (emb st)) := by
  show Agree strict g (M.bind x k st) (N.bind x' k' (emb st))
  unfold M.bind N.bind
  cases hx : x st with
  | ok a st1 =>
    rw [hx] at h
    have h' : x' (emb st) = .ok (f a) (emb st1) := h
    rw [h']
    exact hk a st1 hx
  | err e st1 =>
    rw [hx] at h
    intro hs
    obtain ⟨ns, h'⟩ := h hs
    exact ⟨ns, by rw [h']⟩

theorem Agree.bind1 {g : γ → δ} {x : M α} {x' : N α} {k : α → M γ} {k' : α → N δ} {st : St}
    (h : Agree strict id (x st) (x' (emb st)))
    (hk : ∀ a st1, x st = .ok a st1 → Agree strict g (k a st1) (k' a (emb st1))) :
    Agree strict g ((x >>= k) st) ((x' >>= k') (emb st)) := Agree.bind h hk

theorem Agree.pure {f : α → β} {a : α} {st : St} : Agree strict f ((Pure.pure a : M α) st) ((Pure.pure (f a) : N β) (emb st)) := rfl

theorem Agree.throw {f : α → β} {e : Err} {st : St} : Agree strict f ((M.throw e : M α) st) ((N.throw e : N β) (emb st)) :=
  fun _ => ⟨_, rfl⟩

theorem Agree.lift {x : Except Err α} {st : St} : Agree strict id (M.lift x st) (N.lift x (emb st)) := by
  cases x with
  | ok a => rfl
  | error e => exact fun _ => ⟨_, rfl⟩

theorem Agree.setSize {i : SerId} {k : Nat} {z : Int} (h : z = k) {st : St} :
    Agree strict id (Verif.setSize i k st) (Neg.setSize i z (emb st)) := by
  subst h
  show NRes.ok () _ = NRes.ok () _
  congr 1
  simp only [emb, NSt.mk.injEq]
  constructor
  · congr 1
    funext j
    by_cases hj : j = i
    · simp [hj]
    · simp [hj]
  · funext j
    by_cases hj : j = i <;> simp [hj]

theorem Agree.err {f : α → β} {e : Err} {r : Res α} {r' : NRes β} {st : St} {ns : NSt} (h : r = .err e st)
    (h' : r' = .err e ns) : Agree strict f r r' := by
  subst h h'
  exact fun _ => ⟨_, rfl⟩

/-- An operation that neither reads nor writes sizes. -/
def Quiet (x : M α) : Prop := ∀ st, Agree true id (x st) (N.base x (emb st))

theorem Agree.base {x : M α} (h : Quiet x) {st : St} : Agree strict id (x st) (N.base x (emb st)) := by
  have := h st
  cases hx : x st with
  | ok a st1 => rw [hx] at this; exact this
  | err e st1 => rw [hx] at this; exact fun _ => this rfl

theorem quiet_lift (x : Except Err α) : Quiet (M.lift x) := fun _ => Agree.lift

theorem quiet_pure (a : α) : Quiet (Pure.pure a : M α) := fun _ => rfl

theorem quiet_setPart (i : SerId) (p : PObj) : Quiet (setPart i p) := by
  intro st
  show NRes.ok () _ = NRes.ok () _
  congr 1
  simp only [emb, NSt.mk.injEq]
  constructor
  · congr 1
    funext j
    by_cases hj : j = i <;> simp [hj]
  · funext j
    by_cases hj : j = i <;> simp [hj]

theorem quiet_getPart (i : SerId) : Quiet (getPart i) := by
  intro st
  unfold getPart N.base
  simp only [emb]
  cases (st.cells i).part with
  | some p => rfl
  | none => exact fun _ => ⟨_, rfl⟩

theorem base_bind {x : M α} {f : α → M β} : N.base (x >>= f) = N.base x >>= fun a => N.base (f a) := by
  funext s
  show N.base (M.bind x f) s = N.bind (N.base x) (fun a => N.base (f a)) s
  unfold N.base N.bind M.bind
  simp only
  cases x s.st <;> rfl

theorem quiet_bind {x : M α} {f : α → M β} (hx : Quiet x) (hf : ∀ a, Quiet (f a)) : Quiet (x >>= f) := by
  intro st
  rw [base_bind]
  exact Agree.bind (hx st) fun a st1 _ => hf a st1

theorem quiet_prepack (s : Ser) (p : PObj) : Quiet (s.prepack p) := by
  cases s with
  | array => exact quiet_bind (quiet_setPart _ _) fun _ => quiet_pure _
  | tuple => exact quiet_bind (quiet_setPart _ _) fun _ => quiet_pure _
  | lookback => exact quiet_bind (quiet_setPart _ _) fun _ => quiet_pure _
  | lookahead => exact quiet_bind (quiet_setPart _ _) fun _ => quiet_pure _
  | cond => exact quiet_lift _
  | _ => exact quiet_pure _

theorem preunpack_or (s : Ser) (p : PObj) : s.preunpack p = s.prepack p ∨ ∃ i, s = .selfT i := by
  cases s <;> first | exact .inl rfl | exact .inr ⟨_, rfl⟩

theorem quiet_preunpack (s : Ser) (p : PObj) : Quiet (s.preunpack p) := by
  rcases preunpack_or s p with h | ⟨i, rfl⟩
  · rw [h]; exact quiet_prepack s p
  · exact quiet_lift _

theorem quiet_getSerializer {packing : Bool} {id : SerId} {keys : List Val} {opts : List Ser} {dflt : Ser} {r : Val} :
    Quiet (getSerializer packing id keys opts dflt r) := by
  refine quiet_bind (quiet_lift _) fun s => quiet_bind (quiet_getPart _) fun p => ?_
  cases packing
  · exact quiet_preunpack _ _
  · exact quiet_prepack _ _

theorem agree_readSize : ∀ (s : Ser) {st : St}, Agree strict (fun k : Nat => (k : Int)) (s.readSize st) (readSize s (emb st))
  | .null, _ => rfl
  | .struct _, _ => rfl
  | .dynChar .., _ => rfl
  | .consuming _, _ => rfl
  | .terminated .., _ => rfl
  | .net _, _ => rfl
  | .unicode inner _ _, st => by
    show Agree strict _ (inner.readSize st) (readSize inner (emb st))
    exact agree_readSize inner
  | .array .., _ => rfl
  | .staticArr .., _ => rfl
  | .dynArr .., _ => rfl
  | .tuple _ inner, st => by
    show Agree strict _ (inner.readSize st) (readSize inner (emb st))
    exact agree_readSize inner
  | .lookback .., _ => rfl
  | .lookahead .., _ => rfl
  | .cond .., _ => Agree.throw
  | .skip _, _ => rfl
  | .structured .., _ => rfl
  | .selfT _, _ => Agree.throw
  | .compound .., _ => rfl
  | .specialized .., _ => rfl

/-! ### Which serializers -/

variable {t : Bool}

theorem noTailList_mem {ss : List Ser} : Ser.noTailList t ss = true ↔ ∀ s ∈ ss, s.noTail t = true := by
  induction ss with
  | nil => simp [Ser.noTailList]
  | cons s ss ih => simp [Ser.noTailList, ih]

theorem noTail_condPick {s o : Ser} {defs : List Val} {r : Val} (h : condPick s defs r = .ok o) (hs : s.noTail t = true) :
    o.noTail t = true := by
  unfold condPick at h
  by_cases h1 : ¬ r.hashable = true
  · rw [if_pos h1] at h; cases h
  · rw [if_neg h1] at h
    by_cases h2 : r.keyEq (.bool true) = true
    · rw [if_pos h2] at h; cases h; exact hs
    · rw [if_neg h2] at h
      by_cases h3 : r.keyEq (.bool false) = true
      · rw [if_pos h3] at h; cases h; simp [Ser.noTail]
      · rw [if_neg h3] at h; cases h

theorem noTail_prepack {s o : Ser} {p : PObj} {st st' : St} (h : s.prepack p st = .ok o st') (hs : s.noTail t = true) :
    o.noTail t = true := by
  cases s with
  | cond ser c defs =>
    have h' : M.lift (do condPick ser defs (← c p)) st = .ok o st' := h
    cases hc : c p with
    | error e => rw [hc] at h'; cases h'
    | ok r =>
      rw [hc] at h'
      have h'' : M.lift (condPick ser defs r) st = .ok o st' := h'
      cases hp : condPick ser defs r with
      | error e => rw [hp] at h''; cases h''
      | ok o' =>
        rw [hp] at h''
        cases h''
        exact noTail_condPick hp (by simpa [Ser.noTail] using hs)
  | compound id ss =>
    cases h
    by_cases hn : needsPreprocess ss = true
    · rw [if_pos hn]; simpa [Ser.noTail] using hs
    · rw [if_neg hn]; exact hs
  | selfT id => cases h; simp [Ser.noTail]
  | _ => cases h; exact hs

theorem noTail_preunpack {s o : Ser} {p : PObj} {st st' : St} (h : s.preunpack p st = .ok o st') (hs : s.noTail t = true) :
    o.noTail t = true := by
  rcases preunpack_or s p with h' | ⟨i, rfl⟩
  · rw [h'] at h; exact noTail_prepack h hs
  · have h' : M.lift (do pure (Ser.structured i (← clsOfPartial p))) st = .ok o st' := h
    cases hc : clsOfPartial p with
    | error e => rw [hc] at h'; cases h'
    | ok c => rw [hc] at h'; cases h'; simp [Ser.noTail]

theorem noTail_unionPick {keys : List Val} {opts : List Ser} {dflt o : Ser} {r : Val}
    (h : unionPick keys opts dflt r = .ok o) (ho : Ser.noTailList t opts = true) (hd : dflt.noTail t = true) :
    o.noTail t = true := by
  unfold unionPick at h
  by_cases h1 : ¬ r.hashable = true
  · rw [if_pos h1] at h; cases h
  · rw [if_neg h1] at h
    cases hl : lookupOpt keys opts r with
    | some s =>
      rw [hl] at h
      cases h
      unfold lookupOpt at hl
      cases hf : (keys.zip opts).find? (fun p => p.1.keyEq r) with
      | none => rw [hf] at hl; cases hl
      | some q =>
        rw [hf] at hl
        cases hl
        exact noTailList_mem.1 ho _ (List.of_mem_zip (List.mem_of_find?_eq_some hf)).2
    | none =>
      rw [hl] at h
      cases dflt <;> first | (cases h; done) | (cases h; exact hd)

theorem noTail_getSerializer {packing : Bool} {id : SerId} {keys : List Val} {opts : List Ser} {dflt o : Ser} {r : Val}
    {st st' : St} (h : getSerializer packing id keys opts dflt r st = .ok o st')
    (ho : Ser.noTailList t opts = true) (hd : dflt.noTail t = true) : o.noTail t = true := by
  unfold getSerializer at h
  obtain ⟨s, st1, h1, h⟩ := M.bind_ok h
  obtain ⟨p, st2, _, h⟩ := M.bind_ok h
  have hs : s.noTail t = true := by
    cases hu : unionPick keys opts dflt r with
    | error e => rw [hu] at h1; cases h1
    | ok s' => rw [hu] at h1; cases h1; exact noTail_unionPick hu ho hd
  cases packing
  · exact noTail_preunpack h hs
  · exact noTail_prepack h hs

/-! ### Leaves -/

theorem start_nat (len size m : Nat) : start len size (m : Int) = some m := by
  unfold start
  rw [if_neg (by omega), Int.toNat_natCast]

variable {b : Bytes}

/-- Reading a struct from either offset. -/
theorem agree_from {P : Platform} {bo : ByteOrder} {ts : List Tok} {o : Int} {m : Nat} (h : Off strict b.length o m) :
    (∀ vs, structUnpackFrom P bo ts b m = .ok vs → ∃ k, start b.length (sizeToks bo.isNative ts) o = some k ∧
      structUnpackFrom P bo ts b k = .ok vs) ∧
    (strict = true → start b.length (sizeToks bo.isNative ts) o = some m) := by
  rcases h with rfl | ⟨h1, h2⟩
  · rw [start_nat]
    exact ⟨fun vs hv => ⟨m, rfl, hv⟩, fun _ => rfl⟩
  · refine ⟨fun vs hv => ?_, fun hs => by rw [h1] at hs; cases hs⟩
    have hv' := hv
    unfold structUnpackFrom at hv'
    by_cases hc : m ≤ b.length ∧ sizeToks bo.isNative ts ≤ b.length - m
    · unfold start
      by_cases ho : o < 0
      · rw [if_pos ho, if_neg (by omega), if_neg (by omega)]
        exact ⟨m, by congr 1; omega, hv⟩
      · rw [if_neg ho]
        have hm : m = b.length := by omega
        have hz : sizeToks bo.isNative ts = 0 := by omega
        refine ⟨o.toNat, rfl, ?_⟩
        rw [if_pos hc] at hv'
        unfold structUnpackFrom
        rw [if_pos (by omega), ← hv']
        rw [hz]
        rfl
    · rw [if_neg hc] at hv'
      cases hv'

theorem agree_struct (env : Env) {s : StructSer} {o : Int} {m : Nat} (h : Off strict b.length o m) {st : St} :
    Agree strict id (structUnpackM env s (.at b m) st) (structUnpack env s b o (emb st)) := by
  obtain ⟨h1, h2⟩ := agree_from (P := env.plat) (bo := s.byteOrder) (ts := s.toks) h
  show Agree strict id (M.lift (s.unpackFrom env.plat b m) st) _
  unfold structUnpack StructSer.size
  cases hv : structUnpackFrom env.plat s.byteOrder s.toks b m with
  | ok vs =>
    obtain ⟨k, hk, hk'⟩ := h1 vs hv
    rw [hk]
    have e : s.unpackFrom env.plat b m = s.unpackFrom env.plat b k := by
      unfold StructSer.unpackFrom
      rw [hv, hk']
    rw [e]
    exact Agree.lift
  | error e =>
    have e : s.unpackFrom env.plat b m = .error e := by
      unfold StructSer.unpackFrom
      rw [hv]; rfl
    rw [e]
    intro hs
    rw [h2 hs]
    refine ⟨emb st, ?_⟩
    simp only
    rw [e]
    rfl

theorem agree_structOpt (env : Env) {s : Option StructSer} {o : Int} {m : Nat} (h : Off strict b.length o m) {st : St} :
    Agree strict id (Verif.structUnpackOpt env s (.at b m) st) (structUnpackOpt env s b o (emb st)) := by
  cases s with
  | none => rfl
  | some s => exact agree_struct env h

theorem matmul_neg {s : StructSer} {c : Int} (h : c < 0) : s.matmul c = .error .valueError := by
  unfold StructSer.matmul StructSer.mulImpl
  rw [if_neg (by omega), if_pos h]

theorem agree_dynChar (env : Env) {i : SerId} {s : StructSer} {o : Int} {m : Nat} (h : Off strict b.length o m) {st : St} :
    Agree strict id (Verif.dynCharUnpack env i s (.at b m) st) (dynCharUnpack env i s b o (emb st)) := by
  unfold Verif.dynCharUnpack dynCharUnpack
  refine Agree.bind1 (agree_struct env h) fun hv st1 _ => ?_
  refine Agree.bind1 Agree.lift fun c st2 _ => ?_
  by_cases hc : c < 0
  · rw [matmul_neg hc]
    exact Agree.err (e := .valueError) rfl rfl
  · refine Agree.bind1 (Agree.setSize (by omega)) fun _ st3 _ => ?_
    refine Agree.bind1 Agree.lift fun s' st4 _ => ?_
    exact agree_structOpt env h.add

theorem agree_terminated {i : SerId} {term : Byte} {m : Nat} {st : St} :
    Agree strict id (Verif.terminatedUnpack i term (.at b m) st) (terminatedUnpack i term b (m : Int) (emb st)) := by
  unfold Verif.terminatedUnpack terminatedUnpack
  have e : bytesFrom b (m : Int) = b.drop m := by
    unfold bytesFrom
    rw [if_neg (by omega), Int.toNat_natCast]
  rw [e]
  simp only
  cases hk : findTerm term (b.drop m) with
  | none => exact fun _ => ⟨_, rfl⟩
  | some k =>
    refine Agree.bind1 (Agree.setSize (by omega)) fun _ st1 _ => ?_
    have hm : m < b.length := by
      rcases Nat.lt_or_ge m b.length with h | h
      · exact h
      · rw [List.drop_eq_nil_of_le h] at hk; cases hk
    have hl : slice b (m : Int) (m + k) = (b.drop m).take k := by
      unfold slice bound
      rw [if_neg (by omega), if_neg (by omega)]
      rw [show ((m : Int) + k).toNat = m + k by omega, Int.toNat_natCast, ← List.take_eq_take_min, List.drop_take,
        Nat.min_eq_left (Nat.le_of_lt hm)]
      simp
    rw [hl]
    exact Agree.pure

theorem agree_net (env : Env) {i : SerId} {o : Int} {m : Nat} (h : Off strict b.length o m) {st : St} :
    Agree strict id (Verif.netUnpack env i (.at b m) st) (netUnpack env i b o (emb st)) := by
  unfold Verif.netUnpack netUnpack
  have hget : ∀ {k : St → M (List Val)}, (M.get >>= k) st = k st st := fun {k} => rfl
  rw [hget]
  refine Agree.bind1 (agree_struct env h) fun hv st1 _ => ?_
  refine Agree.bind1 Agree.lift fun c st2 _ => ?_
  have tail : ∀ (count size : Nat) (st : St), Agree strict id
      ((do Verif.setSize i (size + count)
           M.lift (structUnpackFrom env.plat .default [⟨count, .str⟩] b (m + size)) : M (List Val)) st)
      ((do setSize i (size + count : Nat)
           match start b.length count (o + size) with
           | none => N.throw .structError
           | some o => N.lift (structUnpackFrom env.plat .default [⟨count, .str⟩] b o) : N (List Val)) (emb st)) := by
    intro count size st
    refine Agree.bind1 (Agree.setSize rfl) fun _ st1 _ => ?_
    obtain ⟨h1, h2⟩ := agree_from (P := env.plat) (bo := .default) (ts := [⟨count, .str⟩]) (h.add (k := size))
    have hz : sizeToks (ByteOrder.isNative .default) [⟨count, .str⟩] = count := by
      simp [sizeToks, endOff, padLen, Code.align, Tok.bytes, Code.bytes, ByteOrder.isNative]
    rw [hz] at h1 h2
    cases hv : structUnpackFrom env.plat .default [⟨count, .str⟩] b (m + size) with
    | ok vs =>
      obtain ⟨k, hk, hk'⟩ := h1 vs hv
      rw [hk]
      simp only
      rw [hk']
      exact Agree.lift
    | error e =>
      intro hs
      rw [h2 hs]
      exact ⟨_, by simp only; rw [hv]; rfl⟩
  by_cases hc : 128 ≤ c
  · simp only [if_pos hc]
    show Agree strict id ((structUnpackM env longLen (.at b m) >>= _) st2) _
    refine Agree.bind1 (agree_struct env h) fun hv st4 _ => ?_
    refine Agree.bind1 Agree.lift fun c st5 _ => ?_
    refine Agree.bind1 Agree.lift fun count st6 _ => ?_
    exact tail _ _ _
  · simp only [if_neg hc]
    exact tail _ _ _

/-! ### Loops -/

/-- What the induction hypothesis says about the recursive calls. -/
def AgreeN (strict : Bool) (b : Bytes) (f : Ser → Src → M (List Val)) (f' : Ser → Int → N (List Val)) : Prop :=
  ∀ (s : Ser) (o : Int) (m : Nat) (st : St), Off strict b.length o m → s.noTail strict = true →
    Agree strict id (f s (.at b m) st) (f' s o (emb st))

variable {f : Ser → Src → M (List Val)} {f' : Ser → Int → N (List Val)}

/-- A list and a size. -/
def pairInt (q : List Val × Nat) : List Val × Int := (q.1, q.2)

theorem Off.addInt {len : Nat} {o z : Int} {m k : Nat} (h : Off strict len o m) (hz : z = k) : Off strict len (o + z) (m + k) := by
  subst hz; exact h.add

theorem agree_loop (ih : AgreeN strict b f f') {o : Int} {m : Nat} (h : Off strict b.length o m) :
    ∀ (ss : List Ser) (size : Nat) (st : St), Ser.noTailList strict ss = true →
      Agree strict pairInt (Verif.unpackLoop f (.at b m) size ss st) (unpackLoop f' o size ss (emb st))
  | [], _, _, _ => rfl
  | s :: ss, size, st, hs => by
    simp only [Ser.noTailList, Bool.and_eq_true] at hs
    refine Agree.bind1 (ih s _ _ _ h.add hs.1) fun vs st1 _ => ?_
    refine Agree.bind (agree_readSize s) fun sz st2 _ => ?_
    refine Agree.bind (f := pairInt) ?_ fun q st3 _ => rfl
    exact agree_loop ih h ss (size + sz) st2 hs.2

theorem agree_loopSpec (ih : AgreeN strict b f f') {upd : Upd} {o : Int} {m : Nat} (h : Off strict b.length o m) :
    ∀ (ss : List Ser) (p : PObj) (done size : Nat) (st : St), Ser.noTailList strict ss = true →
      Agree strict pairInt (Verif.unpackLoopSpec f upd (.at b m) p done size ss st)
        (unpackLoopSpec f' upd o p done size ss (emb st))
  | [], _, _, _, _, _ => rfl
  | s :: ss, p, done, size, st, hs => by
    simp only [Ser.noTailList, Bool.and_eq_true] at hs
    refine Agree.bind1 (Agree.base (quiet_preunpack s p)) fun s' st1 hs' => ?_
    refine Agree.bind1 (ih s' _ _ _ h.add (noTail_preunpack hs' hs.1)) fun vs st2 _ => ?_
    refine Agree.bind1 Agree.lift fun p' st3 _ => ?_
    refine Agree.bind (agree_readSize s') fun sz st4 _ => ?_
    refine Agree.bind (f := pairInt) ?_ fun q st5 _ => rfl
    exact agree_loopSpec ih h ss p' _ (size + sz) st4 hs.2

theorem agree_items (ih : AgreeN strict b f f') {item : Ser} (hi : item.noTail strict = true) {o : Int} {m : Nat}
    (h : Off strict b.length o m) :
    ∀ (k size : Nat) (st : St), Agree strict pairInt (Verif.unpackItems f item (.at b m) size k st)
      (unpackItems f' item o size k (emb st))
  | 0, _, _ => rfl
  | k + 1, size, st => by
    refine Agree.bind1 (ih item _ _ _ h.add hi) fun vs st1 _ => ?_
    refine Agree.bind (agree_readSize item) fun sz st2 _ => ?_
    refine Agree.bind (f := pairInt) ?_ fun q st3 _ => rfl
    exact agree_items ih hi h k (size + sz) st2

theorem items_le {item : Ser} {src : Src} :
    ∀ (k size : Nat) {st st' : St} {q : List Val × Nat}, Verif.unpackItems f item src size k st = .ok q st' → size ≤ q.2
  | 0, _, _, _, _, h => by cases h; exact Nat.le_refl _
  | k + 1, size, st, st', q, h => by
    obtain ⟨vs, st1, _, h⟩ := M.bind_ok h
    obtain ⟨sz, st2, _, h⟩ := M.bind_ok h
    obtain ⟨q', st3, h3, h⟩ := M.bind_ok h
    cases h
    have := items_le k _ h3
    show size ≤ q'.2
    omega

theorem agree_union (ih : AgreeN strict b f f') {i : SerId} {s : Ser} (hs : s.noTail strict = true) {o : Int} {m : Nat}
    (h : Off strict b.length o m) {st : St} :
    Agree strict id (Verif.unionUnpack f i s (.at b m) st) (unionUnpack f' i s o (emb st)) := by
  unfold Verif.unionUnpack unionUnpack
  by_cases hl : s.isLazy = true
  · rw [if_pos hl, if_pos hl]
    refine Agree.bind (agree_readSize s) fun sz st1 _ => ?_
    refine Agree.bind1 (Agree.setSize rfl) fun _ st2 _ => ?_
    exact ih s _ _ _ h hs
  · rw [if_neg hl, if_neg hl]
    refine Agree.bind1 (ih s _ _ _ h hs) fun vs st1 _ => ?_
    refine Agree.bind (agree_readSize s) fun sz st2 _ => ?_
    exact Agree.bind1 (Agree.setSize rfl) fun _ st3 _ => rfl

theorem agree_create {env : Env} (he : env.noTail strict) {g : Upd → Ser → Src → M (List Val)}
    {g' : Upd → Ser → Int → N (List Val)} (ih : ∀ upd, AgreeN strict b (g upd) (g' upd)) {cls : ClassId} {o : Int} {m : Nat}
    (h : Off strict b.length o m) {st : St} :
    Agree strict id (Verif.createUnpackWith env g cls (.at b m) st) (createUnpackWith env g' cls o (emb st)) := by
  unfold Verif.createUnpackWith createUnpackWith
  cases hc : env.classes cls with
  | none => exact Agree.throw
  | some ci =>
    refine Agree.bind1 (Agree.base (quiet_preunpack _ _)) fun s st1 hs => ?_
    refine Agree.bind1 (ih _ s _ _ _ h (noTail_preunpack hs (he cls ci hc))) fun vals st2 _ => ?_
    exact Agree.bind1 Agree.lift fun v st3 _ => rfl

/-! ### The induction -/

theorem agree_unpack {env : Env} (he : env.noTail strict) :
    ∀ (n : Nat) (upd : Upd), AgreeN strict b (Verif.unpack env n upd) (Neg.unpack env b n upd)
  | 0, _, _, _, _, _, _, _ => Agree.throw
  | n + 1, upd, s, o, m, st, h, hs => by
    have ih := agree_unpack he n
    cases s with
    | null => rfl
    | struct s => exact agree_struct env h
    | dynChar i s => exact agree_dynChar env h
    | consuming i => cases hs
    | terminated i t =>
      have hs : strict = true := by simpa [Ser.noTail] using hs
      rcases h with rfl | ⟨h, _⟩
      · exact agree_terminated
      · rw [hs] at h; cases h
    | net i => exact agree_net env h
    | unicode inner enc dec =>
      refine Agree.bind1 (ih noUpd inner _ _ _ h (by simpa [Ser.noTail] using hs)) fun vs st1 _ => ?_
      exact Agree.lift
    | array i hdr item sl =>
      refine Agree.bind1 (agree_structOpt env h) fun hv st1 _ => ?_
      refine Agree.bind1 Agree.lift fun q st2 _ => ?_
      refine Agree.bind1 (Agree.base (quiet_getPart i)) fun p st3 _ => ?_
      refine Agree.bind1 (Agree.base (quiet_preunpack item p)) fun item' st4 hi => ?_
      have hi := noTail_preunpack hi (by simpa [Ser.noTail] using hs : item.noTail strict = true)
      refine Agree.bind (agree_items (ih noUpd) hi h _ _ _) fun w st5 hw => ?_
      have hle := items_le _ _ hw
      have hck : checkDataSize q.2 ((w.2 : Int) - (hdrSize hdr : Nat)) = Verif.checkDataSize q.2 (w.2 - hdrSize hdr) := by
        unfold checkDataSize Verif.checkDataSize
        rw [Int.ofNat_sub hle]
      show Agree strict id _ ((N.lift (checkDataSize q.2 ((w.2 : Int) - (hdrSize hdr : Nat))) >>= _) _)
      rw [hck]
      refine Agree.bind1 Agree.lift fun _ st6 _ => ?_
      exact Agree.bind1 (Agree.setSize rfl) fun _ st7 _ => rfl
    | staticArr c k ser =>
      exact Agree.bind1 (agree_structOpt env h) fun vs st1 _ => rfl
    | dynArr i cnt item =>
      refine Agree.bind1 (agree_struct env h) fun hv st1 _ => ?_
      have tail : ∀ (c : Int) (st : St), Agree strict id
          ((do let s ← M.lift (item.mul c)
               let vs ← Verif.structUnpackOpt env s (Src.next (.at b m) cnt.size)
               Verif.setSize i (cnt.size + s.elim 0 StructSer.size)
               pure [.list vs] : M (List Val)) st)
          ((do let s ← N.lift (item.mul c)
               let vs ← structUnpackOpt env s b (o + cnt.size)
               setSize i (cnt.size + s.elim 0 StructSer.size : Nat)
               pure [.list vs] : N (List Val)) (emb st)) := by
        intro c st
        refine Agree.bind1 Agree.lift fun s st1 _ => ?_
        refine Agree.bind1 (agree_structOpt env h.add) fun vs st2 _ => ?_
        exact Agree.bind1 (Agree.setSize rfl) fun _ st3 _ => rfl
      match hv with
      | [c] =>
        exact Agree.bind1 Agree.lift fun c st2 _ => tail c st2
      | [] => exact Agree.err (e := .valueError) rfl rfl
      | _ :: _ :: _ => exact Agree.err (e := .valueError) rfl rfl
    | tuple i inner =>
      refine Agree.bind1 (Agree.base (quiet_getPart i)) fun p st1 _ => ?_
      refine Agree.bind1 (Agree.base (quiet_preunpack inner p)) fun inner' st2 hi => ?_
      have hi := noTail_preunpack hi (by simpa [Ser.noTail] using hs : inner.noTail strict = true)
      by_cases hl : inner'.isLazy = true
      · rw [if_pos hl, if_pos hl]; rfl
      · rw [if_neg hl, if_neg hl]
        exact Agree.bind1 (ih noUpd inner' _ _ _ h hi) fun vs st3 _ => rfl
    | lookback i decider keys opts dflt =>
      simp only [Ser.noTail, Bool.and_eq_true] at hs
      refine Agree.bind1 (Agree.base (quiet_getPart i)) fun p st1 _ => ?_
      refine Agree.bind1 Agree.lift fun r st2 _ => ?_
      refine Agree.bind1 (Agree.base quiet_getSerializer) fun s st3 hg => ?_
      exact agree_union (ih noUpd) (noTail_getSerializer hg hs.1 hs.2) h
    | lookahead i ra decider keys opts dflt =>
      simp only [Ser.noTail, Bool.and_eq_true] at hs
      refine Agree.bind1 (ih noUpd ra _ _ _ h hs.1.1) fun hv st1 _ => ?_
      refine Agree.bind1 Agree.lift fun r st2 _ => ?_
      show Agree strict id ((getSerializer false i keys opts dflt r >>= _) st2) _
      refine Agree.bind1 (Agree.base quiet_getSerializer) fun s st3 hg => ?_
      exact agree_union (ih noUpd) (noTail_getSerializer hg hs.1.2 hs.2) h
    | cond => exact Agree.throw
    | skip vals => rfl
    | structured i cls =>
      refine Agree.bind1 (agree_create he ih h) fun q st1 _ => ?_
      refine Agree.bind (agree_readSize q.2) fun sz st2 _ => ?_
      exact Agree.bind1 (Agree.setSize rfl) fun _ st3 _ => rfl
    | selfT => exact Agree.throw
    | compound i ss =>
      refine Agree.bind (agree_loop (ih noUpd) h ss 0 st (by simpa [Ser.noTail] using hs)) fun q st1 _ => ?_
      exact Agree.bind1 (Agree.setSize rfl) fun _ st2 _ => rfl
    | specialized i p ss =>
      refine Agree.bind (agree_loopSpec (ih noUpd) h ss p 0 0 st (by simpa [Ser.noTail] using hs)) fun q st1 _ => ?_
      exact Agree.bind1 (Agree.setSize rfl) fun _ st2 _ => rfl

theorem agree_createUnpack {env : Env} (he : env.noTail strict) {n : Nat} {cls : ClassId} {o : Int} {m : Nat}
    (h : Off strict b.length o m) {st : St} :
    Agree strict id (Verif.createUnpack env n cls (.at b m) st) (createUnpack env n cls b o (emb st)) :=
  Agree.bind1 (agree_create he (agree_unpack he n) h) fun _ _ _ => rfl

end Verif.Neg
