import Verif.Proofs.NegUnpack
import Verif.Spec.ShortReads

/-!
Short reads: what is read is the same, or `struct.error` is raised.
-/
namespace Verif.Short

/-- What calls of `read` may return. -/
def Cut (k : Nat) (b : Bool) : Option Nat → Prop
  | none => b = true
  | some c => k ≤ c

/-- What may be raised if the stream stopped short. -/
def Stop (b : Bool) (e : Err) : Prop := e = .structError ∨ (b = true ∧ (e = .typeError ∨ e = .valueError))

/-- For streams that return at least `k` bytes (or `None`, if `b`): the same, or an exception and the stream stopped short. -/
def Fine (k : Nat) (b : Bool) (x : R α) (y : M α) : Prop := ∀ cuts st, (∀ c ∈ cuts, Cut k b c) →
  ((x cuts st).1 = y st ∧ (x cuts st).2 <:+ cuts) ∨ (cuts ≠ [] ∧ ∃ e st', (x cuts st).1 = .err e st' ∧ Stop b e)

variable {k : Nat} {b t n c : Bool}

theorem Fine.pure (a : α) : Fine k b (R.pure a) (Pure.pure a : M α) := fun _ _ _ => .inl ⟨rfl, List.suffix_refl _⟩

theorem Fine.of (x : M α) : Fine k b (R.of x) x := fun _ _ _ => .inl ⟨rfl, List.suffix_refl _⟩

theorem Fine.bind {x : R α} {y : M α} {f : α → R β} {g : α → M β} (h : Fine k b x y)
    (hk : ∀ a, (∃ st st', y st = .ok a st') → Fine k b (f a) (g a)) : Fine k b (x >>= f) (y >>= g) := by
  intro cuts st hc
  have e1 : (x >>= f) cuts st = R.bind x f cuts st := rfl
  have e2 : (y >>= g) st = M.bind y g st := rfl
  rw [e1, e2]
  unfold R.bind M.bind
  rcases h cuts st hc with ⟨h1, h2⟩ | ⟨h1, e, st', h2, he⟩
  · cases hx : x cuts st with
    | mk r cuts' =>
      rw [hx] at h1 h2
      simp only at h1 h2
      subst h1
      cases hr : y st with
      | ok a st1 =>
        rcases hk a ⟨_, _, hr⟩ cuts' st1 (fun c hm => hc c (h2.subset hm)) with ⟨h3, h4⟩ | ⟨h3, h4⟩
        · exact .inl ⟨h3, h4.trans h2⟩
        · exact .inr ⟨fun e => h3 (by rw [e] at h2; exact List.suffix_nil.1 h2), h4⟩
      | err e st1 => exact .inl ⟨rfl, h2⟩
  · cases hx : x cuts st with
    | mk r cuts' =>
      rw [hx] at h2
      simp only at h2
      subst h2
      exact .inr ⟨h1, e, st', rfl, he⟩

theorem fine_struct (env : Env) (s : StructSer) : Fine k b (struct env s) (structUnpackM env s .io) := by
  intro cuts st hc
  show ((R.bind (read s.size) fun r => R.bind (R.of (needBytes r)) fun d => R.of (M.lift (s.unpackRead env.plat d))) cuts st).1 =
    M.bind (ioRead s.size) (fun d => M.lift (s.unpackRead env.plat d)) st ∧ _ ∨ _
  match cuts with
  | [] => exact .inl ⟨rfl, List.suffix_refl _⟩
  | none :: cuts => exact .inr ⟨nofun, .typeError, st, rfl, .inr ⟨hc _ (List.mem_cons_self ..), .inl rfl⟩⟩
  | some c :: cuts =>
    by_cases hl : ((st.io.data.drop st.io.pos).take s.size).length ≤ max 1 c
    · have e : ((st.io.data.drop st.io.pos).take s.size).take (max 1 c) = (st.io.data.drop st.io.pos).take s.size := List.take_of_length_le hl
      refine .inl ⟨?_, List.suffix_cons ..⟩
      show M.lift (s.unpackRead env.plat (((st.io.data.drop st.io.pos).take s.size).take (max 1 c)))
        (moved st (((st.io.data.drop st.io.pos).take s.size).take (max 1 c))) = _
      rw [e]
      rfl
    · refine .inr ⟨nofun, .structError, moved st (((st.io.data.drop st.io.pos).take s.size).take (max 1 c)), ?_, .inl rfl⟩
      show M.lift (s.unpackRead env.plat (((st.io.data.drop st.io.pos).take s.size).take (max 1 c))) _ = _
      have hs : (((st.io.data.drop st.io.pos).take s.size).take (max 1 c)).length ≠ sizeToks s.byteOrder.isNative s.toks := by
        have : ((st.io.data.drop st.io.pos).take s.size).length ≤ s.size := List.length_take_le ..
        rw [List.length_take]
        show _ ≠ s.size
        omega
      have : s.unpackRead env.plat (((st.io.data.drop st.io.pos).take s.size).take (max 1 c)) = .error .structError := by
        unfold StructSer.unpackRead structUnpack
        rw [if_neg hs]
        rfl
      rw [this]
      rfl

theorem fine_structOpt (env : Env) (s : Option StructSer) : Fine k b (structOpt env s) (structUnpackOpt env s .io) := by
  cases s with
  | none => exact .pure _
  | some s => exact fine_struct env s

theorem fine_dynChar (env : Env) (id : SerId) (st : StructSer) : Fine k b (dynChar env id st) (dynCharUnpack env id st .io) :=
  (fine_struct env st).bind fun _ _ => (Fine.of _).bind fun _ _ => (Fine.of _).bind fun _ _ => (Fine.of _).bind fun s _ =>
    fine_structOpt env s

/-- A call that asks for no more than the stream returns at least. -/
theorem read_full {m : Nat} (hm : m ≤ k) {cuts : List (Option Nat)} (hc : ∀ c ∈ cuts, Cut k b c) (st : St) :
    (∃ cuts', cuts' <:+ cuts ∧ read m cuts st =
      (.ok (some ((st.io.data.drop st.io.pos).take m)) (moved st ((st.io.data.drop st.io.pos).take m)), cuts')) ∨
    (b = true ∧ ∃ cuts', cuts = none :: cuts' ∧ read m cuts st = (.ok none st, cuts')) := by
  match cuts with
  | [] => exact .inl ⟨[], List.suffix_refl _, rfl⟩
  | none :: cuts => exact .inr ⟨hc _ (List.mem_cons_self ..), cuts, rfl, rfl⟩
  | some c :: cuts =>
    have hk : k ≤ c := hc _ (List.mem_cons_self ..)
    have e : ((st.io.data.drop st.io.pos).take m).take (max 1 c) = (st.io.data.drop st.io.pos).take m :=
      List.take_of_length_le (by have : ((st.io.data.drop st.io.pos).take m).length ≤ m := List.length_take_le ..; omega)
    refine .inl ⟨cuts, List.suffix_cons .., ?_⟩
    show (Res.ok (some (((st.io.data.drop st.io.pos).take m).take (max 1 c))) (moved st (((st.io.data.drop st.io.pos).take m).take (max 1 c))), cuts) = _
    rw [e]

theorem termLoop_full (hk : 256 ≤ k) (term : Byte) : ∀ (m : Nat) (cuts : List (Option Nat)) (st : St) (out : Bytes) (size : Nat), (∀ c ∈ cuts, Cut k b c) →
    (st.io.data.drop st.io.pos).length < m →
    (∃ cuts', cuts' <:+ cuts ∧
    match termReadLoop term m (st.io.data.drop st.io.pos) out size with
    | none => termLoop term m out size cuts st =
        (.err .valueError { st with io := { st.io with pos := st.io.pos + (st.io.data.drop st.io.pos).length } }, cuts')
    | some r => ∃ pos, termLoop term m out size cuts st = (.ok r { st with io := { st.io with pos := pos } }, cuts')) ∨
    (b = true ∧ cuts ≠ [] ∧ ∃ st' cuts', termLoop term m out size cuts st = (.err .valueError st', cuts'))
  | 0, _, _, _, _, _, h => absurd h (Nat.not_lt_zero _)
  | m + 1, cuts, st, out, size, hc, h => by
    unfold termReadLoop termLoop
    simp only
    rcases read_full hk hc st with ⟨cuts1, hs, hr⟩ | ⟨hb, cuts1, rfl, hr⟩
    case inr =>
      refine .inr ⟨hb, nofun, st, cuts1, ?_⟩
      show R.bind (read 256) _ _ st = _
      unfold R.bind
      rw [hr]
      rfl
    have e : ∀ f : Option Bytes → R (Bytes × Nat), (read 256 >>= f) cuts st = f (some ((st.io.data.drop st.io.pos).take 256)) cuts1
        (moved st ((st.io.data.drop st.io.pos).take 256)) := by
      intro f
      show R.bind (read 256) f cuts st = _
      unfold R.bind
      rw [hr]
    rw [e]
    simp only [Option.getD_some]
    by_cases hn : (st.io.data.drop st.io.pos).take 256 = []
    · rw [if_pos hn, if_pos hn, hn]
      have hr : (st.io.data.drop st.io.pos) = [] := by
        cases hd : st.io.data.drop st.io.pos with
        | nil => rfl
        | cons a as => rw [hd] at hn; cases hn
      rw [hr]
      exact .inl ⟨cuts1, hs, rfl⟩
    · rw [if_neg hn, if_neg hn]
      cases hf : findTerm term ((st.io.data.drop st.io.pos).take 256) with
      | some o => exact .inl ⟨cuts1, hs, _, rfl⟩
      | none =>
        simp only
        have hpos : 0 < ((st.io.data.drop st.io.pos).take 256).length := List.length_pos_iff.2 hn
        have hdrop : st.io.data.drop (st.io.pos + ((st.io.data.drop st.io.pos).take 256).length) = (st.io.data.drop st.io.pos).drop 256 := by
          rw [List.drop_drop]
          by_cases hl : 256 ≤ (st.io.data.drop st.io.pos).length
          · rw [List.length_take, Nat.min_eq_left hl]
          · rw [List.length_take, Nat.min_eq_right (by omega)]
            rw [List.length_drop] at *
            rw [List.drop_eq_nil_of_le (by omega), List.drop_eq_nil_of_le (by omega)]
        rcases termLoop_full hk term m cuts1
          (moved st ((st.io.data.drop st.io.pos).take 256))
          (out ++ (st.io.data.drop st.io.pos).take 256) (size + 256) (fun c hm => hc c (hs.subset hm)) (by
            show (st.io.data.drop (st.io.pos + _)).length < m
            rw [hdrop, List.length_drop]
            rw [List.length_take] at hpos
            omega) with ⟨cuts2, hs2, ih⟩ | ⟨hb, hne, ih⟩
        · left
          simp only [moved] at ih ⊢
          rw [hdrop] at ih
          refine ⟨cuts2, hs2.trans hs, ?_⟩
          cases hr : termReadLoop term m ((st.io.data.drop st.io.pos).drop 256) (out ++ (st.io.data.drop st.io.pos).take 256) (size + 256) with
          | none =>
            rw [hr] at ih
            simp only at ih ⊢
            rw [ih]
            congr 4
            rw [List.length_drop, List.length_take]
            omega
          | some r =>
            rw [hr] at ih
            exact ih
        · exact .inr ⟨hb, fun e => hne (List.suffix_nil.1 (e ▸ hs)), ih⟩

theorem fine_terminated (hk : 256 ≤ k) (id : SerId) (term : Byte) : Fine k b (terminated Option.none id term) (terminatedUnpack id term .io) := by
  intro cuts st hc
  rcases termLoop_full hk term ((st.io.data.drop st.io.pos).length + 1) cuts st [] 0 hc (Nat.lt_succ_self _) with ⟨cuts', hs, h⟩ | ⟨hb, hne, st', cuts', h⟩
  · left
    show ((R.bind (termLoop term ((st.io.data.drop st.io.pos).length + 1) [] 0) _) cuts st).1 =
      (match termReadLoop term ((st.io.data.drop st.io.pos).length + 1) (st.io.data.drop st.io.pos) [] 0 with
        | none => do
          M.modify fun s => { s with io := { s.io with pos := s.io.pos + (st.io.data.drop st.io.pos).length } }
          M.throw .valueError
        | some (d, size) => do
          M.modify fun s => { s with io := { s.io with pos := s.io.pos + size } }
          setSize id size
          pure [.bytes d] : M (List Val)) st ∧ ((R.bind (termLoop term ((st.io.data.drop st.io.pos).length + 1) [] 0) _) cuts st).2 <:+ cuts
    unfold R.bind
    cases hr : termReadLoop term ((st.io.data.drop st.io.pos).length + 1) (st.io.data.drop st.io.pos) [] 0 with
    | none =>
      rw [hr] at h
      simp only at h
      rw [h]
      exact ⟨rfl, hs⟩
    | some r =>
      rw [hr] at h
      obtain ⟨pos, h⟩ := h
      rw [h]
      exact ⟨rfl, hs⟩
  · refine .inr ⟨hne, .valueError, st', ?_, .inr ⟨hb, .inr rfl⟩⟩
    show ((R.bind (termLoop term ((st.io.data.drop st.io.pos).length + 1) [] 0) _) cuts st).1 = _
    unfold R.bind
    rw [h]

theorem allLoop_full : ∀ (cuts : List (Option Nat)) (d : Bytes), (∀ c ∈ cuts, Cut k false c) → (allLoop cuts d).1 = d ∧ (allLoop cuts d).2 <:+ cuts
  | [], _, _ => ⟨rfl, List.suffix_refl _⟩
  | none :: _, _, h => nomatch h _ (List.mem_cons_self ..)
  | some c :: cuts, d, h => by
    unfold allLoop
    by_cases hd : d = []
    · rw [if_pos hd, hd]; exact ⟨rfl, List.suffix_cons ..⟩
    · rw [if_neg hd]
      have ih := allLoop_full cuts (d.drop (max 1 c)) fun c' hc => h c' (List.mem_cons_of_mem _ hc)
      refine ⟨?_, ih.2.trans (List.suffix_cons ..)⟩
      show d.take (max 1 c) ++ (allLoop cuts (d.drop (max 1 c))).1 = d
      rw [ih.1, List.take_append_drop]

theorem fine_consuming (id : SerId) : Fine k false
    (readAll >>= fun r => R.of (needBytes r) >>= fun d => R.of (setSize id d.length) >>= fun _ => R.pure [Val.bytes d] : R (List Val))
    (consumingUnpack id .io) := by
  intro cuts st hc
  left
  have h : readAll cuts st = (.ok (some (allLoop cuts (st.io.data.drop st.io.pos)).1) (moved st (allLoop cuts (st.io.data.drop st.io.pos)).1),
      (allLoop cuts (st.io.data.drop st.io.pos)).2) := by
    match cuts with
    | [] => rfl
    | none :: _ => exact nomatch hc _ (List.mem_cons_self ..)
    | some c :: cuts => rfl
  have ha := allLoop_full cuts (st.io.data.drop st.io.pos) hc
  show (R.bind readAll _ cuts st).1 = _ ∧ (R.bind readAll _ cuts st).2 <:+ cuts
  unfold R.bind
  rw [h, ha.1]
  exact ⟨rfl, ha.2⟩

theorem netDecode_le {m c : Nat} (h : netDecode m = .ok c) : c ≤ 32767 := by
  unfold netDecode at h
  simp only at h
  split at h
  · cases h
  · cases h; omega

theorem fine_netRead (hk : m ≤ k) : Fine k false (read m >>= fun r => R.pure [r.elim Val.none Val.bytes]) (ioRead m >>= fun d => pure [Val.bytes d]) := by
  intro cuts st hc
  left
  rcases read_full hk hc st with ⟨cuts1, hs, hr⟩ | ⟨hb, -⟩
  · show (R.bind (read m) _ cuts st).1 = _ ∧ (R.bind (read m) _ cuts st).2 <:+ cuts
    unfold R.bind
    rw [hr]
    exact ⟨rfl, hs⟩
  · cases hb

theorem fine_net (hk : 32767 ≤ k) (env : Env) (id : SerId) : Fine k false (net env Option.none id) (netUnpack env id .io) := by
  refine (Fine.of M.get).bind fun st _ => (fine_struct env shortLen).bind fun hv _ => (Fine.of _).bind fun c _ => ?_
  simp only
  have last : ∀ (count size : Nat), count ≤ 32767 → Fine k false (R.of (setSize id (size + count)) >>= fun _ => read count >>= fun r => R.pure [r.elim Val.none Val.bytes])
      (setSize id (size + count) >>= fun _ => ioRead count >>= fun d => pure [Val.bytes d]) := fun count size h =>
    (Fine.of _).bind fun _ _ => fine_netRead (Nat.le_trans h hk)
  split
  · refine (Fine.of _).bind fun _ _ => (fine_struct env longLen).bind fun _ _ => (Fine.of _).bind fun c' _ => (Fine.of _).bind fun count ⟨_, _, hd⟩ =>
      (Fine.pure _).bind fun _ ⟨_, _, hp⟩ => ?_
    cases hp
    refine last _ _ ?_
    cases he : netDecode c'.toNat with
    | error e => rw [he] at hd; cases hd
    | ok m => rw [he] at hd; cases hd; exact netDecode_le he
  · refine (Fine.pure _).bind fun _ ⟨_, _, hp⟩ => ?_
    cases hp
    exact last _ _ (by omega)

/-! ### Which serializers -/

theorem wholeList_mem {ss : List Ser} : Ser.wholeList t n c ss = true ↔ ∀ s ∈ ss, s.whole t n c = true := by
  induction ss with
  | nil => simp [Ser.wholeList]
  | cons s ss ih => simp [Ser.wholeList, ih]

theorem whole_condPick {s o : Ser} {defs : List Val} {r : Val} (h : condPick s defs r = .ok o) (hs : s.whole t n c = true) :
    o.whole t n c = true := by
  unfold condPick at h
  by_cases h1 : ¬ r.hashable = true
  · rw [if_pos h1] at h; cases h
  · rw [if_neg h1] at h
    by_cases h2 : r.keyEq (.bool true) = true
    · rw [if_pos h2] at h; cases h; exact hs
    · rw [if_neg h2] at h
      by_cases h3 : r.keyEq (.bool false) = true
      · rw [if_pos h3] at h; cases h; simp [Ser.whole]
      · rw [if_neg h3] at h; cases h

theorem whole_prepack {s o : Ser} {p : PObj} {st st' : St} (h : s.prepack p st = .ok o st') (hs : s.whole t n c = true) :
    o.whole t n c = true := by
  cases s with
  | cond ser c defs =>
    have h' : M.lift (do condPick ser defs (← c p)) st = .ok o st' := h
    cases hc : c p with
    | error e => rw [hc] at h'; cases h'
    | ok r =>
      rw [hc] at h'
      have h'' : M.lift (condPick ser defs r) st = .ok o st' := h'
      cases hp : condPick ser defs r with
      | error e => rw [hp] at h''; cases h''
      | ok o' =>
        rw [hp] at h''
        cases h''
        exact whole_condPick hp (by simpa [Ser.whole] using hs)
  | compound id ss =>
    cases h
    by_cases hn : needsPreprocess ss = true
    · rw [if_pos hn]; simpa [Ser.whole] using hs
    · rw [if_neg hn]; exact hs
  | selfT id => cases h; simp [Ser.whole]
  | _ => cases h; exact hs

theorem whole_preunpack {s o : Ser} {p : PObj} {st st' : St} (h : s.preunpack p st = .ok o st') (hs : s.whole t n c = true) :
    o.whole t n c = true := by
  rcases Neg.preunpack_or s p with h' | ⟨i, rfl⟩
  · rw [h'] at h; exact whole_prepack h hs
  · have h' : M.lift (do pure (Ser.structured i (← clsOfPartial p))) st = .ok o st' := h
    cases hc : clsOfPartial p with
    | error e => rw [hc] at h'; cases h'
    | ok c => rw [hc] at h'; cases h'; simp [Ser.whole]

theorem whole_unionPick {keys : List Val} {opts : List Ser} {dflt o : Ser} {r : Val}
    (h : unionPick keys opts dflt r = .ok o) (ho : Ser.wholeList t n c opts = true) (hd : dflt.whole t n c = true) :
    o.whole t n c = true := by
  unfold unionPick at h
  by_cases h1 : ¬ r.hashable = true
  · rw [if_pos h1] at h; cases h
  · rw [if_neg h1] at h
    cases hl : lookupOpt keys opts r with
    | some s =>
      rw [hl] at h
      cases h
      unfold lookupOpt at hl
      cases hf : (keys.zip opts).find? (fun p => p.1.keyEq r) with
      | none => rw [hf] at hl; cases hl
      | some q =>
        rw [hf] at hl
        cases hl
        exact wholeList_mem.1 ho _ (List.of_mem_zip (List.mem_of_find?_eq_some hf)).2
    | none =>
      rw [hl] at h
      cases dflt <;> first | (cases h; done) | (cases h; exact hd)

theorem whole_getSerializer {packing : Bool} {id : SerId} {keys : List Val} {opts : List Ser} {dflt o : Ser} {r : Val}
    {st st' : St} (h : getSerializer packing id keys opts dflt r st = .ok o st')
    (ho : Ser.wholeList t n c opts = true) (hd : dflt.whole t n c = true) : o.whole t n c = true := by
  unfold getSerializer at h
  obtain ⟨s, st1, h1, h⟩ := M.bind_ok h
  obtain ⟨p, st2, _, h⟩ := M.bind_ok h
  have hs : s.whole t n c = true := by
    cases hu : unionPick keys opts dflt r with
    | error e => rw [hu] at h1; cases h1
    | ok s' => rw [hu] at h1; cases h1; exact whole_unionPick hu ho hd
  cases packing
  · exact whole_preunpack h hs
  · exact whole_prepack h hs

/-! ### Containers -/

theorem fine_loop {x : Ser → R (List Val)} {y : Ser → Src → M (List Val)} : ∀ (ss : List Ser) (size : Nat),
    (∀ s ∈ ss, Fine k b (x s) (y s .io)) → Fine k b (loop x size ss) (unpackLoop y .io size ss)
  | [], _, _ => .pure _
  | s :: ss, size, h => by
    refine (h s (List.mem_cons_self ..)).bind fun vs _ => (Fine.of _).bind fun sz _ => ?_
    exact (fine_loop ss _ fun s' hs => h s' (List.mem_cons_of_mem _ hs)).bind fun _ _ => .pure _

theorem fine_loopSpec {x : Ser → R (List Val)} {y : Ser → Src → M (List Val)} {upd : Upd} (h : ∀ s, s.readable k b = true → Fine k b (x s) (y s .io)) :
    ∀ (ss : List Ser) (p : PObj) (done size : Nat), Ser.wholeList (256 ≤ k) (decide (32767 ≤ k) && !b) (!b) ss = true →
      Fine k b (loopSpec x upd p done size ss) (unpackLoopSpec y upd .io p done size ss)
  | [], _, _, _, _ => .pure _
  | s :: ss, p, done, size, hw => by
    have hw' := wholeList_mem.1 hw
    refine (Fine.of _).bind fun s' ⟨st, st', hs⟩ => ?_
    refine (h s' (whole_preunpack hs (hw' s (List.mem_cons_self ..)))).bind fun vs _ => (Fine.of _).bind fun p' _ => (Fine.of _).bind fun sz _ => ?_
    exact (fine_loopSpec h ss _ _ _ (wholeList_mem.2 fun s hs => hw' s (List.mem_cons_of_mem _ hs))).bind fun _ _ => .pure _

theorem fine_items {x : Ser → R (List Val)} {y : Ser → Src → M (List Val)} {item : Ser} (h : Fine k b (x item) (y item .io)) :
    ∀ (m size : Nat), Fine k b (items x item size m) (unpackItems y item .io size m)
  | 0, _ => .pure _
  | m + 1, _ => h.bind fun _ _ => (Fine.of _).bind fun _ _ => (fine_items h m _).bind fun _ _ => .pure _

theorem fine_createWith {env : Env} (he : env.readable k b) {x : Upd → Ser → R (List Val)} {y : Upd → Ser → Src → M (List Val)}
    (h : ∀ upd s, s.readable k b = true → Fine k b (x upd s) (y upd s .io)) (cls : ClassId) :
    Fine k b (createWith env x cls) (createUnpackWith env y cls .io) := by
  unfold createWith createUnpackWith
  cases hc : env.classes cls with
  | none => exact Fine.of _
  | some ci =>
    refine (Fine.of _).bind fun s ⟨st, st', hs⟩ => ?_
    exact (h _ s (whole_preunpack hs (he _ _ hc))).bind fun _ _ => (Fine.of _).bind fun _ _ => .pure _

theorem fine_union {x : Ser → R (List Val)} {y : Ser → Src → M (List Val)} {id : SerId} {s : Ser} (h : Fine k b (x s) (y s .io)) :
    Fine k b (union x id s) (unionUnpack y id s .io) := by
  unfold union unionUnpack
  cases s.isLazy
  · exact h.bind fun _ _ => (Fine.of _).bind fun _ _ => (Fine.of _).bind fun _ _ => .pure _
  · exact (Fine.of _).bind fun _ _ => (Fine.of _).bind fun _ _ => h

theorem fine_unpack {env : Env} (he : env.readable k b) : ∀ (n : Nat) (upd : Upd) (s : Ser), s.readable k b = true →
    Fine k b (unpack env Option.none n upd s) (Verif.unpack env n upd s .io)
  | 0, _, _, _ => Fine.of _
  | n + 1, upd, s, hw => by
    have ih := fine_unpack he n
    unfold unpack Verif.unpack
    cases s with
    | null => exact .pure _
    | struct st => exact fine_struct env st
    | dynChar id st => exact fine_dynChar env id st
    | consuming id =>
      have hb : b = false := by simpa [Ser.readable, Ser.whole] using hw
      subst hb
      exact fine_consuming id
    | terminated id term => exact fine_terminated (of_decide_eq_true (by simpa only [Ser.readable, Ser.whole] using hw)) id term
    | net id =>
      have hb : 32767 ≤ k ∧ b = false := by simpa [Ser.readable, Ser.whole] using hw
      obtain ⟨hk, rfl⟩ := hb
      exact fine_net hk env id
    | unicode inner enc dec => exact (ih _ _ (by simpa only [Ser.readable, Ser.whole] using hw)).bind fun _ _ => Fine.of _
    | array id hdr item sl =>
      refine (fine_structOpt env hdr).bind fun hv _ => (Fine.of _).bind fun cd _ => (Fine.of _).bind fun p _ => (Fine.of _).bind fun item' ⟨_, _, hi⟩ => ?_
      refine (fine_items (ih _ _ (whole_preunpack hi (by simpa only [Ser.readable, Ser.whole] using hw))) _ _).bind fun _ _ => ?_
      exact (Fine.of _).bind fun _ _ => (Fine.of _).bind fun _ _ => .pure _
    | staticArr c item ser => exact (fine_structOpt env ser).bind fun _ _ => .pure _
    | dynArr id cnt item =>
      refine (fine_struct env cnt).bind fun hv _ => ?_
      have tail : ∀ c : Int, Fine k b (R.of (M.lift (item.mul c)) >>= fun s => structOpt env s >>= fun vs =>
          R.of (setSize id (cnt.size + s.elim 0 StructSer.size)) >>= fun _ => R.pure [Val.list vs])
          (M.lift (item.mul c) >>= fun s => structUnpackOpt env s .io >>= fun vs =>
          setSize id (cnt.size + s.elim 0 StructSer.size) >>= fun _ => pure [Val.list vs]) := fun c =>
        (Fine.of _).bind fun s _ => (fine_structOpt env s).bind fun _ _ => (Fine.of _).bind fun _ _ => .pure _
      match hv with
      | [c] => exact (Fine.of _).bind fun c _ => tail c
      | [] => exact (Fine.of _).bind fun c _ => tail c
      | _ :: _ :: _ => exact (Fine.of _).bind fun c _ => tail c
    | tuple id inner =>
      refine (Fine.of _).bind fun p _ => (Fine.of _).bind fun inner' ⟨_, _, hi⟩ => ?_
      cases inner'.isLazy
      · exact (ih _ _ (whole_preunpack hi (by simpa only [Ser.readable, Ser.whole] using hw))).bind fun _ _ => .pure _
      · exact .pure _
    | lookback id d keys opts dflt =>
      simp only [Ser.readable, Ser.whole, Bool.and_eq_true] at hw
      refine (Fine.of _).bind fun p _ => (Fine.of _).bind fun r _ => (Fine.of _).bind fun s ⟨_, _, hs⟩ => ?_
      exact fine_union (ih _ _ (whole_getSerializer hs hw.1 hw.2))
    | lookahead id ra d keys opts dflt =>
      simp only [Ser.readable, Ser.whole, Bool.and_eq_true] at hw
      refine (ih _ _ hw.1.1).bind fun hv _ => (Fine.of _).bind fun r _ => (Fine.of _).bind fun _ _ => (Fine.of _).bind fun s ⟨_, _, hs⟩ => ?_
      exact fine_union (ih _ _ (whole_getSerializer hs hw.1.2 hw.2))
    | cond s c defs => exact Fine.of _
    | skip vals => exact .pure _
    | structured id cls =>
      exact (fine_createWith he ih cls).bind fun _ _ => (Fine.of _).bind fun _ _ => (Fine.of _).bind fun _ _ => .pure _
    | selfT id => exact Fine.of _
    | compound id ss =>
      refine (fine_loop ss 0 fun s hs => ih _ _ (wholeList_mem.1 (by simpa only [Ser.readable, Ser.whole] using hw) s hs)).bind fun _ _ => ?_
      exact (Fine.of _).bind fun _ _ => .pure _
    | specialized id p ss =>
      refine (fine_loopSpec (fun s hs => ih _ _ hs) ss p 0 0 (by simpa only [Ser.readable, Ser.whole] using hw)).bind fun _ _ => ?_
      exact (Fine.of _).bind fun _ _ => .pure _

theorem fine_create {env : Env} (he : env.readable k b) (n : Nat) (cls : ClassId) : Fine k b (createUnpack env Option.none n cls) (Verif.createUnpack env n cls .io) :=
  (fine_createWith he (fine_unpack he n) cls).bind fun _ _ => .pure _

/-! ### Classes of every kind -/

mutual
theorem whole_true : ∀ s : Ser, s.whole true true true = true
  | .null => by rw [Ser.whole] <;> nofun
  | .struct _ => by rw [Ser.whole] <;> nofun
  | .dynChar .. => by rw [Ser.whole] <;> nofun
  | .consuming _ => by rw [Ser.whole]
  | .terminated .. => by rw [Ser.whole]
  | .net _ => by rw [Ser.whole]
  | .unicode inner _ _ => by rw [Ser.whole]; exact whole_true inner
  | .array _ _ item _ => by rw [Ser.whole]; exact whole_true item
  | .staticArr .. => by rw [Ser.whole] <;> nofun
  | .dynArr .. => by rw [Ser.whole] <;> nofun
  | .tuple _ inner => by rw [Ser.whole]; exact whole_true inner
  | .lookback _ _ _ opts dflt => by rw [Ser.whole, wholeList_true opts, whole_true dflt]; rfl
  | .lookahead _ ra _ _ opts dflt => by rw [Ser.whole, whole_true ra, wholeList_true opts, whole_true dflt]; rfl
  | .cond s _ _ => by rw [Ser.whole]; exact whole_true s
  | .skip _ => by rw [Ser.whole] <;> nofun
  | .structured .. => by rw [Ser.whole] <;> nofun
  | .selfT _ => by rw [Ser.whole] <;> nofun
  | .compound _ ss => by rw [Ser.whole]; exact wholeList_true ss
  | .specialized _ _ ss => by rw [Ser.whole]; exact wholeList_true ss
theorem wholeList_true : ∀ ss : List Ser, Ser.wholeList true true true ss = true
  | [] => by rw [Ser.wholeList]
  | s :: ss => by rw [Ser.wholeList, whole_true s, wholeList_true ss]; rfl
end

theorem ser_readable_large (s : Ser) (hk : 32767 ≤ k) : s.readable k false = true := by
  unfold Ser.readable
  rw [decide_eq_true hk, decide_eq_true (show 256 ≤ k by omega)]
  exact whole_true _

theorem readable_large (env : Env) (hk : 32767 ≤ k) : env.readable k false := fun _ _ _ => ser_readable_large _ hk

theorem fine_objUnpack {env : Env} (he : env.readable k b) (n : Nat) {v : Val}
    (ho : ∀ cls bo attrs ci ser, v = .obj cls bo attrs → objSer env cls bo = .ok (ci, ser) → ser.readable k b = true) :
    Fine k b (Short.objUnpack env Option.none n v) (Obj.unpack env n v .io) := by
  cases v with
  | obj cls bo attrs =>
    refine (Fine.of _).bind fun cs ⟨_, _, hs⟩ => (Fine.of _).bind fun s ⟨_, _, hp⟩ => ?_
    have hw : cs.2.readable k b = true := by
      cases hq : objSer env cls bo with
      | error e => rw [hq] at hs; cases hs
      | ok r => rw [hq] at hs; cases hs; exact ho _ _ _ _ _ rfl hq
    refine (fine_unpack he n _ s (whole_preunpack hp hw)).bind fun vals _ => ?_
    split
    · exact .pure _
    · exact Fine.of _
  | _ => exact Fine.of _

theorem cut_map {cuts : List Nat} (hc : ∀ c ∈ cuts, k ≤ c) : ∀ c ∈ cuts.map some, Cut k false c := by
  intro c h
  obtain ⟨m, hm, rfl⟩ := List.mem_map.1 h
  exact hc m hm

theorem cut_none {cuts : List (Option Nat)} (hc : ∀ c, some c ∈ cuts → k ≤ c) : ∀ c ∈ cuts, Cut k true c := by
  intro c h
  cases c with
  | none => rfl
  | some m => exact hc m h

theorem stop_false {e : Err} (h : Stop false e) : e = .structError := by
  rcases h with h | ⟨h, -⟩
  · exact h
  · cases h

theorem stop_any {e : Err} (h : Stop b e) : e = .structError ∨ e = .typeError ∨ e = .valueError := by
  rcases h with h | ⟨-, h⟩
  · exact .inl h
  · exact .inr h

end Verif.Short
