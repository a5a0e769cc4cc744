import Verif.Proofs.ShortReads
import Verif.Spec.NoSeek

/-!
Streams that have no position: what is read is the same, or what `tell` and `seek` raise is raised.
-/
namespace Verif.Short

variable {b : Bool} {e : Err}

/-- The same outcome, or (if `b`) the exception of `tell` and `seek`. -/
def Alike (b : Bool) (e : Err) (x y : R α) : Prop := ∀ cuts st, x cuts st = y cuts st ∨ (b = true ∧ ∃ st' cuts', x cuts st = (.err e st', cuts'))

theorem Alike.refl (x : R α) : Alike b e x x := fun _ _ => .inl rfl

theorem Alike.bind {x y : R α} {f g : α → R β} (h : Alike b e x y)
    (hk : ∀ a, (∃ cuts st st' cuts', y cuts st = (.ok a st', cuts')) → Alike b e (f a) (g a)) : Alike b e (x >>= f) (y >>= g) := by
  intro cuts st
  show R.bind x f cuts st = R.bind y g cuts st ∨ (b = true ∧ ∃ st' cuts', R.bind x f cuts st = (.err e st', cuts'))
  unfold R.bind
  rcases h cuts st with h | ⟨hb, st', cuts', h⟩
  · rw [h]
    cases hy : y cuts st with
    | mk r cuts' =>
      cases r with
      | ok a st' => exact hk a ⟨_, _, _, _, hy⟩ cuts' st'
      | err e' st' => exact .inl rfl
  · rw [h]
    exact .inr ⟨hb, st', cuts', rfl⟩

theorem alike_throw {y : R α} (hb : b = true) : Alike b e (R.of (M.throw e)) y := fun cuts st => .inr ⟨hb, st, cuts, rfl⟩

theorem of_ok {x : M α} {a : α} (h : ∃ cuts st st' cuts', R.of x cuts st = (.ok a st', cuts')) : ∃ st st', x st = .ok a st' := by
  obtain ⟨cuts, st, st', cuts', h⟩ := h
  exact ⟨st, st', (Prod.mk.inj h).1⟩

theorem throw_bind {e : Err} {f : α → R β} : (R.of (M.throw e) >>= f : R β) = R.of (M.throw e) := rfl

theorem alike_terminated (hb : b = true) (id : SerId) (term : Byte) : Alike b e (terminated (some e) id term) (terminated Option.none id term) :=
  alike_throw hb

theorem alike_net (hb : b = true) (env : Env) (id : SerId) : Alike b e (net env (some e) id) (net env Option.none id) := alike_throw hb

/-! ### Which serializers -/

theorem forwardList_mem {ss : List Ser} : Ser.forwardList b ss = true ↔ ∀ s ∈ ss, s.forward b = true := by
  induction ss with
  | nil => simp [Ser.forwardList]
  | cons s ss ih => simp [Ser.forwardList, ih]

theorem forward_condPick {s o : Ser} {defs : List Val} {r : Val} (h : condPick s defs r = .ok o) (hs : s.forward b = true) :
    o.forward b = true := by
  unfold condPick at h
  by_cases h1 : ¬ r.hashable = true
  · rw [if_pos h1] at h; cases h
  · rw [if_neg h1] at h
    by_cases h2 : r.keyEq (.bool true) = true
    · rw [if_pos h2] at h; cases h; exact hs
    · rw [if_neg h2] at h
      by_cases h3 : r.keyEq (.bool false) = true
      · rw [if_pos h3] at h; cases h; simp [Ser.forward]
      · rw [if_neg h3] at h; cases h

theorem forward_prepack {s o : Ser} {p : PObj} {st st' : St} (h : s.prepack p st = .ok o st') (hs : s.forward b = true) :
    o.forward b = true := by
  cases s with
  | cond ser c defs =>
    have h' : M.lift (do condPick ser defs (← c p)) st = .ok o st' := h
    cases hc : c p with
    | error e => rw [hc] at h'; cases h'
    | ok r =>
      rw [hc] at h'
      have h'' : M.lift (condPick ser defs r) st = .ok o st' := h'
      cases hp : condPick ser defs r with
      | error e => rw [hp] at h''; cases h''
      | ok o' =>
        rw [hp] at h''
        cases h''
        exact forward_condPick hp (by simpa [Ser.forward] using hs)
  | compound id ss =>
    cases h
    by_cases hn : needsPreprocess ss = true
    · rw [if_pos hn]; simpa [Ser.forward] using hs
    · rw [if_neg hn]; exact hs
  | selfT id => cases h; simp [Ser.forward]
  | _ => cases h; exact hs

theorem forward_preunpack {s o : Ser} {p : PObj} {st st' : St} (h : s.preunpack p st = .ok o st') (hs : s.forward b = true) :
    o.forward b = true := by
  rcases Neg.preunpack_or s p with h' | ⟨i, rfl⟩
  · rw [h'] at h; exact forward_prepack h hs
  · have h' : M.lift (do pure (Ser.structured i (← clsOfPartial p))) st = .ok o st' := h
    cases hc : clsOfPartial p with
    | error e => rw [hc] at h'; cases h'
    | ok c => rw [hc] at h'; cases h'; simp [Ser.forward]

theorem forward_unionPick {keys : List Val} {opts : List Ser} {dflt o : Ser} {r : Val}
    (h : unionPick keys opts dflt r = .ok o) (ho : Ser.forwardList b opts = true) (hd : dflt.forward b = true) :
    o.forward b = true := by
  unfold unionPick at h
  by_cases h1 : ¬ r.hashable = true
  · rw [if_pos h1] at h; cases h
  · rw [if_neg h1] at h
    cases hl : lookupOpt keys opts r with
    | some s =>
      rw [hl] at h
      cases h
      unfold lookupOpt at hl
      cases hf : (keys.zip opts).find? (fun p => p.1.keyEq r) with
      | none => rw [hf] at hl; cases hl
      | some q =>
        rw [hf] at hl
        cases hl
        exact forwardList_mem.1 ho _ (List.of_mem_zip (List.mem_of_find?_eq_some hf)).2
    | none =>
      rw [hl] at h
      cases dflt <;> first | (cases h; done) | (cases h; exact hd)

theorem forward_getSerializer {packing : Bool} {id : SerId} {keys : List Val} {opts : List Ser} {dflt o : Ser} {r : Val}
    {st st' : St} (h : getSerializer packing id keys opts dflt r st = .ok o st')
    (ho : Ser.forwardList b opts = true) (hd : dflt.forward b = true) : o.forward b = true := by
  unfold getSerializer at h
  obtain ⟨s, st1, h1, h⟩ := M.bind_ok h
  obtain ⟨p, st2, _, h⟩ := M.bind_ok h
  have hs : s.forward b = true := by
    cases hu : unionPick keys opts dflt r with
    | error e => rw [hu] at h1; cases h1
    | ok s' => rw [hu] at h1; cases h1; exact forward_unionPick hu ho hd
  cases packing
  · exact forward_preunpack h hs
  · exact forward_prepack h hs

mutual
theorem forward_true : ∀ s : Ser, s.forward true = true
  | .null => by rw [Ser.forward] <;> nofun
  | .struct _ => by rw [Ser.forward] <;> nofun
  | .dynChar .. => by rw [Ser.forward] <;> nofun
  | .consuming _ => by rw [Ser.forward] <;> nofun
  | .terminated .. => by rw [Ser.forward]
  | .net _ => by rw [Ser.forward]
  | .unicode inner _ _ => by rw [Ser.forward]; exact forward_true inner
  | .array _ _ item _ => by rw [Ser.forward]; exact forward_true item
  | .staticArr .. => by rw [Ser.forward] <;> nofun
  | .dynArr .. => by rw [Ser.forward] <;> nofun
  | .tuple _ inner => by rw [Ser.forward]; exact forward_true inner
  | .lookback _ _ _ opts dflt => by rw [Ser.forward, forwardList_true opts, forward_true dflt]; rfl
  | .lookahead .. => by rw [Ser.forward]
  | .cond s _ _ => by rw [Ser.forward]; exact forward_true s
  | .skip _ => by rw [Ser.forward] <;> nofun
  | .structured .. => by rw [Ser.forward] <;> nofun
  | .selfT _ => by rw [Ser.forward] <;> nofun
  | .compound _ ss => by rw [Ser.forward]; exact forwardList_true ss
  | .specialized _ _ ss => by rw [Ser.forward]; exact forwardList_true ss
theorem forwardList_true : ∀ ss : List Ser, Ser.forwardList true ss = true
  | [] => by rw [Ser.forwardList]
  | s :: ss => by rw [Ser.forwardList, forward_true s, forwardList_true ss]; rfl
end

/-! ### Containers -/

theorem alike_loop {x y : Ser → R (List Val)} : ∀ (ss : List Ser) (size : Nat),
    (∀ s ∈ ss, Alike b e (x s) (y s)) → Alike b e (loop x size ss) (loop y size ss)
  | [], _, _ => .refl _
  | s :: ss, size, h => by
    refine (h s (List.mem_cons_self ..)).bind fun vs _ => (Alike.refl _).bind fun sz _ => ?_
    exact (alike_loop ss _ fun s' hs => h s' (List.mem_cons_of_mem _ hs)).bind fun _ _ => .refl _

theorem alike_loopSpec {x y : Ser → R (List Val)} {upd : Upd} (h : ∀ s, s.forward b = true → Alike b e (x s) (y s)) :
    ∀ (ss : List Ser) (p : PObj) (done size : Nat), Ser.forwardList b ss = true →
      Alike b e (loopSpec x upd p done size ss) (loopSpec y upd p done size ss)
  | [], _, _, _, _ => .refl _
  | s :: ss, p, done, size, hw => by
    have hw' := forwardList_mem.1 hw
    refine (Alike.refl _).bind fun s' hs => ?_
    obtain ⟨st, st', hs⟩ := of_ok hs
    refine (h s' (forward_preunpack hs (hw' s (List.mem_cons_self ..)))).bind fun vs _ => (Alike.refl _).bind fun p' _ => (Alike.refl _).bind fun sz _ => ?_
    exact (alike_loopSpec h ss _ _ _ (forwardList_mem.2 fun s hs => hw' s (List.mem_cons_of_mem _ hs))).bind fun _ _ => .refl _

theorem alike_items {x y : Ser → R (List Val)} {item : Ser} (h : Alike b e (x item) (y item)) :
    ∀ (m size : Nat), Alike b e (items x item size m) (items y item size m)
  | 0, _ => .refl _
  | m + 1, _ => h.bind fun _ _ => (Alike.refl _).bind fun _ _ => (alike_items h m _).bind fun _ _ => .refl _

theorem alike_createWith {env : Env} (he : ∀ c ci, env.classes c = some ci → ci.serializer.forward b = true) {x y : Upd → Ser → R (List Val)}
    (h : ∀ upd s, s.forward b = true → Alike b e (x upd s) (y upd s)) (cls : ClassId) :
    Alike b e (createWith env x cls) (createWith env y cls) := by
  unfold createWith
  cases hc : env.classes cls with
  | none => exact .refl _
  | some ci =>
    refine (Alike.refl _).bind fun s hs => ?_
    obtain ⟨st, st', hs⟩ := of_ok hs
    exact (h _ s (forward_preunpack hs (he _ _ hc))).bind fun _ _ => .refl _

theorem alike_union {x y : Ser → R (List Val)} {id : SerId} {s : Ser} (h : Alike b e (x s) (y s)) : Alike b e (union x id s) (union y id s) := by
  unfold union
  cases s.isLazy
  · exact h.bind fun _ _ => .refl _
  · exact (Alike.refl _).bind fun _ _ => (Alike.refl _).bind fun _ _ => h

theorem alike_unpack {env : Env} (he : ∀ c ci, env.classes c = some ci → ci.serializer.forward b = true) : ∀ (n : Nat) (upd : Upd) (s : Ser), s.forward b = true →
    Alike b e (unpack env (some e) n upd s) (unpack env Option.none n upd s)
  | 0, _, _, _ => .refl _
  | n + 1, upd, s, hw => by
    have ih := alike_unpack he n
    unfold unpack
    cases s with
    | null => exact .refl _
    | struct st => exact .refl _
    | dynChar id st => exact .refl _
    | consuming id => exact .refl _
    | terminated id term => exact alike_terminated (by simpa only [Ser.forward] using hw) id term
    | net id => exact alike_net (by simpa only [Ser.forward] using hw) env id
    | unicode inner enc dec => exact (ih _ _ (by simpa only [Ser.forward] using hw)).bind fun _ _ => .refl _
    | array id hdr item sl =>
      refine (Alike.refl _).bind fun hv _ => (Alike.refl _).bind fun cd _ => (Alike.refl _).bind fun p _ => (Alike.refl _).bind fun item' hi => ?_
      obtain ⟨_, _, hi⟩ := of_ok hi
      exact (alike_items (ih _ _ (forward_preunpack hi (by simpa only [Ser.forward] using hw))) _ _).bind fun _ _ => .refl _
    | staticArr c item ser => exact .refl _
    | dynArr id cnt item => exact .refl _
    | tuple id inner =>
      refine (Alike.refl _).bind fun p _ => (Alike.refl _).bind fun inner' hi => ?_
      obtain ⟨_, _, hi⟩ := of_ok hi
      cases inner'.isLazy
      · exact (ih _ _ (forward_preunpack hi (by simpa only [Ser.forward] using hw))).bind fun _ _ => .refl _
      · exact .refl _
    | lookback id d keys opts dflt =>
      simp only [Ser.forward, Bool.and_eq_true] at hw
      refine (Alike.refl _).bind fun p _ => (Alike.refl _).bind fun r _ => (Alike.refl _).bind fun s hs => ?_
      obtain ⟨_, _, hs⟩ := of_ok hs
      exact alike_union (ih _ _ (forward_getSerializer hs hw.1 hw.2))
    | lookahead id ra d keys opts dflt =>
      have hb : b = true := by simpa only [Ser.forward] using hw
      refine (ih _ _ (hb ▸ forward_true ra)).bind fun hv _ => (Alike.refl _).bind fun r _ => ?_
      exact alike_throw hb
    | cond s c defs => exact .refl _
    | skip vals => exact .refl _
    | structured id cls => exact (alike_createWith he ih cls).bind fun _ _ => .refl _
    | selfT id => exact .refl _
    | compound id ss =>
      exact (alike_loop ss 0 fun s hs => ih _ _ (forwardList_mem.1 (by simpa only [Ser.forward] using hw) s hs)).bind fun _ _ => .refl _
    | specialized id p ss =>
      exact (alike_loopSpec (fun s hs => ih _ _ hs) ss p 0 0 (by simpa only [Ser.forward] using hw)).bind fun _ _ => .refl _

theorem alike_create {env : Env} (he : ∀ c ci, env.classes c = some ci → ci.serializer.forward b = true) (n : Nat) (cls : ClassId) :
    Alike b e (createUnpack env (some e) n cls) (createUnpack env Option.none n cls) :=
  (alike_createWith he (alike_unpack he n) cls).bind fun _ _ => .refl _

theorem alike_objUnpack {env : Env} (he : ∀ c ci, env.classes c = some ci → ci.serializer.forward b = true) (n : Nat) {v : Val}
    (ho : ∀ cls bo attrs ci ser, v = .obj cls bo attrs → objSer env cls bo = .ok (ci, ser) → ser.forward b = true) :
    Alike b e (objUnpack env (some e) n v) (objUnpack env Option.none n v) := by
  cases v with
  | obj cls bo attrs =>
    refine (Alike.refl _).bind fun cs hs => (Alike.refl _).bind fun s hp => ?_
    obtain ⟨_, _, hs⟩ := of_ok hs
    obtain ⟨_, _, hp⟩ := of_ok hp
    have hw : cs.2.forward b = true := by
      cases hq : objSer env cls bo with
      | error e => rw [hq] at hs; cases hs
      | ok r => rw [hq] at hs; cases hs; exact ho _ _ _ _ _ rfl hq
    exact (alike_unpack he n _ s (forward_preunpack hp hw)).bind fun _ _ => .refl _
  | _ => exact .refl _

mutual
/-- Such classes have no strings that are read in chunks. -/
theorem forward_whole {t n : Bool} : ∀ {s : Ser}, s.forward false = true → s.whole t n true = true
  | .null, _ => by rw [Ser.whole] <;> nofun
  | .struct _, _ => by rw [Ser.whole] <;> nofun
  | .dynChar .., _ => by rw [Ser.whole] <;> nofun
  | .consuming _, _ => by rw [Ser.whole]
  | .terminated .., h => by rw [Ser.forward] at h; cases h
  | .net _, h => by rw [Ser.forward] at h; cases h
  | .unicode inner _ _, h => by rw [Ser.forward] at h; rw [Ser.whole]; exact forward_whole h
  | .array _ _ item _, h => by rw [Ser.forward] at h; rw [Ser.whole]; exact forward_whole h
  | .staticArr .., _ => by rw [Ser.whole] <;> nofun
  | .dynArr .., _ => by rw [Ser.whole] <;> nofun
  | .tuple _ inner, h => by rw [Ser.forward] at h; rw [Ser.whole]; exact forward_whole h
  | .lookback _ _ _ opts dflt, h => by
    rw [Ser.forward, Bool.and_eq_true] at h
    rw [Ser.whole, forwardList_whole h.1, forward_whole h.2]; rfl
  | .lookahead .., h => by rw [Ser.forward] at h; cases h
  | .cond s _ _, h => by rw [Ser.forward] at h; rw [Ser.whole]; exact forward_whole h
  | .skip _, _ => by rw [Ser.whole] <;> nofun
  | .structured .., _ => by rw [Ser.whole] <;> nofun
  | .selfT _, _ => by rw [Ser.whole] <;> nofun
  | .compound _ ss, h => by rw [Ser.forward] at h; rw [Ser.whole]; exact forwardList_whole h
  | .specialized _ _ ss, h => by rw [Ser.forward] at h; rw [Ser.whole]; exact forwardList_whole h
theorem forwardList_whole {t n : Bool} : ∀ {ss : List Ser}, Ser.forwardList false ss = true → Ser.wholeList t n true ss = true
  | [], _ => by rw [Ser.wholeList]
  | s :: ss, h => by
    rw [Ser.forwardList, Bool.and_eq_true] at h
    rw [Ser.wholeList, forward_whole h.1, forwardList_whole h.2]; rfl
end

theorem forward_readable {env : Env} (he : env.forward) (k : Nat) : env.readable k false := fun c ci h => forward_whole (he c ci h)

end Verif.Short
