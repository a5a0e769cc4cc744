import Verif.Proofs.FormatEnc
import Verif.Proofs.ClassSum
/-
Lemmas for the documented byte format: runs of neighbouring basic fields, where alignment is counted from the start of the run.
-/
namespace Verif
open Spec Sem

variable {bo : ByteOrder} {cf : ClassId → Bool} {env : Env} {id : SerId}

/-! ### Sums leave no struct serializers side by side -/

/-- No two struct serializers are neighbours. -/
def Apart (ys : List Ser) : Prop := ∀ pr x y post, ys ≠ pr ++ .struct x :: .struct y :: post

theorem Apart.tail {s : Ser} {ys : List Ser} (h : Apart (s :: ys)) : Apart ys :=
  fun pr x y post e => h (s :: pr) x y post (by rw [e]; rfl)

theorem apart_one {s : Ser} : Apart [s] := by
  intro pr x y post e
  have := congrArg List.length e
  simp at this
  omega

theorem apart_snoc {xs : List Ser} {b : Ser} (h : Apart xs) (hb : ∀ front x y, xs = front ++ [.struct x] → b ≠ .struct y) : Apart (xs ++ [b]) := by
  intro pr x y post e
  rcases List.eq_nil_or_concat post with rfl | ⟨post', l, rfl⟩
  · rw [show pr ++ Ser.struct x :: [Ser.struct y] = (pr ++ [Ser.struct x]) ++ [Ser.struct y] by simp] at e
    obtain ⟨e1, e2⟩ := List.append_inj' e rfl
    cases e2
    exact hb pr x y e1 rfl
  · rw [List.concat_eq_append, show pr ++ Ser.struct x :: Ser.struct y :: (post' ++ [l]) = (pr ++ Ser.struct x :: Ser.struct y :: post') ++ [l] by simp] at e
    exact h pr x y post' (List.append_inj' e rfl).1

theorem apart_replace {front : List Ser} {x z : StructSer} (h : Apart (front ++ [.struct x])) : Apart (front ++ [.struct z]) := by
  refine apart_snoc (fun pr u v post e => h pr u v (post ++ [.struct x]) (by rw [e]; simp)) ?_
  intro front' u y e _
  exact h front' u x [] (by rw [e]; simp)

theorem fields_apart {ss : List Ser} {s : Ser} (hs : ∀ x ∈ ss, FieldOf bo x) (h : sumSers cf id ss = .ok s) : Apart (parts s) := by
  suffices ∀ (ss : List Ser) (acc : Ser), (∀ x ∈ ss, FieldOf bo x) → SumState cf bo acc →
      Apart (parts acc) → ss.foldlM (fun (acc : Ser) s => acc.add cf id s) acc = .ok s → Apart (parts s) by
    exact this ss .null hs sumState_null (by intro pr x y post e; cases pr <;> cases e) h
  intro ss
  induction ss with
  | nil => intro acc _ _ ha h; cases h; exact ha
  | cons b ss ih =>
    intro acc hf hp hm h
    rw [List.foldlM_cons] at h
    obtain ⟨acc', ha, h⟩ := Except.bind_ok' h
    have hb := hf b (by simp)
    have hp' : SumState cf bo acc' := by
      rcases add_field (id := id) hp hb with ⟨s', e, k⟩ | e
      · rw [ha] at e; cases e; exact k
      · rw [ha] at e; cases e
    refine ih acc' (fun x hx => hf x (by simp [hx])) hp' ?_ h
    rcases add_one hp.flat hp.notNull hb.1 ha with ⟨rfl, he⟩ | ⟨_, he, hk⟩ | ⟨front, x, y, z, h1, rfl, _, he⟩
    · rw [he]; exact hm
    · rw [he]; exact apart_snoc hm hk
    · rw [he]; rw [h1] at hm; exact apart_replace hm

theorem mkCompound_struct {ss : List Ser} {st : StructSer} (h : mkCompound id ss = .ok (.struct st)) : False := by
  unfold mkCompound at h
  split at h <;> cases h

theorem mkStaticArr_struct {n : Int} {s : StructSer} {st : StructSer} (h : mkStaticArr n s = .ok (.struct st)) : False := by
  unfold mkStaticArr at h
  obtain ⟨_, _, h⟩ := Except.bind_ok' h
  cases h

theorem wbo_struct {s : Ser} {st : StructSer} (h : s.withByteOrder bo = .ok (.struct st)) : ∃ x, s = .struct x := by
  cases s
  case struct => exact ⟨_, rfl⟩
  case staticArr =>
    simp only [Ser.withByteOrder] at h
    obtain ⟨_, _, h⟩ := Except.bind_ok' h
    exact (mkStaticArr_struct h).elim
  case cond =>
    simp only [Ser.withByteOrder] at h
    obtain ⟨_, _, h⟩ := Except.bind_ok' h
    split at h <;> cases h
  case compound =>
    simp only [Ser.withByteOrder] at h
    obtain ⟨_, _, h⟩ := Except.bind_ok' h
    exact (mkCompound_struct h).elim
  case specialized =>
    simp only [Ser.withByteOrder] at h
    obtain ⟨_, _, h⟩ := Except.bind_ok' h
    exact (mkCompound_struct h).elim
  case array i hdr item sl =>
    simp only [Ser.withByteOrder] at h
    cases hdr
    · obtain ⟨_, _, h⟩ := Except.bind_ok' h
      obtain ⟨_, _, h⟩ := Except.bind_ok' h
      cases h
    · obtain ⟨_, _, h⟩ := Except.bind_ok' h
      obtain ⟨_, _, h⟩ := Except.bind_ok' h
      obtain ⟨_, _, h⟩ := Except.bind_ok' h
      cases h
  case dynArr =>
    simp only [Ser.withByteOrder] at h
    obtain ⟨_, _, h⟩ := Except.bind_ok' h
    obtain ⟨_, _, h⟩ := Except.bind_ok' h
    cases h
  case dynChar =>
    simp only [Ser.withByteOrder] at h
    obtain ⟨_, _, h⟩ := Except.bind_ok' h
    cases h
  all_goals cases h

theorem apart_wbo : ∀ {ys ys' : List Ser}, Ser.withByteOrderList bo ys = .ok ys' → Apart ys → Apart ys'
  | [], _, h, ha => by cases h; exact ha
  | s :: ys, _, h, ha => by
    simp only [Ser.withByteOrderList] at h
    obtain ⟨s', h1, h⟩ := Except.bind_ok' h
    obtain ⟨zs, h2, h⟩ := Except.bind_ok' h
    cases h
    have ih := apart_wbo h2 ha.tail
    intro pr x y post e
    cases pr with
    | cons p pr =>
      simp only [List.cons_append, List.cons.injEq] at e
      exact ih pr x y post e.2
    | nil =>
      simp only [List.nil_append, List.cons.injEq] at e
      obtain ⟨rfl, rfl⟩ := e
      obtain ⟨x0, rfl⟩ := wbo_struct h1
      cases ys with
      | nil => cases h2
      | cons t ys =>
        simp only [Ser.withByteOrderList] at h2
        obtain ⟨t', h3, h2⟩ := Except.bind_ok' h2
        obtain ⟨us, h4, h2⟩ := Except.bind_ok' h2
        cases h2
        obtain ⟨y0, rfl⟩ := wbo_struct h3
        exact ha [] x0 y0 ys rfl

/-! ### Packing from an offset -/

/-- Packing as part of a run, `o` bytes behind its start. -/
def StructSer.packAt (s : StructSer) (P : Platform) (o : Nat) (vs : List Val) : Except Err Bytes :=
  if vs.length = s.numValues then packToks P s.byteOrder s.toks o vs else .error .structError

theorem packAt_zero {s : StructSer} {P : Platform} {vs : List Val} : s.packAt P 0 vs = s.pack P vs := rfl

theorem SumIn.facts {x y z : StructSer} (h : SumIn bo x y z) : SumFacts x y z :=
  sum_facts h.xok h.yok (h.xbo.trans h.ybo.symm) (.inl h.single) h.sum

theorem SumIn.numValues {x y z : StructSer} (h : SumIn bo x y z) : z.numValues = x.numValues + y.numValues := by
  simp only [StructSer.numValues]
  rw [h.facts.toks.vals, numVals_append]

theorem SumIn.packAt {x y z : StructSer} (h : SumIn bo x y z) {P : Platform} {o : Nat} {vs : List Val} {b1 b2 : Bytes}
    (h1 : x.packAt P o (vs.take x.numValues) = .ok b1) (h2 : y.packAt P (o + b1.length) ((vs.drop x.numValues).take y.numValues) = .ok b2) :
    z.packAt P o (vs.take z.numValues) = .ok (b1 ++ b2) := by
  unfold StructSer.packAt at h1 h2 ⊢
  split at h1
  · rename_i l1
    split at h2
    · rename_i l2
      have hv : vs.take z.numValues = vs.take x.numValues ++ (vs.drop x.numValues).take y.numValues := by rw [h.numValues, List.take_add]
      rw [hv, if_pos (by rw [h.numValues, List.length_append, l1, l2]), h.facts.byteOrder, h.facts.toks.pack, packToks_append,
        packToks_take P _ _ _ _ _ (by rw [l1]; exact Nat.le_refl _), h1]
      have hd : List.drop (numVals x.toks) (vs.take x.numValues ++ (vs.drop x.numValues).take y.numValues) = (vs.drop x.numValues).take y.numValues :=
        List.drop_left' l1
      simp only [bind, Except.bind, hd]
      rw [h.xbo, ← h.ybo, h2]
    · cases h2
  · cases h1

/-! ### Alignment of basic types -/

theorem gap_eq {w a : Nat} {c : Code} (ha : c.align true = a) (hs : a = 1 ∨ a = 2 ∨ a = 4 ∨ a = 8) (k : Nat) :
    padLen (c.align bo.isNative) k = gap bo k (some (w, a)) := by
  have : bo.isNative = aligned bo := by cases bo <;> rfl
  rw [this]
  simp only [gap]
  cases aligned bo
  · simp [align_std, padLen_one]
  · rw [ha, if_pos rfl]
    unfold padLen
    rcases hs with h | h | h | h <;> rw [h] <;> omega

/-- What a basic type has in front of it as part of a run, and where it ends. -/
theorem item_packAt {t : Tok} {st : StructSer} {w a k : Nat} {vs : List Val} {P : Platform} {b : Bytes} (h : OneTok bo t st)
    (hw : ∀ nat, t.bytes nat = w) (ha : t.c.align true = a) (hs : a = 1 ∨ a = 2 ∨ a = 4 ∨ a = 8) (hp : st.pack P vs = .ok b) :
    st.packAt P k vs = .ok (List.replicate (gap bo k (some (w, a))) 0 ++ b) ∧
      k + (List.replicate (gap bo k (some (w, a))) 0 ++ b).length = after bo k (some (w, a)) := by
  have hl := structSer_pack_length hp
  have h0 : padLen (t.c.align bo.isNative) 0 = 0 := padLen_eq_zero (Nat.zero_mod _)
  have hz : st.size = w := by
    simp [StructSer.size, h.toks, sizeToks, endOff, h.order, h0, hw]
  refine ⟨?_, by simp only [List.length_append, List.length_replicate, after, hl, hz]; omega⟩
  rw [← packAt_zero] at hp
  unfold StructSer.packAt at hp ⊢
  split at hp
  · rename_i hv
    rw [if_pos hv]
    rw [h.toks, h.order] at hp ⊢
    simp only [packToks, gap_eq (w := w) ha hs, show gap bo 0 (some (w, a)) = 0 by rw [← gap_eq ha hs, h0]] at hp ⊢
    cases hq : packTok P bo t vs with
    | error e => rw [hq] at hp; cases hp
    | ok r =>
      obtain ⟨d, rest⟩ := r
      simp only [hq, bind, Except.bind, List.replicate_zero, List.nil_append, List.append_nil, Except.ok.injEq] at hp ⊢
      rw [hp]
  · cases hp

theorem direct_packAt {f : Fmt} {st : StructSer} {v : Val} {P : Platform} {b : Bytes} (k : Nat) (hd : f.direct = true) (h : f.Is cf bo (.struct st))
    (hp : st.pack P [v] = .ok b) : st.packAt P k [v] = .ok (List.replicate (gap bo k f.basic) 0 ++ b) ∧
      k + (List.replicate (gap bo k f.basic) 0 ++ b).length = after bo k f.basic := by
  have key : ∀ {t : Tok} {w a : Nat}, IsItem bo t (.struct st) → (∀ nat, t.bytes nat = w) → t.c.align true = a → (a = 1 ∨ a = 2 ∨ a = 4 ∨ a = 8) →
      st.packAt P k [v] = .ok (List.replicate (gap bo k (some (w, a))) 0 ++ b) ∧
        k + (List.replicate (gap bo k (some (w, a))) 0 ++ b).length = after bo k (some (w, a)) := by
    rintro t w a ⟨st', e, h⟩ hw ha hs
    cases e
    exact item_packAt h.tok hw ha hs hp
  cases f <;> (try cases hd; done) <;> simp only [Fmt.Is] at h
  case int s w => exact key h (fun nat => by cases nat <;> cases w <;> rfl) (by cases w <;> rfl) (by cases w <;> simp [Size.bytes])
  case bool => exact key h (fun nat => by cases nat <;> rfl) rfl (by simp)
  case half => exact key h (fun nat => by cases nat <;> rfl) rfl (by simp)
  case single => exact key h (fun nat => by cases nat <;> rfl) rfl (by simp)
  case double => exact key h (fun nat => by cases nat <;> rfl) rfl (by simp)
  case pascal => exact key h (fun nat => by simp [Tok.bytes, Code.bytes]) rfl (by simp)
  case chars => exact key h (fun nat => by simp [Tok.bytes, Code.bytes]) rfl (by simp)

theorem is_packAt {f : Fmt} {st : StructSer} {v : Val} {P : Platform} {b : Bytes} (k : Nat) (h : f.Is cf bo (.struct st)) (hp : st.pack P [v] = .ok b) :
    st.packAt P k [v] = .ok (List.replicate (gap bo k f.basic) 0 ++ b) ∧
      k + (List.replicate (gap bo k f.basic) 0 ++ b).length = after bo k f.basic := by
  by_cases hd : f.direct = true
  · exact direct_packAt k hd h hp
  · have hb := is_struct h
    cases f <;> try exact absurd hb hd
    obtain ⟨st', e, h1, h2⟩ := h
    cases e
    simp only [Fmt.basic]
    exact direct_packAt (st := st') k h1 h2 hp

theorem pad_packAt {n : Nat} {st : StructSer} {P : Platform} (k : Nat) (h : BasicSer bo ⟨n, .pad⟩ st) (hp : st.pack P [] = .ok (List.replicate n 0)) :
    st.packAt P k [] = .ok (List.replicate n 0) := by
  have := (item_packAt (k := k) (w := n) (a := 1) h.tok (fun nat => by simp [Tok.bytes, Code.bytes]) rfl (by simp) hp).1
  have hg : gap bo k (some (n, 1)) = 0 := by
    simp only [gap]
    split <;> simp
  rwa [hg] at this

/-! ### The parts of a compound -/

/-- The encoding gives these bytes, unless it depends on earlier use. -/
def Gives (x : Out Enc) (b : Bytes) : Prop := x = .stuck ∨ ∃ t, x = .ok ⟨b, t⟩

theorem Gives.ok {b : Bytes} {t : List SerId} : Gives (.ok ⟨b, t⟩) b := .inr ⟨t, rfl⟩

theorem Gives.leaf {x : Except Err Bytes} {b : Bytes} (h : x = .ok b) : Gives (encLeaf x) b := by
  subst h; exact .ok

theorem Gives.bind {x : Out Enc} {b c : Bytes} {f : Enc → Out Enc} (h : Gives x b) (hf : ∀ t, Gives (f ⟨b, t⟩) c) : Gives (x >>= f) c := by
  rcases h with rfl | ⟨t, rfl⟩
  · exact .inl rfl
  · exact hf t

/-- One part that is not a struct serializer gives these bytes. -/
def GivesPart (env : Env) (n : Nat) (p : PObj) (s : Ser) (vs : List Val) (b : Bytes) : Prop :=
  ∃ s' q, pre s p = .ok (s', q) ∧ s'.sized = true ∧ s'.numValues = s.numValues ∧ Gives (enc env n s' q (vs.take s.numValues)) b

/-- The parts give these bytes, struct serializers each as part of its run. -/
def GL (env : Env) (n : Nat) (p : PObj) : Nat → List Ser → List Val → Bytes → Prop
  | _, [], _, b => b = []
  | o, .struct st :: ss, vs, b => ∃ b1 b2, st.packAt env.plat o (vs.take st.numValues) = .ok b1 ∧
      GL env n p (o + b1.length) ss (vs.drop st.numValues) b2 ∧ b = b1 ++ b2
  | _, s :: ss, vs, b => ∃ b1 b2, GivesPart env n p s vs b1 ∧ GL env n p 0 ss (vs.drop s.numValues) b2 ∧ b = b1 ++ b2

variable {n : Nat} {p : PObj}

theorem GL.part {s : Ser} {ss : List Ser} {vs : List Val} {b1 b2 : Bytes} (o : Nat) (hs : ∀ st, s ≠ .struct st) (h1 : GivesPart env n p s vs b1)
    (h2 : GL env n p 0 ss (vs.drop s.numValues) b2) : GL env n p o (s :: ss) vs (b1 ++ b2) := by
  cases s
  case struct st => exact absurd rfl (hs st)
  all_goals exact ⟨b1, b2, h1, h2, rfl⟩

theorem GL.inv {s : Ser} {ss : List Ser} {vs : List Val} {b : Bytes} {o : Nat} (hs : ∀ st, s ≠ .struct st) (h : GL env n p o (s :: ss) vs b) :
    ∃ b1 b2, GivesPart env n p s vs b1 ∧ GL env n p 0 ss (vs.drop s.numValues) b2 ∧ b = b1 ++ b2 := by
  cases s
  case struct st => exact absurd rfl (hs st)
  all_goals exact h

theorem isStruct_dec (s : Ser) : (∃ st, s = .struct st) ∨ ∀ st, s ≠ .struct st := by
  cases s
  case struct st => exact .inl ⟨st, rfl⟩
  all_goals exact .inr (by nofun)

theorem gl_congr {xs ys : List Ser} (h : ∀ o vs b, GL env n p o xs vs b → GL env n p o ys vs b) :
    ∀ (pr : List Ser) {o : Nat} {vs : List Val} {b : Bytes}, GL env n p o (pr ++ xs) vs b → GL env n p o (pr ++ ys) vs b
  | [], o, vs, b, hx => h o vs b hx
  | s :: pr, o, vs, b, hx => by
    rcases isStruct_dec s with ⟨st, rfl⟩ | hs
    · obtain ⟨b1, b2, h1, h2, rfl⟩ := hx
      exact ⟨b1, b2, h1, gl_congr h pr h2, rfl⟩
    · obtain ⟨b1, b2, h1, h2, rfl⟩ := GL.inv (ss := pr ++ xs) hs hx
      exact GL.part (ss := pr ++ ys) o hs h1 (gl_congr h pr h2)

/-- Joining neighbours changes nothing. -/
theorem gl_merge {xs ys : List Ser} (h : Merge (SumIn bo) xs ys) (hn : ∀ x ∈ xs, x ≠ .null) {o : Nat} {vs : List Val} {b : Bytes}
    (hx : GL env n p o xs vs b) : GL env n p o ys vs b := by
  induction h generalizing o vs b with
  | refl => exact hx
  | null => exact absurd rfl (hn .null (by simp))
  | @join pr post ys x y z hj _ ih =>
    refine ih ?_ (gl_congr (xs := .struct x :: .struct y :: post) (ys := .struct z :: post) (fun o vs b hx => ?_) pr hx)
    · intro w hw
      simp only [List.mem_append, List.mem_cons] at hw
      rcases hw with hw | rfl | hw
      · exact hn w (by simp [hw])
      · nofun
      · exact hn w (by simp [hw])
    · obtain ⟨b1, _, h1, ⟨b2, b3, h2, h3, rfl⟩, rfl⟩ := hx
      refine ⟨b1 ++ b2, b3, hj.packAt h1 h2, ?_, by simp⟩
      rw [hj.numValues, List.length_append, ← Nat.add_assoc, ← List.drop_drop]
      exact h3

/-- Without neighbouring struct serializers each part is packed alone. -/
theorem gl_enc : ∀ {ys : List Ser} {o : Nat} {vs : List Val} {b : Bytes}, Apart ys → (o = 0 ∨ ∀ st zs, ys ≠ .struct st :: zs) →
    GL env (n + 1) p o ys vs b → Gives (encLoop (enc env (n + 1)) (fun s => pre s p) touch ys vs) b
  | [], o, vs, b, _, _, h => by cases h; exact .ok
  | s :: ys, o, vs, b, ha, ho, h => by
    rcases isStruct_dec s with ⟨st, rfl⟩ | hs
    · rcases ho with rfl | ho
      · obtain ⟨b1, b2, h1, h2, rfl⟩ := h
        have ih := gl_enc ha.tail (.inr fun st' zs e => ha [] st st' zs (by rw [e]; rfl)) h2
        rw [packAt_zero] at h1
        simp only [encLoop, pre, Ser.keeper, Option.map_none, Out.ofE, Out.ok_bind, Ser.sized, not_true_eq_false, if_false]
        refine Gives.bind (b := b1) ?_ fun t => ?_
        · simp only [enc, Ser.numValues, h1]; exact .ok
        · exact ih.bind fun t' => .ok
      · exact absurd rfl (ho st ys)
    · obtain ⟨b1, b2, ⟨s', q, hq, hz, hv, h1⟩, h2, rfl⟩ := GL.inv hs h
      have ih := gl_enc ha.tail (.inl rfl) h2
      simp only [encLoop, hq, Out.ofE, Out.ok_bind, hv]
      refine h1.bind fun t => ?_
      simp only [hz, not_true_eq_false, if_false]
      exact ih.bind fun t' => .ok

end Verif
