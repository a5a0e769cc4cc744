import Verif.Spec.FormatBack
import Verif.Proofs.FormatClass
import Verif.Proofs.EncMono
import Verif.Proofs.ExactMain
import Verif.Props.RoundTrip
/-
Lemmas for the documented byte format: the values come back.
-/
namespace Verif
open Spec Sem

variable {bo : ByteOrder} {cf : ClassId → Bool} {env : Env} {t : Bool}

/-! ### Sums of basic types -/

theorem pack_toks {s : StructSer} {P : Platform} {vs : List Val} {b : Bytes} (h : s.pack P vs = .ok b) :
    packToks P s.byteOrder s.toks 0 vs = .ok b ∧ vs.length = s.numValues ∧ b.length = s.size := by
  have hl := structSer_pack_length h
  simp only [StructSer.pack, structPack] at h
  split at h
  · exact ⟨h, by assumption, by simpa using hl⟩
  · cases h

theorem storedToks_append {P : Platform} {nat : Bool} {t2 : List Tok} {b : List Val} : ∀ {t1 : List Tok} {a : List Val}, a.length = numVals t1 →
    storedToks P nat (t1 ++ t2) (a ++ b) = storedToks P nat t1 a ++ storedToks P nat t2 b
  | [], a, h => by
    have : a = [] := List.length_eq_zero_iff.1 h
    subst this
    rfl
  | t :: t1, a, h => by
    have hn : numVals (t :: t1) = t.numVals + numVals t1 := by simp [numVals]
    have hl : t.numVals ≤ a.length := by omega
    simp only [List.cons_append, storedToks]
    rw [List.take_append_of_le_length hl, List.drop_append_of_le_length hl, storedToks_append (by rw [List.length_drop]; omega), List.append_assoc]

/-- What can be packed at one place can be packed at another. -/
theorem packToks_ok {P : Platform} : ∀ {ts : List Tok} {o : Nat} {vs : List Val} {b : Bytes} (o' : Nat), packToks P bo ts o vs = .ok b →
    ∃ b', packToks P bo ts o' vs = .ok b'
  | [], _, _, _, _, _ => ⟨[], rfl⟩
  | t :: ts, o, vs, b, o', h => by
    simp only [packToks] at h ⊢
    obtain ⟨⟨d, rest⟩, h1, h⟩ := Except.bind_ok' h
    obtain ⟨r, h2, h⟩ := Except.bind_ok' h
    obtain ⟨r', h3⟩ := packToks_ok (o' + padLen (t.c.align bo.isNative) o' + d.length) h2
    rw [h1]
    simp only [bind, Except.bind, h3]
    exact ⟨_, rfl⟩

theorem sumIn_pack {x y z : StructSer} {P : Platform} {vs : List Val} {b1 b2 : Bytes} (hc : SumIn bo x y z)
    (px : x.pack P (vs.take x.numValues) = .ok b1) (py : y.pack P ((vs.drop x.numValues).take y.numValues) = .ok b2) :
    ∃ b, z.pack P (vs.take z.numValues) = .ok b := by
  obtain ⟨ty, ly, _⟩ := pack_toks py
  obtain ⟨b', h⟩ := packToks_ok (0 + b1.length) ty
  exact ⟨_, hc.packAt (o := 0) (b2 := b') px (by rw [StructSer.packAt, if_pos ly, h])⟩

theorem sumIn_kept {x y z : StructSer} {P : Platform} {vs w1 w2 : List Val} {b1 b2 : Bytes} (hc : SumIn bo x y z)
    (px : x.pack P (vs.take x.numValues) = .ok b1) (py : y.pack P ((vs.drop x.numValues).take y.numValues) = .ok b2)
    (kx : x.kept P (vs.take x.numValues) = .ok w1) (ky : y.kept P ((vs.drop x.numValues).take y.numValues) = .ok w2) :
    z.kept P (vs.take z.numValues) = .ok (w1 ++ w2) := by
  obtain ⟨bz, pz⟩ := sumIn_pack hc px py
  obtain ⟨tx, lx, sx⟩ := pack_toks px
  obtain ⟨ty, ly, sy⟩ := pack_toks py
  obtain ⟨tz, _, _⟩ := pack_toks pz
  have hv : vs.take z.numValues = vs.take x.numValues ++ (vs.drop x.numValues).take y.numValues := by rw [hc.numValues, List.take_add]
  have e := unpackToks_stored [] tz
  have tz' := tz
  rw [hc.facts.toks.pack] at tz'
  have e' := unpackToks_stored [] tz'
  rw [hc.facts.toks.unpack, e', hv, storedToks_append lx] at e
  have ex := unpackToks_stored [] tx
  have ey := unpackToks_stored [] ty
  simp only [StructSer.kept] at kx ky ⊢
  have hlx : (storedToks P x.byteOrder.isNative x.toks (vs.take x.numValues)).length = x.numValues := by
    rw [← ex]; exact unpackToks_length ..
  have hly : (storedToks P y.byteOrder.isNative y.toks ((vs.drop x.numValues).take y.numValues)).length = y.numValues := by
    rw [← ey]; exact unpackToks_length ..
  have hyo : y.byteOrder = x.byteOrder := hc.ybo.trans hc.xbo.symm
  rw [hyo] at ky hly
  rw [hv, ← e, hc.facts.byteOrder, hc.facts.apply _ (by rw [List.length_append, hlx, hly])]
  unfold applyBoth
  have t1 : List.take x.numValues (storedToks P x.byteOrder.isNative x.toks (vs.take x.numValues) ++
      storedToks P x.byteOrder.isNative y.toks ((vs.drop x.numValues).take y.numValues)) = _ := List.take_left' hlx
  have t2 : List.drop x.numValues (storedToks P x.byteOrder.isNative x.toks (vs.take x.numValues) ++
      storedToks P x.byteOrder.isNative y.toks ((vs.drop x.numValues).take y.numValues)) = _ := List.drop_left' hlx
  rw [t1, t2, kx, ky]
  rfl

/-- The values that basic types get can be packed. -/
def Packs (P : Platform) (s : Ser) (vs : List Val) : Prop := ∀ st, s = .struct st → ∃ b, st.pack P vs = .ok b

/-- The parts of a compound keep the values: `p` is packed, `p'` is what has come back. -/
def KL (env : Env) (t l : Bool) (upd : Upd) (p : PObj) : PObj → Nat → List Ser → List Val → List Val → Prop
  | _, _, [], _, ws => ws = []
  | p', k, s :: ss, vs, ws => ∃ w1 w2 i1 q1 i2 q2 p2, ws = w1 ++ w2 ∧ Packs env.plat s (vs.take s.numValues) ∧
      pre s p = .ok (i1, q1) ∧ preU s p' = .ok (i2, q2) ∧ i1.numValues = s.numValues ∧ i2.isLazy = false ∧
      (∀ u, Kept env t (l && ss.isEmpty) u i1 i2 q1 q2 (vs.take s.numValues) w1) ∧ upd p' k w1 = .ok p2 ∧
      KL env t l upd p p2 (k + w1.length) ss (vs.drop s.numValues) w2

variable {upd : Upd} {p : PObj}

theorem kl_congr {l : Bool} {xs ys : List Ser} (he : xs.isEmpty = ys.isEmpty)
    (h : ∀ p' k vs ws, KL env t l upd p p' k xs vs ws → KL env t l upd p p' k ys vs ws) :
    ∀ (pr : List Ser) {p' : PObj} {k : Nat} {vs ws : List Val}, KL env t l upd p p' k (pr ++ xs) vs ws → KL env t l upd p p' k (pr ++ ys) vs ws
  | [], p', k, vs, ws, hk => h p' k vs ws hk
  | s :: pr, p', k, vs, ws, hk => by
    obtain ⟨w1, w2, i1, q1, i2, q2, p2, rfl, h1, h2, h3, h4, hz, h5, h6, h7⟩ := hk
    refine ⟨w1, w2, i1, q1, i2, q2, p2, rfl, h1, h2, h3, h4, hz, ?_, h6, kl_congr he h pr h7⟩
    have : (pr ++ xs).isEmpty = (pr ++ ys).isEmpty := by cases pr <;> simp_all
    show ∀ u, Kept env t (l && (pr ++ ys).isEmpty) _ _ _ _ _ _ _
    rw [← this]
    exact h5

theorem kept_struct_inv {l : Bool} {upd : Upd} {st : StructSer} {q q' : Option PObj} {vs ws : List Val}
    (h : Kept env t l upd (.struct st) (.struct st) q q' vs ws) : st.kept env.plat vs = .ok ws := by
  cases h; assumption

theorem kl_merge {l : Bool} (hu : UpdSeq upd) {xs ys : List Ser} (hm : Merge (SumIn bo) xs ys) (hn : ∀ x ∈ xs, x ≠ .null) {p' : PObj} {k : Nat}
    {vs ws : List Val} (h : KL env t l upd p p' k xs vs ws) : KL env t l upd p p' k ys vs ws := by
  induction hm generalizing vs ws with
  | refl => exact h
  | null => exact absurd rfl (hn .null (by simp))
  | @join pr post ys x y z hc _ ih =>
    refine ih ?_ (kl_congr (xs := .struct x :: .struct y :: post) (ys := .struct z :: post) rfl (fun p' k vs ws hk => ?_) pr h)
    · intro w hw
      simp only [List.mem_append, List.mem_cons] at hw
      rcases hw with hw | rfl | hw
      · exact hn w (by simp [hw])
      · nofun
      · exact hn w (by simp [hw])
    · obtain ⟨w1, w', i1, q1, i2, q2, p2, rfl, a1, e1, e2, _, _, a3, u1, w2, w3, j1, r1, j2, r2, p3, rfl, b1, f1, f2, _, _, b3, u2, hk⟩ := hk
      cases e1; cases e2; cases f1; cases f2
      obtain ⟨c1, d1⟩ := a1 x rfl
      obtain ⟨c2, d2⟩ := b1 y rfl
      have k1 := kept_struct_inv (a3 noUpd)
      have k2 := kept_struct_inv (b3 noUpd)
      simp only [Ser.numValues] at k1 k2 d1 d2 hk
      refine ⟨w1 ++ w2, w3, .struct z, none, .struct z, none, p3, by simp, ?_, rfl, rfl, rfl, rfl, ?_, ?_, ?_⟩
      · rintro _ e
        cases e
        exact sumIn_pack hc d1 d2
      · intro u
        exact .struct _ _ _ _ _ _ _ (sumIn_kept hc d1 d2 k1 k2)
      · exact (hu.append p' k w1 w2 p3).2 ⟨p2, u1, u2⟩
      · simp only [Ser.numValues, hc.numValues, ← List.drop_drop, List.length_append, ← Nat.add_assoc]
        exact hk

theorem preU_same {s : Ser} {p : PObj} {q : Option PObj} (h : pre s p = .ok (s, q)) : preU s p = .ok (s, q) := by
  cases s <;> try exact h
  simp only [pre] at h
  cases h

theorem kl_loop {l : Bool} : ∀ {ss : List Ser} {p' : PObj} {k : Nat} {vs ws : List Val}, (∀ s ∈ ss, s.overridesPre = false) →
    KL env t l upd p p' k ss vs ws → KeptLoop env t l ss vs ws
  | [], p', k, vs, ws, _, h => by cases h; exact .nil ..
  | s :: ss, p', k, vs, ws, hk, h => by
    obtain ⟨w1, w2, i1, q1, i2, q2, p2, rfl, _, e1, e2, _, _, h3, _, h4⟩ := h
    have ho := hk s (by simp)
    rw [pre_overrides ho] at e1
    rw [preU_same (pre_overrides ho p')] at e2
    cases e1; cases e2
    exact .cons _ _ _ _ _ _ (h3 noUpd) (kl_loop (fun x hx => hk x (by simp [hx])) h4)

theorem kl_spec {l : Bool} : ∀ {ss : List Ser} {p' : PObj} {k : Nat} {vs ws : List Val},
    KL env t l upd p p' k ss vs ws → KeptSpec env t l upd p p' k ss vs ws
  | [], p', k, vs, ws, h => by cases h; exact .nil ..
  | s :: ss, p', k, vs, ws, h => by
    obtain ⟨w1, w2, i1, q1, i2, q2, p2, rfl, _, e1, e2, hn, _, h3, hp, h4⟩ := h
    rw [← hn] at h3 h4
    exact .cons _ _ _ _ _ _ _ _ _ _ _ _ _ _ _ e1 e2 (h3 noUpd) hp (kl_spec h4)

/-- A sum of fields keeps what the fields keep. -/
theorem whole_kept {l : Bool} {s : Ser} {ss : List Ser} {vs ws : List Val} {p' : PObj} (hm : Merge (SumIn bo) ss (parts s))
    (hn : ∀ x ∈ ss, x ≠ .null) (hs : Simple s ∨ ∃ id xs, s = .compound id xs) (hl : vs.length = (ss.map Ser.numValues).sum)
    (hu : UpdSeq upd) (h : KL env t l upd p p' 0 ss vs ws) :
    ∃ s1 q1 s2 q2, pre s p = .ok (s1, q1) ∧ preU s p' = .ok (s2, q2) ∧ Kept env t l upd s1 s2 q1 q2 vs ws ∧ (Simple s → s2.isLazy = false) := by
  have hk := kl_merge hu hm hn h
  rcases hs with hs | ⟨id, xs, rfl⟩
  · rcases parts_simple hs with ⟨hp, rfl⟩ | hp
    · rw [hp] at hk
      cases hk
      exact ⟨.null, none, .null, none, rfl, rfl, .null .., fun _ => rfl⟩
    · have hnv : vs.length = s.numValues := by rw [hl, merge_numValues hm, hp]; simp
      rw [hp] at hk
      obtain ⟨w1, w2, i1, q1, i2, q2, p2, rfl, _, e1, e2, _, hz, h3, _, h4⟩ := hk
      cases h4
      have h3 := h3 upd
      rw [List.take_of_length_le (by omega)] at h3
      rw [List.append_nil]
      exact ⟨i1, q1, i2, q2, e1, e2, by simpa using h3, fun _ => hz⟩
  · simp only [parts] at hk
    by_cases hnp : needsPreprocess xs = true
    · refine ⟨.specialized id p xs, none, .specialized id p' xs, none, by simp [pre, hnp], by simp [preU, pre, hnp], ?_⟩
      exact ⟨.specialized _ _ _ _ _ _ _ _ _ _ (kl_spec hk), (by intro h; cases h)⟩
    · refine ⟨.compound id xs, none, .compound id xs, none, by simp [pre, hnp], by simp [preU, pre, hnp], ?_⟩
      exact ⟨.compound _ _ _ _ _ _ _ _ (kl_loop (fun x hx => Threads.needs_false hnp x hx) hk), (by intro h; cases h)⟩

/-! ### Formats -/

/-- A value that is written comes back as `bk` says. -/
def KeepsW (env : Env) (t : Bool) (s1 s2 : Ser) (q1 q2 : Option PObj) (w : Val → Option Bytes) (bk : Bool → Val → Option Val) : Prop :=
  ∀ l v v' b, w v = some b → bk l v = some v' → ∀ upd, Kept env t l upd s1 s2 q1 q2 [v] [v']

/-- What comes back of an object, before all of it has come back. -/
structure Mirror (us : Bool) (p p' : PObj) : Prop where
  proxy : p'.isProxy = true
  cls : p'.cls = p.cls
  noCls : us = true → getAttr? p'.attrs "cls" = none

theorem Mirror.mono {us us' : Bool} {p p' : PObj} (h : Mirror us p p') (hs : us' = true → us = true) : Mirror us' p p' :=
  ⟨h.proxy, h.cls, fun h' => h.noCls (hs h')⟩

/-- Values that are written come back as `bk` says, whatever the objects; `us` tells whether `Self` is used. -/
def Keeps1 (env : Env) (t us : Bool) (s : Ser) (w : PObj → Val → Option Bytes) (bk : PObj → PObj → Bool → Val → Option Val) : Prop :=
  ∀ p p', Mirror us p p' → ∃ s1 q1 s2 q2, pre s p = .ok (s1, q1) ∧ preU s p' = .ok (s2, q2) ∧ s2.isLazy = false ∧
    KeepsW env t s1 s2 q1 q2 (w p) (bk p p')

theorem Keeps1.leaf {us : Bool} {s : Ser} {w : PObj → Val → Option Bytes} {bk : PObj → PObj → Bool → Val → Option Val} (hs : s.overridesPre = false)
    (h : ∀ p p', Mirror us p p' → KeepsW env t s s none none (w p) (bk p p')) : Keeps1 env t us s w bk := by
  intro p p' ht
  refine ⟨s, none, s, none, pre_overrides hs p, preU_same (pre_overrides hs p'), ?_, h p p' ht⟩
  cases s <;> first | rfl | cases hs

theorem Keeps1.same {us : Bool} {s : Ser} {w : PObj → Val → Option Bytes} {bk : PObj → PObj → Bool → Val → Option Val}
    (h : Keeps1 env t us s w bk) (hs : s.overridesPre = false) {p p' : PObj} (ht : Mirror us p p') : KeepsW env t s s none none (w p) (bk p p') := by
  obtain ⟨s1, q1, s2, q2, e1, e2, _, hk⟩ := h p p' ht
  rw [pre_overrides hs] at e1
  rw [preU_same (pre_overrides hs p')] at e2
  cases e1; cases e2
  exact hk

theorem Keeps1.kept {us : Bool} {s : Ser} {w : PObj → Val → Option Bytes} {bk : PObj → PObj → Bool → Val → Option Val}
    (hs : ∀ p, pre s p = .ok (s, some p)) (hz : s.isLazy = false)
    (h : ∀ p p', Mirror us p p' → KeepsW env t s s (some p) (some p') (w p) (bk p p')) : Keeps1 env t us s w bk :=
  fun p p' ht => ⟨s, some p, s, some p', hs p, preU_same (hs p'), hz, h p p' ht⟩

theorem items_kept {s1 s2 : Ser} {q1 q2 : Option PObj} {w : Val → Option Bytes} {bk : Bool → Val → Option Val}
    (hk : KeepsW env t s1 s2 q1 q2 w bk) :
    ∀ (vs ws : List Val) (b : Bytes), gather w vs = some b → backAll (bk false) vs = some ws → KeptItems env t s1 s2 q1 q2 vs ws
  | [], ws, b, _, h => by cases h; exact .nil ..
  | v :: vs, ws, b, hw, h => by
    simp only [gather] at hw
    split at hw
    · rename_i b1 b2 e1 e2
      simp only [backAll] at h
      split at h
      · rename_i w' ws' f1 f2
        cases h
        exact .cons _ _ _ _ _ _ [w'] _ (hk false v w' b1 e1 f1 noUpd) (items_kept hk vs ws' b2 e2 f2)
      · cases h
    · cases hw

theorem basic_keeps {us : Bool} {tk : Tok} {s : Ser} {w : PObj → Val → Option Bytes} {bk : PObj → PObj → Bool → Val → Option Val} (h : IsItem bo tk s)
    (hk : ∀ p p' nat l v v', bk p p' l v = some v' → storedToks env.plat nat [tk] [v] = [v']) : Keeps1 env t us s w bk := by
  obtain ⟨st, rfl, h⟩ := h
  refine .leaf rfl fun p p' _ l v v' b hw hb upd => .struct _ _ _ _ _ _ _ ?_
  simp only [StructSer.kept, StructSer.applyActions, h.toks, h.acts, hk p p' _ l v v' hb]

/-- Items of a fixed-length array of a basic type. -/
theorem static_kept {st : StructSer} {ser : Option StructSer} {tk : Tok} {w : Val → Option Bytes} {bk : Bool → Val → Option Val}
    (hb : OneTok bo tk st) (hn : tk.numVals = 1) (hw : EncW env (.struct st) none w) (hk : KeepsW env t (.struct st) (.struct st) none none w bk)
    {vs ws : List Val} {b : Bytes} (h1 : gather w vs = some b) (h2 : backAll (bk false) vs = some ws) (hm : st.mul vs.length = .ok ser) :
    keptOpt env.plat ser vs = .ok ws := by
  have hp := each_gather (env := env) (fun v b hv => writes_pack hw hv) vs b h1
  rw [← mul_pack_each hb.toks hn hb.single hm] at hp
  have he : ∀ (vs ws : List Val) (b : Bytes), gather w vs = some b → backAll (bk false) vs = some ws → KeptEach env.plat st vs ws := by
    intro vs
    induction vs with
    | nil => intro ws b _ h; cases h; exact .nil
    | cons v vs ih =>
      intro ws b hw h
      simp only [gather] at hw
      split at hw
      · rename_i b1 b2 e1 e2
        simp only [backAll] at h
        split at h
        · rename_i w' ws' f1 f2
          cases h
          have := hk false v w' b1 e1 f1 noUpd
          cases this with | struct _ _ _ _ _ _ _ k =>
          exact .cons _ _ _ _ k (ih ws' b2 e2 f2)
        · cases h
      · cases hw
  obtain ⟨_, hk2⟩ := kept_rep hb.toks hn (fun as ha => by
    rw [hb.valid.acts as ha]
    simp [StructSer.numValues, hb.toks, numVals, hn]) (he vs ws b h1 h2)
  by_cases hv : vs = []
  · subst hv
    cases hm
    simp only [backAll, Option.some.injEq] at h2
    subst h2
    rfl
  · obtain ⟨c, e1, e2, e3, _, e5, _⟩ := mul_toks (a := st) (n := vs.length) (List.length_pos_iff.2 hv) (by rw [hb.toks]; simp) hb.single
    rw [e1] at hm
    cases hm
    obtain ⟨tc, _, _⟩ := pack_toks (show c.pack env.plat vs = .ok b from hp)
    have s1 := unpackToks_stored [] tc
    rw [e3.pack] at tc
    have s2 := unpackToks_stored [] tc
    rw [e3.unpack] at s1
    show c.kept env.plat vs = _
    simp only [StructSer.kept, StructSer.applyActions, e5]
    rw [← s1, s2, hb.toks, e2, storedToks_rep hn]
    cases ha : st.actions <;> rw [ha] at hk2 <;> exact hk2

theorem sum_structs {id : SerId} : ∀ (ss : List Ser) (acc s : Ser), (acc = .null ∨ ∃ x, acc = .struct x) → (∀ x ∈ ss, ∃ st, x = .struct st) →
    ss.foldlM (fun (acc : Ser) s => acc.add cf id s) acc = .ok s → Simple s
  | [], acc, s, ha, _, h => by
    cases h
    rcases ha with rfl | ⟨x, rfl⟩ <;> rfl
  | y :: ss, acc, s, ha, hs, h => by
    obtain ⟨st, rfl⟩ := hs y (by simp)
    simp only [List.foldlM_cons] at h
    obtain ⟨acc', h1, h2⟩ := Except.bind_ok' h
    refine sum_structs ss acc' s ?_ (fun x hx => hs x (by simp [hx])) h2
    rcases ha with rfl | ⟨x, rfl⟩
    · cases h1; exact .inr ⟨_, rfl⟩
    · simp only [Ser.add, Ser.addSimple] at h1
      obtain ⟨z, _, h1⟩ := Except.bind_ok' h1
      cases h1
      exact .inr ⟨_, rfl⟩

theorem is_basic_struct {f : Fmt} {s : Ser} (hf : f.basic.isSome) (h : f.Is cf bo s) : ∃ st, s = .struct st := by
  cases f <;> simp only [Fmt.basic] at hf <;> try cases hf
  all_goals
    simp only [Fmt.Is] at h
    obtain ⟨st, rfl, _⟩ := h
    exact ⟨_, rfl⟩

variable {W : ClassId → Val → Option Bytes} {B : Bool → ClassId → Val → Option Val}

/-- The objects of each class come back as `B` says. -/
def ObjKeeps (env : Env) (t : Bool) (W : ClassId → Val → Option Bytes) (B : Bool → ClassId → Val → Option Val) : Prop :=
  ∀ l c v v' b, W c v = some b → B l c v = some v' → KeptObj env t l c v v'

/-- Each serializer keeps the values of its format. -/
def AllK (env : Env) (t : Bool) (bo : ByteOrder) (W : ClassId → Val → Option Bytes) (B : Bool → ClassId → Val → Option Val) : List Fmt → List Ser → Prop
  | [], ss => ss = []
  | f :: fs, ss => ∃ x xs, ss = x :: xs ∧
      Keeps1 env t f.usesSelf x (fun o v => f.write env.plat bo W o v) (fun o o' l v => f.back env.plat t W B o o' l v) ∧ AllK env t bo W B fs xs

theorem allK_kl {l : Bool} {p p' : PObj} : ∀ {fs : List Fmt} {ss : List Ser} {vs ws : List Val} {b : Bytes} {o : Nat}, Mirror (Fmt.anySelf fs) p p' → ∀ k : Nat,
    AllW env bo W fs ss → AllK env t bo W B fs ss → Fmt.writes env.plat bo W p o fs vs = some b →
    Fmt.backs env.plat t W B p p' fs l vs = some ws → vs.length = (ss.map Ser.numValues).sum ∧ KL env t l noUpd p p' k ss vs ws
  | [], ss, vs, ws, b, o, _, k, h1, h2, hw, hb => by
    cases h1
    cases vs with
    | nil => cases hb; exact ⟨rfl, rfl⟩
    | cons => cases hb
  | f :: fs, ss, vs, ws, b, o, ht, k, h1, h2, hw, hb => by
    obtain ⟨x, xs, rfl, h1, h1'⟩ := h1
    obtain ⟨y, ys, e, h2, h2'⟩ := h2
    cases e
    cases vs with
    | nil => cases hb
    | cons v vs =>
      simp only [Fmt.writes] at hw
      simp only [Fmt.backs] at hb
      split at hw
      · rename_i b1 b2 e1 e2
        split at hb
        · rename_i w ws' f1 f2
          cases hb
          obtain ⟨hl, hk⟩ := allK_kl (ht.mono fun e => by simp [Fmt.anySelf, e]) (k + 1) h1' h2' e2 f2
          obtain ⟨s1, q1, s2, q2, g1, g2, g3, g4⟩ := h2 p p' (ht.mono fun e => by simp [Fmt.anySelf, e])
          have hemp : fs.isEmpty = xs.isEmpty := by
            cases fs with
            | nil => cases h1'; rfl
            | cons => obtain ⟨_, _, rfl, _⟩ := h1'; rfl
          obtain ⟨z1, zq, z2, z3⟩ := h1.enc p
          rw [g1] at z2
          cases z2
          refine ⟨by simp [hl, h1.one]; omega, [w], ws', s1, q1, s2, q2, p', rfl, ?_, g1, g2, ?_, g3, ?_, rfl, ?_⟩
          · rintro st rfl
            rw [h1.one]
            cases g1
            exact ⟨b1, writes_pack z3 e1⟩
          · rw [z3.one, h1.one]
          · intro u
            rw [h1.one, ← hemp]
            exact g4 _ v w b1 e1 f1 u
          · rw [h1.one]
            exact hk
        · cases hb
      · cases hw

theorem allK_at {l : Bool} {p p' : PObj} : ∀ {fs : List Fmt} {ss : List Ser} {k : Nat} {v v' : Val} {b : Bytes}, AllW env bo W fs ss →
    AllK env t bo W B fs ss → Fmt.writeAt env.plat bo W p fs k v = some b → Fmt.backAt env.plat t W B p p' fs k l v = some v' →
    ∃ x f, ss[k]? = some x ∧ fs[k]? = some f ∧
      Keeps1 env t f.usesSelf x (fun o v => f.write env.plat bo W o v) (fun o o' l v => f.back env.plat t W B o o' l v) ∧
      (f.usesSelf = true → Fmt.anySelf fs = true) ∧
      ∀ s1 s2 q1 q2, KeepsW env t s1 s2 q1 q2 (fun v => f.write env.plat bo W p v) (fun l v => f.back env.plat t W B p p' l v) →
        ∀ upd, Kept env t l upd s1 s2 q1 q2 [v] [v']
  | [], _, k, v, v', b, _, _, hv, _ => by cases hv
  | f :: fs, _, 0, v, v', b, h, h', hv, hb => by
    obtain ⟨x, xs, rfl, h1, h2⟩ := h'
    exact ⟨x, f, rfl, rfl, h1, (fun e => by simp [Fmt.anySelf, e]), fun s1 s2 q1 q2 hk upd => hk l v v' b hv hb upd⟩
  | f :: fs, _, k + 1, v, v', b, h, h', hv, hb => by
    obtain ⟨x, xs, rfl, h1, h2⟩ := h'
    obtain ⟨y, ys, e, _, h3⟩ := h
    cases e
    obtain ⟨y, g, i1, i2, i3, i4, i5⟩ := allK_at h3 h2 (show Fmt.writeAt env.plat bo W p fs k v = some b from hv)
      (show Fmt.backAt env.plat t W B p p' fs k l v = some v' from hb)
    exact ⟨y, g, by simpa using i1, by simpa using i2, i3, (fun e => by simp [Fmt.anySelf, i4 e]), i5⟩

theorem dflt_is {ds : List Ser} {other : List Fmt} {x : Ser} (h : AllW env bo W other ds) (hx : ds[0]? = some x) : ds.headD .null = x ∧ x ≠ .null := by
  cases other with
  | nil => cases h; cases hx
  | cons f fs =>
    obtain ⟨y, ys, rfl, h1, _⟩ := h
    cases hx
    refine ⟨rfl, ?_⟩
    rintro rfl
    exact absurd h1.one (by decide)

theorem allW_only {p : PObj} {fs : List Fmt} {ss : List Ser} {k : Nat} {v : Val} {b : Bytes} {x s1 : Ser} {q1 : Option PObj} (h : AllW env bo W fs ss)
    (hx : ss[k]? = some x) (hp : pre x p = .ok (s1, q1)) (hw : Fmt.writeAt env.plat bo W p fs k v = some b) :
    ∀ n e, enc env n s1 q1 [v] = .ok e → e.bytes = b := by
  intro n e he
  obtain ⟨y, f, i1, i2, i3, i4⟩ := allW_at h hw
  rw [hx] at i1
  cases i1
  obtain ⟨z1, zq, z2, z3⟩ := i3.enc p
  rw [hp] at z2
  cases z2
  exact z3.only i4 he

/-- The key that a union looks ahead for. -/
theorem ahead_key {a : Ahead} {st : StructSer} {r : Val} {b : Bytes} {s1 : Ser} {q1 : Option PObj} {v : Val} {keys : List Val} {os : List Ser}
    {d s : Ser} (hst : BasicSer .default a.tok st) (hr : a.begins env.plat r b = true) (ho : ∀ n e, enc env n s1 q1 [v] = .ok e → e.bytes = b)
    (hu : unionPick keys os d r = .ok s) :
    ∀ n e, enc env n s1 q1 [v] = .ok e → ∃ hr key, dec env 1 noUpd (.struct st) none (.buf e.bytes) = .ok hr ∧ first hr.vals = .ok key ∧
      unionPick keys os d key = .ok s := by
  intro n e he
  rw [ho n e he]
  obtain ⟨m, hp, hk⟩ : ∃ m, st.pack env.plat [r] = .ok (b.take m) ∧ st.kept env.plat [r] = .ok [r] := by
    cases a with
    | int sg w =>
      cases r <;> simp only [Ahead.begins, Bool.and_eq_true, decide_eq_true_eq] at hr <;> try cases hr
      rename_i i hi ht
      refine ⟨w.bytes, by rw [ht]; exact int_writes (P := env.plat) hst.toks hst.order hi, ?_⟩
      simp only [StructSer.kept, StructSer.applyActions, hst.acts, hst.toks]
      rfl
    | chars k =>
      cases r <;> simp only [Ahead.begins, Bool.and_eq_true, decide_eq_true_eq] at hr <;> try cases hr
      rename_i d' hi ht
      refine ⟨k, ?_, ?_⟩
      · rw [ht, str_pack hst.toks]
        simp only [asBytes_bytes]
        congr 1
        simp only [fitTo]
        rw [List.take_of_length_le (by omega), hi, Nat.sub_self, List.replicate_zero, List.append_nil]
      · simp only [StructSer.kept, StructSer.applyActions, hst.acts, hst.toks]
        simp only [storedToks, storedTok, Tok.numVals, Ahead.tok, fitTo, List.map_cons, List.map_nil, List.take, List.append_nil, asBytes_bytes, Option.getD_some]
        rw [List.take_of_length_le (by omega), hi, Nat.sub_self, List.replicate_zero, List.append_nil]
  obtain ⟨_, hdec⟩ := structDec_kept (src := .buf b) (rest := b.drop m) hp (by rw [List.take_append_drop]; rfl)
  rw [hk] at hdec
  refine ⟨⟨[r], st.size, (PSrc.buf b).ahead (b.take m).length, []⟩, r, ?_, rfl, hu⟩
  simp only [dec, hdec]
  rfl

mutual
theorem is_keeps (hW : ObjWrites env W) (hB : ObjKeeps env t W B) : ∀ (f : Fmt) (bo : ByteOrder) (s : Ser), f.good bo = true → f.Is cf bo s →
    Keeps1 env t f.usesSelf s (fun o v => f.write env.plat bo W o v) (fun o o' l v => f.back env.plat t W B o o' l v)
  | .int sg w, bo, s, _, h => by
    refine basic_keeps h fun _ _ nat l v v' hb => ?_
    simp only [Fmt.back] at hb
    split at hb
    · cases hb; rfl
    · cases hb
  | .bool, bo, s, _, h => by
    refine basic_keeps h fun _ _ nat l v v' hb => ?_
    simp only [Fmt.back] at hb
    split at hb
    · cases hb; rfl
    · cases hb
  | .half, bo, s, _, h => by
    refine basic_keeps h fun _ _ nat l v v' hb => ?_
    simp only [Fmt.back] at hb
    split at hb
    · obtain ⟨u, hu, rfl⟩ := Option.map_eq_some_iff.1 hb
      simp [storedToks, storedTok, storedOne, Tok.numVals, Val.asFloat, Val.strip, hu]
    · cases hb
  | .single, bo, s, _, h => by
    refine basic_keeps h fun _ _ nat l v v' hb => ?_
    simp only [Fmt.back] at hb
    split at hb
    · rename_i f
      split at hb
      · rename_i h2
        obtain ⟨u, hu, rfl⟩ := Option.map_eq_some_iff.1 hb
        have : env.plat.packF32 nat f = some u := by
          cases nat
          · exact h2.symm.trans hu
          · exact hu
        simp [storedToks, storedTok, storedOne, Tok.numVals, Val.asFloat, Val.strip, this]
      · cases hb
    · cases hb
  | .via _ f _ _ make, bo, s, hg, h => by
    obtain ⟨st, rfl, hd, h⟩ := h
    simp only [Fmt.good, Bool.and_eq_true] at hg
    have ih := is_keeps hW hB f bo _ hg.2 h
    obtain ⟨tk, ⟨_, e, h1⟩, h2⟩ := is_direct hd h
    cases e
    refine .leaf rfl fun p p' hm l v v' b hw hb upd => .struct _ _ _ _ _ _ _ ?_
    simp only [Fmt.write] at hw
    simp only [Fmt.back] at hb
    obtain ⟨u, hu, rfl⟩ := Option.map_eq_some_iff.1 hb
    have hk := ih.same rfl (hm.mono fun e => by cases f <;> first | (cases hd; done) | (cases e; done)) l _ _ b hw hu upd
    cases hk with | struct _ _ _ _ _ _ _ k =>
    simp only [StructSer.kept, StructSer.applyActions, h1.acts, h1.toks, stored_meant _ _ h2, Except.ok.injEq] at k
    show StructSer.runActions _ (storedToks env.plat _ st.toks [v]) = _
    rw [h1.toks, show (st.made make).byteOrder = st.byteOrder from rfl, k]
    rfl
  | .pascal k, bo, s, _, h => by
    refine basic_keeps h fun _ _ nat l v v' hb => ?_
    simp only [Fmt.back] at hb
    split at hb
    · split at hb
      · rename_i d hd
        cases hb
        simp only [storedToks, storedTok, Tok.numVals, List.take_succ_cons, List.take_zero, List.map_cons, List.map_nil, List.append_nil,
          asBytes_bytes, Option.getD_some]
        rw [List.take_of_length_le (by omega)]
      · cases hb
    · cases hb
  | .net, bo, s, _, h => by
    obtain ⟨id, rfl⟩ := h
    refine .leaf rfl fun p p' ht l v v' b hw hb upd => ?_
    simp only [Fmt.back] at hb
    split at hb
    · cases hb
      rename_i d
      refine .net _ _ _ _ _ _ _ rfl ?_
      simp only [Fmt.write] at hw
      split at hw
      · cases hw
      · obtain ⟨u, hu, _⟩ := Option.map_eq_some_iff.1 hw
        unfold netLength at hu
        split at hu
        · exact .inl (by assumption)
        · split at hu
          · rename_i h2
            simp only [Bool.and_eq_true] at h2
            exact .inr h2.1
          · cases hu
    · cases hb
  | .double, bo, s, _, h => by
    refine basic_keeps h fun _ _ nat l v v' hb => ?_
    simp only [Fmt.back] at hb
    split at hb
    · cases hb; rfl
    · cases hb
  | .chars k, bo, s, _, h => by
    refine basic_keeps h fun _ _ nat l v v' hb => ?_
    simp only [Fmt.back] at hb
    split at hb
    · split at hb
      · rename_i d hd
        cases hb
        simp only [storedToks, storedTok, Tok.numVals, List.take_succ_cons, List.take_zero, List.map_cons, List.map_nil, List.append_nil,
          asBytes_bytes, Option.getD_some, fitTo]
        rw [List.take_of_length_le (by omega)]
      · cases hb
    · cases hb
  | .counted w, bo, s, _, h => by
    obtain ⟨id, rfl⟩ := h
    refine .leaf rfl fun p p' ht l v v' b _ hb upd => ?_
    simp only [Fmt.back] at hb
    split at hb
    · cases hb
      exact .dynChar _ _ _ _ _ _ _ _ (intSer_isCount (w.mem false) bo) rfl
    · cases hb
  | .until tm, bo, s, _, h => by
    obtain ⟨id, rfl⟩ := h
    refine .leaf rfl fun p p' ht l v v' b hw hb upd => ?_
    simp only [Fmt.back] at hb
    split at hb
    · split at hb
      · rename_i ht
        cases hb
        simp only [Fmt.write] at hw
        split at hw
        · cases hw
        · exact .terminated _ _ _ _ _ _ _ _ ht rfl (by assumption)
      · cases hb
    · cases hb
  | .rest, bo, s, _, h => by
    obtain ⟨id, rfl⟩ := h
    refine .leaf rfl fun p p' ht l v v' b _ hb upd => ?_
    simp only [Fmt.back] at hb
    split at hb
    · split at hb
      · rename_i ht
        cases hb
        subst ht
        exact .consuming _ _ _ _ _ _ rfl
      · cases hb
    · cases hb
  | .text f en de, bo, s, hg, h => by
    obtain ⟨y, rfl, h⟩ := h
    simp only [Fmt.good, Bool.and_eq_true, decide_eq_true_eq] at hg
    obtain ⟨⟨rfl, hbr⟩, hg⟩ := hg
    have ih := is_keeps hW hB f .default y hg h
    have hk := plain_overrides (bracket_plain hbr) h
    refine .leaf rfl fun p p' ht l v v' b hw hb upd => ?_
    have ih := ih.same hk ht
    simp only [Fmt.write] at hw
    simp only [Fmt.back] at hb
    split at hw
    · rename_i d hd
      rw [hd] at hb
      simp only at hb
      split at hb
      · rename_i d' hd'
        split at hb
        · rename_i str hs
          cases hb
          refine .unicode _ _ _ _ _ _ _ _ _ _ _ hd (ih l _ _ b hw hd' noUpd) ?_
          simp only [unicodeDecode, first, bind, Except.bind, hs]
          rfl
        · cases hb
      · cases hb
    · cases hw
  | .fixed k item, bo, s, hg, h => by
    simp only [Fmt.good] at hg
    rcases h with ⟨st, ser, rfl, hbs, hi, hm⟩ | ⟨id, y, rfl, _, hi⟩
    · refine .leaf rfl fun p p' ht l v v' b hw hb upd => ?_
      simp only [Fmt.write] at hw
      split at hw
      · rename_i vs
        split at hw
        · rename_i hl
          subst hl
          simp only [Fmt.back, Option.map_eq_some_iff] at hb
          obtain ⟨ws, hb, rfl⟩ := hb
          obtain ⟨tk, h1, h2⟩ := is_basic_toks hbs hi
          exact .staticArr _ _ _ _ _ _ _ _ _ _ rfl
            (static_kept h1 h2 ((is_writes hW item bo _ hg hi).same rfl p) ((is_keeps hW hB item bo _ hg hi).same rfl ht) hw hb hm)
        · cases hw
      · cases hw
    · refine .kept (fun _ => rfl) rfl fun p p' ht l v v' b hw hb upd => ?_
      simp only [Fmt.write] at hw
      split at hw
      · rename_i vs
        split at hw
        · simp only [Fmt.back, Option.map_eq_some_iff] at hb
          obtain ⟨ws, hb, rfl⟩ := hb
          obtain ⟨i1, q1, i2, q2, e1, e2, _, hk⟩ := is_keeps hW hB item bo y hg hi p p' ht
          refine .array _ _ _ _ _ _ _ _ _ _ _ _ _ _ _ ?_ rfl e1 e2 (items_kept hk vs ws b hw hb)
          simp [hdrOk]
        · cases hw
      · cases hw
  | .list w item, bo, s, hg, h => by
    simp only [Fmt.good, Bool.and_eq_true] at hg
    obtain ⟨id, y, rfl, hi⟩ := h
    refine .kept (fun _ => rfl) rfl fun p p' ht l v v' b hw hb upd => ?_
    simp only [Fmt.write] at hw
    split at hw
    · rename_i vs
      split at hw
      · rename_i d hd
        simp only [Fmt.back, Option.map_eq_some_iff] at hb
        obtain ⟨ws, hb, rfl⟩ := hb
        obtain ⟨i1, q1, i2, q2, e1, e2, _, hk⟩ := is_keeps hW hB item bo y hg.1 hi p p' ht
        refine .array _ _ _ _ _ _ _ _ _ _ _ _ _ _ _ ?_ rfl e1 e2 (items_kept hk vs ws d hd hb)
        cases w <;> cases bo <;> rfl
      · cases hw
    · cases hw
  | .sized w w2 item, bo, s, hg, h => by
    simp only [Fmt.good, Bool.and_eq_true] at hg
    obtain ⟨hg, _⟩ := hg
    obtain ⟨id, y, hd, rfl, ha, hi⟩ := h
    refine .kept (fun _ => rfl) rfl fun p p' ht l v v' b hw hb upd => ?_
    simp only [Fmt.write] at hw
    split at hw
    · rename_i vs
      split at hw
      · rename_i d hd'
        simp only [Fmt.back, Option.map_eq_some_iff] at hb
        obtain ⟨ws, hb, rfl⟩ := hb
        obtain ⟨i1, q1, i2, q2, e1, e2, _, hk⟩ := is_keeps hW hB item bo y hg hi p p' ht
        refine .array _ _ _ _ _ _ _ _ _ _ _ _ _ _ _ ?_ rfl e1 e2 (items_kept hk vs ws d hd' hb)
        cases w <;> cases w2 <;> cases bo <;> cases ha <;> rfl
      · cases hw
    · cases hw
  | .tup items, bo, s, hg, h => by
    simp only [Fmt.good, Bool.and_eq_true, decide_eq_true_eq] at hg
    obtain ⟨⟨⟨rfl, hg⟩, _⟩, _⟩ := hg
    obtain ⟨id, id', inner, ss, rfl, hi, hsum⟩ := h
    have hw1 := isL_writes hW items .default ss hg hi
    have hk1 := isL_keeps hW hB items .default ss hg hi
    obtain ⟨hm, hst⟩ := fields_sumIn (fun x hx => (isL_fieldOf hi x hx).1) hsum
    have hnn : ∀ x ∈ ss, x ≠ .null := fun x hx => (isL_fieldOf hi x hx).2
    refine .kept (fun _ => rfl) rfl fun p p' htw l v v' b hw hb upd => ?_
    simp only [Fmt.write] at hw
    split at hw
    · rename_i vs
      simp only [Fmt.back] at hb
      split at hb
      · rename_i hc
        simp only [Option.map_eq_some_iff] at hb
        obtain ⟨ws, hb, rfl⟩ := hb
        obtain ⟨hl, hkl⟩ := allK_kl htw 0 hw1 hk1 hw hb
        have hsimple : Simple inner := by
          simp only [Bool.or_eq_true, beq_iff_eq, List.all_eq_true] at hc
          rcases hc with hc | hc
          · refine sum_structs ss .null inner (.inl rfl) (fun x hx => ?_) hsum
            obtain ⟨f, hf, h1⟩ := isL_mem hi x hx
            exact is_basic_struct (hc f hf) h1
          · match items, hc, hi with
            | [f], _, hi =>
              obtain ⟨x, xs, rfl, h1, h2⟩ := hi
              cases h2
              cases hsum
              exact (is_fieldOf h1).1.1
        obtain ⟨s1, q1, s2, q2, e1, e2, e3, e4⟩ := whole_kept hm hnn (.inl hsimple) hl updSeq_noUpd hkl
        exact .tuple _ _ _ _ _ _ _ _ _ _ _ _ _ rfl e1 e2 (e4 hsimple) e3
      · cases hb
    · cases hw
  | .obj c, bo, s, _, h => by
    obtain ⟨id, rfl⟩ := h
    exact .leaf rfl fun p p' ht l v v' b hw hb upd => .structured _ _ _ _ _ _ _ _ _ (hB l c v v' b hw hb)
  | .me, bo, s, _, h => by
    obtain ⟨id, rfl⟩ := h
    intro p p' ht
    refine ⟨.structured id p.cls, none, .structured id p.cls, none, rfl, ?_, rfl,
      fun l v v' b hw hb upd => .structured _ _ _ _ _ _ _ _ _ (hB l p.cls v v' b hw hb)⟩
    simp only [preU, clsOfPartial, ht.noCls rfl, ht.proxy, if_true, ht.cls]
    rfl
  | .choice cid args ahead decider keys opts other, bo, s, hg, h => by
    simp only [Fmt.good, Bool.and_eq_true, decide_eq_true_eq] at hg
    obtain ⟨⟨⟨⟨rfl, hg1⟩, hg2⟩, _⟩, _⟩ := hg
    obtain ⟨os, ds, h1, h2, h3⟩ := h
    have w1 := isL_writes hW opts .default os hg1 h1
    have w2 := isL_writes hW other .default ds hg2 h2
    have k1 := isL_keeps hW hB opts .default os hg1 h1
    have k2 := isL_keeps hW hB other .default ds hg2 h2
    have us1 : Fmt.anySelf opts = true → (Fmt.choice cid args ahead decider keys opts other).usesSelf = true := by
      intro e; simp [Fmt.usesSelf, e]
    have us2 : Fmt.anySelf other = true → (Fmt.choice cid args ahead decider keys opts other).usesSelf = true := by
      intro e; simp [Fmt.usesSelf, e]
    rcases h3 with ⟨rfl, rfl⟩ | ⟨a, st, rfl, hst, rfl⟩
    · refine .kept (fun _ => rfl) rfl fun p p' ht l v v' b hw hb upd => ?_
      simp only [Fmt.write] at hw
      simp only [Fmt.back] at hb
      split at hw
      · rename_i r hr
        rw [hr] at hb
        simp only at hb
        split at hb
        · rename_i r' hr'
          split at hb
          · rename_i k hk
            rw [hk] at hw
            simp only at hw
            split at hb
            · rename_i hk'
              obtain ⟨x, f, i1, i2, i3, i4, i5⟩ := allK_at w1 k1 hw hb
              obtain ⟨s1, q1, s2, q2, e1, e2, e3, e4⟩ := i3 p p' (ht.mono fun e => us1 (i4 e))
              exact .lookback _ _ _ _ _ _ _ _ _ r r' x _ _ _ _ _ _ hr hr' (unionPick_key hk i1) (unionPick_key hk' i1) e1 e2 e3
                (i5 s1 s2 q1 q2 e4 noUpd)
            · cases hb
          · rename_i hk
            rw [hk] at hw
            simp only at hw
            split at hb
            · rename_i hk'
              simp only [Bool.and_eq_true, Option.isNone_iff_eq_none] at hk'
              split at hw
              · rename_i hh
                obtain ⟨x, f, i1, i2, i3, i4, i5⟩ := allK_at w2 k2 hw hb
                obtain ⟨s1, q1, s2, q2, e1, e2, e3, e4⟩ := i3 p p' (ht.mono fun e => us2 (i4 e))
                obtain ⟨hd, hx⟩ := dflt_is w2 i1
                rw [hd]
                exact .lookback _ _ _ _ _ _ _ _ _ r r' x _ _ _ _ _ _ hr hr' (unionPick_other hk hh hx)
                  (unionPick_other hk'.2 hk'.1 hx) e1 e2 e3 (i5 s1 s2 q1 q2 e4 noUpd)
              · cases hw
            · cases hb
        · cases hb
      · cases hw
    · refine .kept (fun _ => rfl) rfl fun p p' ht l v v' b hw hb upd => ?_
      simp only [Fmt.write] at hw
      simp only [Fmt.back] at hb
      split at hw
      · rename_i r hr
        rw [hr] at hb
        simp only at hb
        split at hb
        · rename_i k hk
          rw [hk] at hw
          simp only at hw
          rw [hw] at hb
          simp only at hb
          split at hb
          · rename_i hcond
            obtain ⟨x, f, i1, i2, i3, i4, i5⟩ := allK_at w1 k1 hw hb
            obtain ⟨s1, q1, s2, q2, e1, e2, e3, e4⟩ := i3 p p' (ht.mono fun e => us1 (i4 e))
            refine .lookahead _ _ _ _ _ _ _ _ _ _ r x _ _ _ _ _ _ rfl hr (unionPick_key hk i1) ?_ e1 e2 e3
              (i5 s1 s2 q1 q2 e4 noUpd)
            exact ahead_key hst hcond (allW_only w1 i1 e1 hw) (unionPick_key hk i1)
          · cases hb
        · rename_i hk
          rw [hk] at hw
          simp only at hw
          split at hw
          · rename_i hh
            rw [hw] at hb
            simp only at hb
            split at hb
            · rename_i hcond
              obtain ⟨x, f, i1, i2, i3, i4, i5⟩ := allK_at w2 k2 hw hb
              obtain ⟨s1, q1, s2, q2, e1, e2, e3, e4⟩ := i3 p p' (ht.mono fun e => us2 (i4 e))
              obtain ⟨hd, hx⟩ := dflt_is w2 i1
              rw [hd]
              refine .lookahead _ _ _ _ _ _ _ _ _ _ r x _ _ _ _ _ _ rfl hr (unionPick_other hk hh hx) ?_ e1 e2 e3
                (i5 s1 s2 q1 q2 e4 noUpd)
              exact ahead_key hst hcond (allW_only w2 i1 e1 hw) (unionPick_other hk hh hx)
            · cases hb
          · cases hw
      · cases hw
theorem isL_keeps (hW : ObjWrites env W) (hB : ObjKeeps env t W B) : ∀ (fs : List Fmt) (bo : ByteOrder) (ss : List Ser),
    Fmt.goods bo fs = true → Fmt.IsL cf bo fs ss → AllK env t bo W B fs ss
  | [], bo, ss, _, h => h
  | f :: fs, bo, ss, hg, h => by
    obtain ⟨x, xs, rfl, h1, h2⟩ := h
    simp only [Fmt.goods, Bool.and_eq_true] at hg
    exact ⟨x, xs, rfl, is_keeps hW hB f bo x hg.1 h1, isL_keeps hW hB fs bo xs hg.2 h2⟩
end

variable {ctx : HintCtx} {N : Nat}

theorem backFields_length {o : PObj} {l : Bool} {P : Platform} : ∀ {fs : List Field} {o' : PObj} {vs ws : List Val},
    backFields P t W B o fs o' l vs = some ws → ws.length = (fs.filter (!·.isPad)).length
  | [], o', vs, ws, h => by
    cases vs with
    | nil => cases h; rfl
    | cons => cases h
  | .pad _ _ :: fs, o', vs, ws, h => by
    simp only [backFields] at h
    have := backFields_length h
    simpa [Field.isPad] using this
  | .value _ f :: fs, o', vs, ws, h => by
    cases vs with
    | nil => cases h
    | cons v vs =>
      simp only [backFields] at h
      repeat' split at h
      all_goals first | (cases h; done) | skip
      rename_i h2
      cases h
      simp [Field.isPad, backFields_length h2]
  | .when _ _ f _ :: fs, o', vs, ws, h => by
    cases vs with
    | nil => cases h
    | cons v vs =>
      simp only [backFields] at h
      repeat' split at h
      all_goals first | (cases h; done) | skip
      all_goals
        rename_i h2
        cases h
        simp [Field.isPad, backFields_length h2]

/-- What has come back, with one more attribute. -/
theorem with_assign {c : ClassId} {as : List Name} {prev : List Val} {a : Name} {w : Val} {rest : List Name} (hn : as.Nodup) (hl : prev.length ≤ as.length)
    (ha : as.drop prev.length = a :: rest) :
    assignVals as ⟨c, true, as.zip prev⟩ prev.length [w] = .ok ((⟨c, true, as.zip prev⟩ : PObj).with a w) ∧
      (⟨c, true, as.zip prev⟩ : PObj).with a w = ⟨c, true, as.zip (prev ++ [w])⟩ ∧ as.drop (prev ++ [w]).length = rest ∧
      (prev ++ [w]).length ≤ as.length := by
  have h1 : (as.drop prev.length).length = rest.length + 1 := by rw [ha]; rfl
  rw [List.length_drop] at h1
  have hs : as = as.take prev.length ++ a :: rest := by rw [← ha, List.take_append_drop]
  have hz : (⟨c, true, as.zip prev⟩ : PObj).with a w = ⟨c, true, as.zip (prev ++ [w])⟩ := by
    simp only [PObj.with, PObj.mk.injEq, true_and]
    have ht : (as.take prev.length).length = prev.length := by rw [List.length_take]; omega
    generalize as.take prev.length = pr at hs ht
    subst hs
    rw [List.zip_append ht]
    have : prev = prev ++ [] := by simp
    conv => lhs; rw [this, List.zip_append ht]
    simp
  refine ⟨?_, hz, ?_, by simp; omega⟩
  · have : assignVals as ⟨c, true, as.zip prev⟩ prev.length [w] = .ok (({ (⟨c, true, as.zip prev⟩ : PObj) with
        attrs := ((as.drop prev.length).zip [w]).foldl (fun as nv => setAttr as nv.1 nv.2) (as.zip prev) })) := by
      simp only [assignVals]
      rw [if_neg (by rw [ha]; simp)]
    rw [this, hz]
    have := (assign_zip hn hl this).2
    rw [this]
  · rw [List.length_append, ← List.drop_drop, ha]
    rfl

theorem fields_keeps {l : Bool} {c : ClassId} {attrs : List (Name × Val)} {as : List Name} {us : Bool} (hn : as.Nodup) (hcls : us = true → "cls" ∉ as)
    (hW : ObjWrites env W) (hB : ObjKeeps env t W B) : ∀ {fs : List Field} {ss : List Ser} {prev vs ws : List Val} {b : Bytes} {o : Nat}, Field.IsL cf bo fs ss →
    (∀ f ∈ fs, f.good bo = true) → (∀ f ∈ fs, f.usesSelf = true → us = true) →
    as.drop prev.length = (fs.filter (!·.isPad)).map Field.name → prev.length ≤ as.length →
    writeFields env.plat bo W ⟨c, false, attrs⟩ o fs vs = some b →
    backFields env.plat t W B ⟨c, false, attrs⟩ fs ⟨c, true, as.zip prev⟩ l vs = some ws →
    KL env t l (assignVals as) ⟨c, false, attrs⟩ ⟨c, true, as.zip prev⟩ prev.length ss vs ws
  | [], _, prev, vs, ws, b, _, h, _, _, _, _, hw, hb => by
    cases h
    cases vs with
    | nil => cases hb; exact rfl
    | cons => cases hb
  | f :: fs, _, prev, vs, ws, b, o, h, hg, hu, ha, hl, hw, hb => by
    obtain ⟨x, xs, rfl, h1, h2⟩ := h
    have hgf := hg f (by simp)
    have hg' : ∀ f ∈ fs, f.good bo = true := fun g h => hg g (by simp [h])
    have hu' : ∀ f ∈ fs, f.usesSelf = true → us = true := fun g h => hu g (by simp [h])
    have htw : Mirror f.usesSelf ⟨c, false, attrs⟩ ⟨c, true, as.zip prev⟩ := by
      refine ⟨rfl, rfl, fun e => ?_⟩
      have hc := hcls (hu f (by simp) e)
      rw [getAttr_lookup]
      cases hlk : (as.zip prev).lookup "cls" with
      | none => rfl
      | some v =>
        rw [List.lookup_eq_some_iff] at hlk
        obtain ⟨l1, l2, e1, _⟩ := hlk
        have : ("cls", v) ∈ as.zip prev := by rw [e1]; simp
        exact absurd (List.of_mem_zip this).1 hc
    have hemp : fs.isEmpty = xs.isEmpty := by
      cases fs with
      | nil => cases h2; rfl
      | cons => obtain ⟨_, _, rfl, _⟩ := h2; rfl
    cases f with
    | value a f =>
      cases vs with
      | nil => cases hb
      | cons v vs =>
        simp only [writeFields] at hw
        simp only [backFields] at hb
        split at hw
        · rename_i b1 b2 e1 e2
          split at hb
          · rename_i w f1
            split at hb
            · rename_i ws' f2
              cases hb
              obtain ⟨j1, j2, j3, j4⟩ := with_assign (c := c) (w := w) hn hl (a := a) ha
              rw [j2] at f2
              have hk := fields_keeps hn hcls hW hB h2 hg' hu' j3 j4 e2 f2
              have hw1 := is_writes hW f bo x hgf h1
              obtain ⟨s1, q1, s2, q2, g1, g2, g3, g4⟩ := is_keeps hW hB f bo x hgf h1 _ _ htw
              obtain ⟨z1, zq, z2, z3⟩ := hw1.enc ⟨c, false, attrs⟩
              rw [g1] at z2
              cases z2
              refine ⟨[w], ws', s1, q1, s2, q2, _, rfl, ?_, g1, g2, ?_, g3, ?_, j1.trans (congrArg _ j2), ?_⟩
              · rintro st rfl
                rw [hw1.one]
                cases g1
                exact ⟨b1, writes_pack z3 e1⟩
              · rw [z3.one, hw1.one]
              · intro u
                rw [hw1.one, ← hemp]
                exact g4 _ v w b1 e1 f1 u
              · rw [hw1.one]
                simpa using hk
            · cases hb
          · cases hb
        · cases hw
    | pad a k =>
      obtain ⟨st, rfl, hbs⟩ := h1
      obtain ⟨hp, hn0⟩ := pad_pack hbs env.plat
      simp only [writeFields] at hw
      simp only [backFields] at hb
      split at hw
      · rename_i b2 e2
        have hk := fields_keeps hn hcls hW hB h2 hg' hu' (by simpa [Field.isPad] using ha) hl e2 hb
        refine ⟨[], ws, _, _, _, _, ⟨c, true, as.zip prev⟩, rfl, ?_, rfl, rfl, rfl, rfl, ?_, (updSeq_assign as).nil _ _, ?_⟩
        · rintro _ e
          cases e
          simp only [Ser.numValues, hn0, List.take_zero]
          exact ⟨_, hp⟩
        · intro u
          simp only [Ser.numValues, hn0, List.take_zero]
          refine .struct _ _ _ _ _ _ _ ?_
          simp only [StructSer.kept, StructSer.applyActions, hbs.acts, hbs.toks]
          rfl
        · simp only [Ser.numValues, hn0, List.drop_zero]
          exact hk
      · cases hw
    | «when» a cond f d =>
      obtain ⟨y, rfl, h1⟩ := h1
      simp only [Field.good, Bool.and_eq_true] at hgf
      have hw1 := is_writes hW f bo y hgf.1 h1
      have ho := plain_overrides hgf.2 h1
      have he := hw1.same ho ⟨c, false, attrs⟩
      have n1 : (Ser.cond y cond [d]).numValues = 1 := hw1.one
      cases vs with
      | nil => cases hb
      | cons v vs =>
        simp only [writeFields] at hw
        simp only [backFields] at hb
        split at hb
        · rename_i hc hc'
          rw [hc] at hw
          simp only at hw
          split at hw
          · rename_i b1 b2 e1 e2
            split at hb
            · rename_i w f1
              split at hb
              · rename_i ws' f2
                cases hb
                obtain ⟨j1, j2, j3, j4⟩ := with_assign (c := c) (w := w) hn hl (a := a) ha
                rw [j2] at f2
                have hk := fields_keeps hn hcls hW hB h2 hg' hu' j3 j4 e2 f2
                have g4 := (is_keeps hW hB f bo y hgf.1 h1).same ho htw
                refine ⟨[w], ws', y, none, y, none, _, rfl, (by rintro st e; cases e), ?_, ?_, ?_, ?_, ?_, j1.trans (congrArg _ j2), ?_⟩
                · simp only [pre, hc]; rfl
                · simp only [preU, pre, hc']; rfl
                · rw [hw1.one, n1]
                · cases y <;> first | rfl | cases ho
                · intro u
                  rw [n1, ← hemp]
                  exact g4 _ v w b1 e1 f1 u
                · rw [n1]
                  simpa using hk
              · cases hb
            · cases hb
          · cases hw
        · rename_i hc hc'
          rw [hc] at hw
          simp only at hw
          split at hb
          · rename_i ws' f2
            cases hb
            obtain ⟨j1, j2, j3, j4⟩ := with_assign (c := c) (w := d) hn hl (a := a) ha
            rw [j2] at f2
            have hk := fields_keeps hn hcls hW hB h2 hg' hu' j3 j4 hw f2
            refine ⟨[d], ws', .skip [d], none, .skip [d], none, _, rfl, (by rintro st e; cases e), ?_, ?_, ?_, rfl, ?_, j1.trans (congrArg _ j2), ?_⟩
            · simp only [pre, hc]; rfl
            · simp only [preU, pre, hc']; rfl
            · rw [n1]; rfl
            · intro u
              exact .skip ..
            · rw [n1]
              simpa using hk
          · cases hb
        · cases hb

theorem obj_keeps {docs : ClassId → Option ClassDoc} (hd : Documents env ctx N docs)
    (hp : ∀ c ci, env.classes c = some ci → ci.postInit = Except.ok) :
    ∀ (k : Nat), ObjKeeps env t (writeObj env.plat docs k) (backObj env.plat t docs k)
  | 0 => fun l c v v' b hw => by cases hw
  | k + 1 => by
    intro l c v v' b hw hb
    simp only [writeObj] at hw
    split at hw
    · rename_i c' attrs d hdc
      split at hw
      · rename_i hc
        subst hc
        split at hw
        · rename_i vs hpk
          simp only [backObj, hdc, true_and] at hb
          split at hb
          · rename_i hself
            simp only [hpk, Option.map_eq_some_iff] at hb
            obtain ⟨ws, hb, rfl⟩ := hb
            obtain ⟨hg, o, ho, hdo⟩ := hd c' d hdc
            obtain ⟨ha, hnd, ss, his, hm, hap, hsh⟩ := documented_class hdo hg
            have hg' := hg
            simp only [ClassDoc.good, Bool.and_eq_true, List.all_eq_true] at hg'
            have hWk : ObjWrites env (writeObj env.plat docs k) := fun c v b hv => by
              obtain ⟨K, hK⟩ := obj_writes hd k c v b hv
              exact ⟨K, fun n hn => (hK n hn).1⟩
            have hnn : ∀ x ∈ ss, x ≠ .null := fun x hx => (fieldsL_fieldOf his x hx).2
            have hlen := backFields_length hb
            obtain ⟨hl, _⟩ := fields_writes hWk ⟨c', false, attrs⟩ his hg'.1.1 hw
            have hkl := fields_keeps (us := d.fields.any Field.usesSelf) (prev := []) (l := l) hnd (fun e h => hself ⟨e, h⟩) hWk (obj_keeps hd hp k)
              his hg'.1.1 (fun f hf e => List.any_eq_true.2 ⟨f, hf, e⟩) rfl (Nat.zero_le _) hw (by simpa using hb)
            simp only [List.zip_nil_right, List.length_nil] at hkl
            obtain ⟨s1, q1, s2, q2, e1, e2, e3, _⟩ := whole_kept hm hnn hsh hl (updSeq_assign _) hkl
            rw [← ha] at e3
            refine .mk _ _ _ o.info _ _ _ _ _ vs ws ho (by rw [ha]; exact pick_getAttrs hpk) e1 e2 e3 ?_
            have hl2 : ws.length = o.info.attrs.length := by rw [hlen, ha]; simp [ClassDoc.attrs]
            unfold construct
            rw [if_pos hl2, hp c' _ ho, ha]
            rfl
          · cases hb
        · cases hw
      · cases hw
    · cases hw

end Verif
