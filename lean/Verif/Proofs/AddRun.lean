import Verif.Proofs.AddJoin
import Verif.Proofs.Proxy
import Verif.Proofs.StreamLemmas
/-
Merging neighbouring struct serializers does not change what the loops over serializers do.
-/
namespace Verif
open Spec

theorem Spec.SameOk.refl (a : M α) : SameOk a a := fun _ _ _ => Iff.rfl
theorem Spec.SameOk.symm {a b : M α} (h : SameOk a b) : SameOk b a := fun st r st' => (h st r st').symm
theorem Spec.SameOk.trans {a b c : M α} (h : SameOk a b) (k : SameOk b c) : SameOk a c :=
  fun st r st' => (h st r st').trans (k st r st')

theorem bindOk {x : M α} {f : α → M β} {st st' : St} {b : β} :
    (x >>= f) st = .ok b st' ↔ ∃ a st1, x st = .ok a st1 ∧ f a st1 = .ok b st' := by
  constructor
  · exact fun h => M.bind_ok h
  · rintro ⟨a, st1, h1, h2⟩
    rw [M.bind_eq h1]; exact h2

theorem Spec.SameOk.bind {x : M α} {f g : α → M β} (h : ∀ a, SameOk (f a) (g a)) : SameOk (x >>= f) (x >>= g) := by
  intro st r st'
  rw [bindOk, bindOk]
  constructor
  · rintro ⟨a, s, h1, h2⟩; exact ⟨a, s, h1, (h a _ _ _).1 h2⟩
  · rintro ⟨a, s, h1, h2⟩; exact ⟨a, s, h1, (h a _ _ _).2 h2⟩

theorem Spec.SameOk.bind_left {x y : M α} {f : α → M β} (h : SameOk x y) : SameOk (x >>= f) (y >>= f) := by
  intro st r st'
  rw [bindOk, bindOk]
  constructor
  · rintro ⟨a, s, h1, h2⟩; exact ⟨a, s, (h _ _ _).1 h1, h2⟩
  · rintro ⟨a, s, h1, h2⟩; exact ⟨a, s, (h _ _ _).2 h1, h2⟩

/-- The serializers that stay as they are when an object is given. -/
structure Fixes (pre : Ser → M Ser) : Prop where
  null : pre .null = pure .null
  struct : ∀ x, pre (.struct x) = pure (.struct x)

theorem fixes_pure : Fixes pure := ⟨rfl, fun _ => rfl⟩
theorem fixes_prepack (p : PObj) : Fixes (fun s => s.prepack p) := ⟨rfl, fun _ => rfl⟩

variable {env : Env} {n : Nat} {pre : Ser → M Ser} {x y z : StructSer}

theorem pure_bind (a : α) (f : α → M β) : ((pure a : M α) >>= f) = f a := rfl

/-! ### pack -/

theorem cleanSum_pack_ok (h : CleanSum x y z) (P : Platform) (vals : List Val) (b : Bytes) :
    z.pack P (vals.take z.numValues) = .ok b ↔ ∃ b1 b2, x.pack P (vals.take x.numValues) = .ok b1 ∧
      y.pack P ((vals.drop x.numValues).take y.numValues) = .ok b2 ∧ b = b1 ++ b2 := by
  by_cases hl : x.numValues + y.numValues ≤ vals.length
  · have hsplit : vals.take z.numValues = vals.take x.numValues ++ (vals.drop x.numValues).take y.numValues := by
      rw [h.numValues, List.take_add]
    rw [hsplit, h.pack P _ _ (by simp; omega) (by simp; omega)]
    constructor
    · intro hb
      obtain ⟨b1, h1, hb⟩ := Except.bind_ok' hb
      obtain ⟨b2, h2, hb⟩ := Except.bind_ok' hb
      cases hb
      exact ⟨b1, b2, h1, h2, rfl⟩
    · rintro ⟨b1, b2, h1, h2, rfl⟩
      rw [h1, h2]; rfl
  · constructor
    · intro hb
      have := structPack_numVals hb
      rw [show numVals z.toks = z.numValues from rfl, h.numValues, List.length_take] at this
      omega
    · rintro ⟨b1, b2, h1, h2, _⟩
      have h1 := structPack_numVals h1
      have h2 := structPack_numVals h2
      rw [show numVals x.toks = x.numValues from rfl, List.length_take] at h1
      rw [show numVals y.toks = y.numValues from rfl, List.length_take, List.length_drop] at h2
      omega

theorem packLoop_struct (hpre : Fixes pre) (s : StructSer) (ss : List Ser) (vs : List Val) :
    packLoop (pack env (n + 1)) pre (.struct s :: ss) vs = (M.lift (s.pack env.plat (vs.take s.numValues)) >>= fun b =>
      packLoop (pack env (n + 1)) pre ss (vs.drop s.numValues) >>= fun r => pure (b ++ r.1, s.size + r.2)) := by
  rw [packLoop, hpre.struct, pure_bind, pack]
  rfl

theorem packLoop_congr {packN : Ser → List Val → M Bytes} {xs ys : List Ser}
    (h : ∀ vs, SameOk (packLoop packN pre xs vs) (packLoop packN pre ys vs)) (p : List Ser) (vs : List Val) :
    SameOk (packLoop packN pre (p ++ xs) vs) (packLoop packN pre (p ++ ys) vs) := by
  induction p generalizing vs with
  | nil => exact h vs
  | cons s p ih =>
    simp only [List.cons_append, packLoop]
    exact .bind fun s' => .bind fun b => .bind fun sz => .bind_left (ih _)

theorem packLoop_merge (hpre : Fixes pre) {xs ys : List Ser} (h : Merge CleanSum xs ys) (vs : List Val) :
    SameOk (packLoop (pack env (n + 1)) pre xs vs) (packLoop (pack env (n + 1)) pre ys vs) := by
  induction h generalizing vs with
  | refl xs => exact .refl _
  | @null p post ys _ ih =>
    refine .trans (packLoop_congr (fun vs => ?_) p vs) (ih vs)
    rw [packLoop, hpre.null, pure_bind, show pack env (n + 1) .null = fun _ => pure [] from rfl]
    show SameOk (packLoop (pack env (n + 1)) pre post vs >>= fun r => pure ([] ++ r.1, 0 + r.2)) _
    intro st r st'
    rw [bindOk]
    constructor
    · rintro ⟨a, s, h1, h2⟩
      cases h2
      simpa using h1
    · intro h
      exact ⟨r, st', h, by simp [pure, M.pure]⟩
  | @join p post ys x y z hj _ ih =>
    refine .trans (packLoop_congr (fun vs => ?_) p vs) (ih vs)
    rw [packLoop_struct hpre, packLoop_struct hpre, packLoop_struct hpre]
    intro st r st'
    simp only [bindOk, lift_ok, cleanSum_pack_ok hj]
    simp only [hj.numValues, hj.size, List.drop_drop]
    constructor
    · rintro ⟨b1, _, ⟨h1, rfl⟩, q, s2, ⟨b2, _, ⟨h2, rfl⟩, q2, s3, h3, h4⟩, h5⟩
      cases h4; cases h5
      exact ⟨_, _, ⟨⟨b1, b2, h1, h2, rfl⟩, rfl⟩, q2, _, h3, by simp [pure, M.pure, Nat.add_assoc]⟩
    · rintro ⟨_, _, ⟨⟨b1, b2, h1, h2, rfl⟩, rfl⟩, q2, s3, h3, h4⟩
      cases h4
      exact ⟨b1, _, ⟨h1, rfl⟩, (b2 ++ q2.1, y.size + q2.2), _, ⟨b2, _, ⟨h2, rfl⟩, q2, _, h3, rfl⟩,
        by simp [pure, M.pure, Nat.add_assoc]⟩

/-! ### pack_write -/

theorem packWriteLoop_struct (hpre : Fixes pre) (size : Nat) (s : StructSer) (ss : List Ser) (vs : List Val) :
    packWriteLoop (packWrite env (n + 1)) pre size (.struct s :: ss) vs =
      ((M.lift (s.pack env.plat (vs.take s.numValues)) >>= ioWrite) >>= fun _ =>
      packWriteLoop (packWrite env (n + 1)) pre (size + s.size) ss (vs.drop s.numValues)) := by
  rw [packWriteLoop, hpre.struct, pure_bind, packWrite]
  rfl

theorem packWriteLoop_congr {packN : Ser → List Val → M Unit} {xs ys : List Ser}
    (h : ∀ k vs, SameOk (packWriteLoop packN pre k xs vs) (packWriteLoop packN pre k ys vs)) (p : List Ser) (k : Nat)
    (vs : List Val) : SameOk (packWriteLoop packN pre k (p ++ xs) vs) (packWriteLoop packN pre k (p ++ ys) vs) := by
  induction p generalizing k vs with
  | nil => exact h k vs
  | cons s p ih =>
    simp only [List.cons_append, packWriteLoop]
    exact .bind fun s' => .bind fun b => .bind fun sz => ih _ _

theorem ioWrite_ok {b : Bytes} {st st' : St} {u : Unit} : ioWrite b st = .ok u st' ↔ st' = { st with io := st.io.write b } := by
  show (Res.ok () { st with io := st.io.write b } = .ok u st') ↔ _
  constructor
  · intro h; cases h; rfl
  · intro h; rw [h]

theorem packWriteLoop_merge (hpre : Fixes pre) {xs ys : List Ser} (h : Merge CleanSum xs ys) (k : Nat) (vs : List Val) :
    SameOk (packWriteLoop (packWrite env (n + 1)) pre k xs vs) (packWriteLoop (packWrite env (n + 1)) pre k ys vs) := by
  induction h generalizing k vs with
  | refl xs => exact .refl _
  | @null p post ys _ ih =>
    refine .trans (packWriteLoop_congr (fun k vs => ?_) p k vs) (ih k vs)
    rw [packWriteLoop, hpre.null, pure_bind, show packWrite env (n + 1) .null = fun _ => pure () from rfl]
    exact .refl _
  | @join p post ys x y z hj _ ih =>
    refine .trans (packWriteLoop_congr (fun k vs => ?_) p k vs) (ih k vs)
    rw [packWriteLoop_struct hpre, packWriteLoop_struct hpre, packWriteLoop_struct hpre]
    intro st r st'
    simp only [bindOk, lift_ok, cleanSum_pack_ok hj, ioWrite_ok]
    simp only [hj.numValues, hj.size, List.drop_drop]
    constructor
    · rintro ⟨_, s1, ⟨b1, _, ⟨h1, rfl⟩, rfl⟩, _, s2, ⟨b2, _, ⟨h2, rfl⟩, rfl⟩, h3⟩
      refine ⟨(), _, ⟨_, _, ⟨⟨b1, b2, h1, h2, rfl⟩, rfl⟩, rfl⟩, ?_⟩
      rw [Stream.write_append, ← Nat.add_assoc]
      exact h3
    · rintro ⟨_, _, ⟨_, _, ⟨⟨b1, b2, h1, h2, rfl⟩, rfl⟩, rfl⟩, h3⟩
      refine ⟨(), _, ⟨b1, _, ⟨h1, rfl⟩, rfl⟩, (), _, ⟨b2, _, ⟨h2, rfl⟩, rfl⟩, ?_⟩
      rw [Stream.write_append, ← Nat.add_assoc] at h3
      exact h3

/-! ### pack_into -/

theorem structPackIntoM_ok {s : StructSer} {off : Nat} {vs : List Val} {st st' : St} {u : Unit} :
    structPackIntoM env s off vs st = .ok u st' ↔ ∃ b, s.pack env.plat vs = .ok b ∧ off + s.size ≤ st.buf.length ∧
      st' = { st with buf := splice st.buf off b } := by
  have hsz : s.size = sizeToks s.byteOrder.isNative s.toks := rfl
  simp only [structPackIntoM, StructSer.packInto, structPackInto, StructSer.pack, structPack, ← hsz]
  by_cases h1 : vs.length = numVals s.toks
  · rw [if_pos h1, if_pos h1]
    by_cases h2 : off ≤ st.buf.length ∧ s.size ≤ st.buf.length - off
    · rw [if_pos h2]
      cases packToks env.plat s.byteOrder s.toks 0 vs with
      | error e => simp
      | ok b =>
        simp only [Res.ok.injEq, true_and, Except.ok.injEq, exists_eq_left']
        exact ⟨fun h => ⟨by omega, h.symm⟩, fun h => h.2.symm⟩
    · rw [if_neg h2]
      constructor
      · intro h; cases h
      · rintro ⟨b, _, h, _⟩
        omega
  · rw [if_neg h1, if_neg h1]
    simp

theorem packIntoLoop_struct (hpre : Fixes pre) (off size : Nat) (s : StructSer) (ss : List Ser) (vs : List Val) :
    packIntoLoop (packInto env (n + 1)) pre off size (.struct s :: ss) vs =
      (structPackIntoM env s (off + size) (vs.take s.numValues) >>= fun _ =>
      packIntoLoop (packInto env (n + 1)) pre off (size + s.size) ss (vs.drop s.numValues)) := by
  rw [packIntoLoop, hpre.struct, pure_bind, packInto]
  rfl

theorem packIntoLoop_congr {packN : Ser → Nat → List Val → M Unit} {off : Nat} {xs ys : List Ser}
    (h : ∀ k vs, SameOk (packIntoLoop packN pre off k xs vs) (packIntoLoop packN pre off k ys vs)) (p : List Ser) (k : Nat)
    (vs : List Val) : SameOk (packIntoLoop packN pre off k (p ++ xs) vs) (packIntoLoop packN pre off k (p ++ ys) vs) := by
  induction p generalizing k vs with
  | nil => exact h k vs
  | cons s p ih =>
    simp only [List.cons_append, packIntoLoop]
    exact .bind fun s' => .bind fun b => .bind fun sz => ih _ _

theorem packIntoLoop_merge (hpre : Fixes pre) {xs ys : List Ser} (h : Merge CleanSum xs ys) (off k : Nat) (vs : List Val) :
    SameOk (packIntoLoop (packInto env (n + 1)) pre off k xs vs) (packIntoLoop (packInto env (n + 1)) pre off k ys vs) := by
  induction h generalizing k vs with
  | refl xs => exact .refl _
  | @null p post ys _ ih =>
    refine .trans (packIntoLoop_congr (fun k vs => ?_) p k vs) (ih k vs)
    rw [packIntoLoop, hpre.null, pure_bind, show packInto env (n + 1) .null = fun _ _ => pure () from rfl]
    exact .refl _
  | @join p post ys x y z hj _ ih =>
    refine .trans (packIntoLoop_congr (fun k vs => ?_) p k vs) (ih k vs)
    rw [packIntoLoop_struct hpre, packIntoLoop_struct hpre, packIntoLoop_struct hpre]
    intro st r st'
    simp only [bindOk, structPackIntoM_ok, cleanSum_pack_ok hj]
    simp only [hj.numValues, hj.size, List.drop_drop]
    constructor
    · rintro ⟨_, s1, ⟨b1, h1, g1, rfl⟩, _, s2, ⟨b2, h2, g2, rfl⟩, h3⟩
      have l1 := structSer_pack_length h1
      refine ⟨(), _, ⟨_, ⟨b1, b2, h1, h2, rfl⟩, ?_, rfl⟩, ?_⟩
      · rw [splice_length (by omega)] at g2; omega
      · rw [← splice_seq (by omega), l1, ← Nat.add_assoc]
        simp only [← Nat.add_assoc] at h3
        exact h3
    · rintro ⟨_, _, ⟨_, ⟨b1, b2, h1, h2, rfl⟩, g, rfl⟩, h3⟩
      have l1 := structSer_pack_length h1
      refine ⟨(), _, ⟨b1, h1, by omega, rfl⟩, (), _, ⟨b2, h2, ?_, rfl⟩, ?_⟩
      · show _ ≤ (splice _ _ _).length
        rw [splice_length (by omega)]; omega
      · rw [← splice_seq (by omega), l1, ← Nat.add_assoc] at h3
        simp only [← Nat.add_assoc]
        exact h3

/-! ### Unpacking -/

theorem updSeq_noUpd : UpdSeq noUpd := ⟨fun _ _ => rfl, fun p k vs ws q => by simp [noUpd]⟩

theorem updSeq_assign (names : List Name) : UpdSeq (assignVals names) := by
  refine ⟨fun p k => by simp [assignVals], fun p k vs ws q => ?_⟩
  simp only [assignVals, List.length_drop, List.length_append]
  by_cases h1 : names.length - k < vs.length
  · rw [if_pos h1, if_pos (by omega)]
    simp
  · rw [if_neg h1]
    simp only [Except.ok.injEq, exists_eq_left']
    by_cases h2 : names.length - (k + vs.length) < ws.length
    · rw [if_pos h2, if_pos (by omega)]
    · rw [if_neg h2, if_neg (by omega), zip_split (by simp; omega), List.foldl_append, List.drop_drop]

theorem unpackLoop_congr {unpackN : Ser → Src → M (List Val)} {src : Src} {xs ys : List Ser}
    (h : ∀ k, SameOk (unpackLoop unpackN src k xs) (unpackLoop unpackN src k ys)) (p : List Ser) (k : Nat) :
    SameOk (unpackLoop unpackN src k (p ++ xs)) (unpackLoop unpackN src k (p ++ ys)) := by
  induction p generalizing k with
  | nil => exact h k
  | cons s p ih =>
    simp only [List.cons_append, unpackLoop]
    exact .bind fun b => .bind fun sz => .bind_left (ih _)

theorem next_next (src : Src) (a b : Nat) : (src.next a).next b = src.next (a + b) := by
  cases src <;> simp [Src.next, Nat.add_assoc]

theorem unpackLoop_struct (upd : Upd) (src : Src) (k : Nat) (s : StructSer) (ss : List Ser) :
    unpackLoop (unpack env (n + 1) upd) src k (.struct s :: ss) =
      (structUnpackM env s (src.next k) >>= fun vs => unpackLoop (unpack env (n + 1) upd) src (k + s.size) ss >>= fun r =>
        pure (vs ++ r.1, r.2)) := by
  rw [unpackLoop, unpack]
  rfl

theorem unpackLoop_merge {upd : Upd} {xs ys : List Ser} (h : Merge CleanSum xs ys) (src : Src) (k : Nat) :
    SameOk (unpackLoop (unpack env (n + 1) upd) src k xs) (unpackLoop (unpack env (n + 1) upd) src k ys) := by
  induction h generalizing k with
  | refl xs => exact .refl _
  | @null p post ys _ ih =>
    refine .trans (unpackLoop_congr (fun k => ?_) p k) (ih k)
    rw [unpackLoop, show unpack env (n + 1) upd .null = fun _ => pure [] from rfl]
    show SameOk (unpackLoop (unpack env (n + 1) upd) src (k + 0) post >>= fun r => pure ([] ++ r.1, r.2)) _
    intro st r st'
    rw [bindOk]
    constructor
    · rintro ⟨a, s, h1, h2⟩
      cases h2
      simpa using h1
    · intro h
      exact ⟨r, st', h, by simp [pure, M.pure]⟩
  | @join p post ys x y z hj _ ih =>
    refine .trans (unpackLoop_congr (fun k => ?_) p k) (ih k)
    rw [unpackLoop_struct, unpackLoop_struct, unpackLoop_struct]
    intro st r st'
    simp only [bindOk, hj.unpack, next_next]
    simp only [hj.size]
    constructor
    · rintro ⟨v1, s1, h1, _, s2, ⟨v2, s3, h2, q, s4, h3, h4⟩, h5⟩
      cases h4; cases h5
      exact ⟨_, _, ⟨v1, s1, v2, h1, h2, rfl⟩, q, _, by rw [← Nat.add_assoc]; exact h3, by simp [pure, M.pure]⟩
    · rintro ⟨_, _, ⟨v1, s1, v2, h1, h2, rfl⟩, q, _, h3, h4⟩
      cases h4
      rw [← Nat.add_assoc] at h3
      exact ⟨v1, s1, h1, (v2 ++ q.1, q.2), _, ⟨v2, _, h2, q, _, h3, rfl⟩, by simp [pure, M.pure]⟩

theorem unpackLoopSpec_congr {unpackN : Ser → Src → M (List Val)} {upd : Upd} {src : Src} {xs ys : List Ser}
    (h : ∀ p d k, SameOk (unpackLoopSpec unpackN upd src p d k xs) (unpackLoopSpec unpackN upd src p d k ys))
    (l : List Ser) (p : PObj) (d k : Nat) :
    SameOk (unpackLoopSpec unpackN upd src p d k (l ++ xs)) (unpackLoopSpec unpackN upd src p d k (l ++ ys)) := by
  induction l generalizing p d k with
  | nil => exact h p d k
  | cons s l ih =>
    simp only [List.cons_append, unpackLoopSpec]
    exact .bind fun s' => .bind fun vs => .bind fun p' => .bind fun sz => .bind_left (ih _ _ _)

theorem unpackLoopSpec_struct (u upd : Upd) (src : Src) (p : PObj) (d k : Nat) (s : StructSer) (ss : List Ser) :
    unpackLoopSpec (unpack env (n + 1) u) upd src p d k (.struct s :: ss) =
      (structUnpackM env s (src.next k) >>= fun vs => M.lift (upd p d vs) >>= fun p' =>
        unpackLoopSpec (unpack env (n + 1) u) upd src p' (d + vs.length) (k + s.size) ss >>= fun r => pure (vs ++ r.1, r.2)) := by
  rw [unpackLoopSpec]
  show ((pure (Ser.struct s) : M Ser) >>= _) = _
  rw [pure_bind, unpack]
  rfl

theorem unpackLoopSpec_merge {u upd : Upd} (hu : UpdSeq upd) {xs ys : List Ser} (h : Merge CleanSum xs ys) (src : Src)
    (p : PObj) (d k : Nat) : SameOk (unpackLoopSpec (unpack env (n + 1) u) upd src p d k xs)
      (unpackLoopSpec (unpack env (n + 1) u) upd src p d k ys) := by
  induction h generalizing p d k with
  | refl xs => exact .refl _
  | @null l post ys _ ih =>
    refine .trans (unpackLoopSpec_congr (fun p d k => ?_) l p d k) (ih p d k)
    rw [unpackLoopSpec]
    show SameOk ((pure Ser.null : M Ser) >>= _) _
    rw [pure_bind, show unpack env (n + 1) u .null = fun _ => pure [] from rfl]
    show SameOk (M.lift (upd p d []) >>= fun p' =>
      unpackLoopSpec (unpack env (n + 1) u) upd src p' (d + 0) (k + 0) post >>= fun r => pure ([] ++ r.1, r.2)) _
    rw [hu.nil]
    intro st r st'
    simp only [bindOk, lift_ok]
    constructor
    · rintro ⟨_, _, ⟨h0, rfl⟩, a, s, h1, h2⟩
      cases h0
      cases h2
      simpa using h1
    · intro h
      exact ⟨p, st, ⟨rfl, rfl⟩, r, st', h, by simp [pure, M.pure]⟩
  | @join l post ys x y z hj _ ih =>
    refine .trans (unpackLoopSpec_congr (fun p d k => ?_) l p d k) (ih p d k)
    rw [unpackLoopSpec_struct]
    intro st r st'
    simp only [unpackLoopSpec_struct, bindOk, hj.unpack, next_next, lift_ok]
    simp only [hj.size]
    constructor
    · rintro ⟨v1, s1, h1, p1, _, ⟨u1, rfl⟩, _, s2, ⟨v2, s3, h2, p2, _, ⟨u2, rfl⟩, q, s4, h3, h4⟩, h5⟩
      cases h4; cases h5
      refine ⟨_, _, ⟨v1, _, v2, h1, h2, rfl⟩, p2, _, ⟨(hu.append _ _ _ _ _).2 ⟨p1, u1, u2⟩, rfl⟩, q, st', ?_, by simp [pure, M.pure]⟩
      rw [← Nat.add_assoc, List.length_append, ← Nat.add_assoc]; exact h3
    · rintro ⟨_, _, ⟨v1, s1, v2, h1, h2, rfl⟩, p2, _, ⟨u0, rfl⟩, q, _, h3, h4⟩
      cases h4
      obtain ⟨p1, u1, u2⟩ := (hu.append _ _ _ _ _).1 u0
      rw [← Nat.add_assoc, List.length_append, ← Nat.add_assoc] at h3
      exact ⟨v1, _, h1, p1, _, ⟨u1, rfl⟩, (v2 ++ q.1, q.2), _, ⟨v2, _, h2, p2, _, ⟨u2, rfl⟩, q, _, h3, rfl⟩, by simp [pure, M.pure]⟩

end Verif
