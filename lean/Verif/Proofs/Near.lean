import Verif.Spec.Near
import Verif.Proofs.Places
import Verif.Proofs.ParseObj
/-
Lemmas on formats that are read from their own bytes only.
-/
namespace Verif.Near
open Spec Places

/-- What is read from some bytes is read from them whatever follows. -/
def Local {α : Type} (g : Bytes → Parsed (α × Nat)) : Prop := ∀ x y y' v, g (x ++ y) = .ok (v, x.length) → g (x ++ y') = .ok (v, x.length)

theorem Local.le {α : Type} {g : Bytes → Parsed (α × Nat)} (h : Local g) {x y : Bytes} {v : α} {n : Nat} (hg : g (x ++ y) = .ok (v, n)) (hn : n ≤ x.length) (y' : Bytes) :
    g (x ++ y') = .ok (v, n) := by
  have hl : (x.take n).length = n := by rw [List.length_take]; omega
  have e : ∀ z, x ++ z = x.take n ++ (x.drop n ++ z) := fun z => by rw [← List.append_assoc, List.take_append_drop]
  rw [e] at hg ⊢
  have := h (x.take n) (x.drop n ++ y) (x.drop n ++ y') v (by rw [hl]; exact hg)
  rwa [hl] at this

theorem takes_local (n : Nat) (f : Bytes → Val) : Local (takes n · f) := by
  intro x y y' v h
  simp only [takes] at h ⊢
  split at h
  · simp only [Parsed.ok.injEq, Prod.mk.injEq] at h
    obtain ⟨rfl, rfl⟩ := h
    rw [if_pos (by rw [List.length_append]; omega), List.take_left, List.take_left]
  · cases h

/-- Reading something and going on. -/
theorem Local.bind {α β : Type} {g : Bytes → Parsed (α × Nat)} (h : Local g) {k : α → Parsed β} : Local fun b => g b >>= fun (v, n) => k v >>= fun w => .ok (w, n) := by
  intro x y y' w hg
  simp only at hg ⊢
  cases hr : g (x ++ y) with
  | ok p =>
    obtain ⟨v, n⟩ := p
    rw [hr] at hg
    simp only [ok_bind] at hg
    cases hk : k v with
    | ok u =>
      rw [hk] at hg
      simp only [ok_bind, Parsed.ok.injEq, Prod.mk.injEq] at hg
      obtain ⟨rfl, rfl⟩ := hg
      rw [h x y y' v hr]
      simp only [ok_bind, hk]
    | err | deep | odd => rw [hk] at hg; cases hg
  | err | deep | odd => rw [hr] at hg; cases hg

/-- Reading one thing, and another one behind it. -/
theorem Local.pair {α β γ : Type} {g : Bytes → Parsed (α × Nat)} (h : Local g) {k : α → Bytes → Parsed (β × Nat)} (hk : ∀ v, Local (k v)) (f : α → β → γ) (a : Nat) :
    Local fun b => g (b.drop a) >>= fun (v, n) => k v (b.drop (a + n)) >>= fun (w, m) => .ok (f v w, a + n + m) := by
  intro x y y' w hg
  simp only at hg ⊢
  cases hr : g ((x ++ y).drop a) with
  | ok p =>
    obtain ⟨v, n⟩ := p
    rw [hr] at hg
    simp only [ok_bind] at hg
    cases hr2 : k v ((x ++ y).drop (a + n)) with
    | ok q =>
      obtain ⟨u, m⟩ := q
      rw [hr2] at hg
      simp only [ok_bind, Parsed.ok.injEq, Prod.mk.injEq] at hg
      obtain ⟨rfl, hl⟩ := hg
      rw [List.drop_append_of_le_length (by omega)] at hr hr2
      rw [List.drop_append_of_le_length (by omega), h.le hr (by rw [List.length_drop]; omega)]
      simp only [ok_bind]
      rw [List.drop_append_of_le_length (by omega), (hk v).le hr2 (by rw [List.length_drop]; omega)]
      simp only [ok_bind, hl]
    | err | deep | odd => rw [hr2] at hg; cases hg
  | err | deep | odd => rw [hr] at hg; cases hg

theorem readMany_local {g : Bytes → Parsed (Val × Nat)} (h : Local g) : ∀ n, Local (readMany g n)
  | 0 => fun x y y' v hg => by
    simp only [readMany] at hg ⊢
    exact hg
  | n + 1 => by
    have := Local.pair h (k := fun _ => readMany g n) (fun _ => readMany_local h n) (fun v vs => v :: vs) 0
    simp only [List.drop_zero, Nat.zero_add] at this
    simpa only [readMany] using this

/-- Reading behind a number of bytes that say what is to be read. -/
theorem Local.behind {α β : Type} {h : Nat} {g : Bytes → Bytes → Parsed (α × Nat)} (hl : ∀ d, Local (g d)) (k : Bytes → α → Nat → Parsed β) :
    Local fun b => if h ≤ b.length then g (b.take h) (b.drop h) >>= fun (v, n) => k (b.take h) v n >>= fun w => .ok (w, h + n) else .err .structError := by
  intro x y y' w hg
  simp only at hg ⊢
  split at hg
  · cases hr : g ((x ++ y).take h) ((x ++ y).drop h) with
    | ok p =>
      obtain ⟨v, n⟩ := p
      rw [hr] at hg
      simp only [ok_bind] at hg
      cases hk : k ((x ++ y).take h) v n with
      | ok u =>
        rw [hk] at hg
        simp only [ok_bind, Parsed.ok.injEq, Prod.mk.injEq] at hg
        obtain ⟨rfl, hx⟩ := hg
        rw [List.take_append_of_le_length (by omega)] at hr hk
        rw [List.drop_append_of_le_length (by omega)] at hr
        rw [if_pos (by rw [List.length_append]; omega), List.take_append_of_le_length (by omega), List.drop_append_of_le_length (by omega),
          (hl _).le hr (by rw [List.length_drop]; omega)]
        simp only [ok_bind, hk, hx]
      | err | deep | odd => rw [hk] at hg; cases hg
    | err | deep | odd => rw [hr] at hg; cases hg
  · cases hg

theorem until_local (t : Byte) : Local fun b => if t ∈ b then (.ok (.bytes (b.takeWhile (· != t)), (b.takeWhile (· != t)).length + 1) : Parsed (Val × Nat)) else .err .valueError := by
  intro x y y' v h
  simp only at h ⊢
  split at h
  · simp only [Parsed.ok.injEq, Prod.mk.injEq] at h
    obtain ⟨rfl, hl⟩ := h
    have ht : ∀ z, ¬ (x.takeWhile (· != t)).length = x.length → (x ++ z).takeWhile (· != t) = x.takeWhile (· != t) := fun z hz => by
      rw [List.takeWhile_append, if_neg hz]
    have hne : ¬ (x.takeWhile (· != t)).length = x.length := by
      intro he
      rw [List.takeWhile_append, if_pos he, List.length_append] at hl
      omega
    have hm : t ∈ x := by
      apply Classical.byContradiction
      intro hm
      apply hne
      have : ∀ x : Bytes, t ∉ x → x.takeWhile (· != t) = x := by
        intro x
        induction x with
        | nil => intro _; rfl
        | cons a x ih =>
          intro h
          rw [List.mem_cons, not_or] at h
          rw [List.takeWhile_cons_of_pos (by simpa using fun e => h.1 e.symm), ih h.2]
      rw [this x hm]
    rw [ht _ hne] at hl ⊢
    rw [if_pos (List.mem_append_left _ hm), ht _ hne, hl]
  · cases h

variable {P : Platform} {bo : ByteOrder} {S : ClassId → Prop} {cls : ClassId → Bytes → Parsed (Val × Nat)}

theorem net_local (o : PObj) : Local (Fmt.read P bo cls o .net) := by
  intro x y y' v h
  match x with
  | [] =>
    simp only [Fmt.read, List.nil_append, List.length_nil] at h
    revert h
    split
    · nofun
    · split
      · intro h; simp only [Parsed.ok.injEq, Prod.mk.injEq] at h; omega
      · split
        · nofun
        · split
          · intro h; simp only [Parsed.ok.injEq, Prod.mk.injEq] at h; omega
          · nofun
  | [c] =>
    simp only [Fmt.read, List.cons_append, List.nil_append, List.length_cons, List.length_nil] at h ⊢
    split at h
    · rename_i hc
      rw [if_pos hc]
      simp only [Parsed.ok.injEq, Prod.mk.injEq] at h ⊢
      have : c.toNat = 0 := by omega
      rw [this] at h ⊢
      exact h
    · revert h
      split
      · nofun
      · split
        · intro h; simp only [Parsed.ok.injEq, Prod.mk.injEq] at h; omega
        · nofun
  | c :: c' :: x =>
    simp only [Fmt.read, List.cons_append, List.length_cons] at h ⊢
    split at h
    · rename_i hc
      rw [if_pos hc]
      simp only [Parsed.ok.injEq, Prod.mk.injEq] at h ⊢
      obtain ⟨rfl, hl⟩ := h
      rw [hl]
      refine ⟨?_, rfl⟩
      rw [show c.toNat = (c' :: x).length by rw [List.length_cons]; omega, ← List.cons_append, ← List.cons_append, List.take_left, List.take_left]
    · rename_i hc
      rw [if_neg hc]
      split at h
      · rename_i hp
        rw [if_pos hp]
        simp only [Parsed.ok.injEq, Prod.mk.injEq] at h ⊢
        obtain ⟨rfl, hl⟩ := h
        rw [hl]
        refine ⟨?_, rfl⟩
        rw [show (c.toNat - 128) + 128 * c'.toNat = x.length by omega, List.take_left, List.take_left]
      · cases h

mutual
theorem read_local (hc : ∀ c, S c → Local (cls c)) (o : PObj) : ∀ f : Fmt, f.near S o.cls → Local (f.read P bo cls o)
  | .int .., _ | .bool, _ | .half, _ | .single, _ | .double, _ | .chars _, _ | .pascal _, _ => by
    intro x y y' v h
    simp only [Fmt.read] at h ⊢
    exact takes_local _ _ x y y' v h
  | .via _ f _ _ make, hn => by
    simp only [Fmt.near] at hn
    have := Local.bind (k := fun v => .ok (make v)) (read_local hc o f hn)
    intro x y y' v h
    have := this x y y' v
    simp only [ok_bind] at this
    simp only [Fmt.read] at h ⊢
    exact this h
  | .text f _ de, hn => by
    simp only [Fmt.near] at hn
    have := Local.bind (k := fun v : Val => match v with
      | .bytes d => Parsed.ofE (de d) >>= fun s => .ok (Val.str (dropNuls s))
      | _ => .odd) (read_local hc o f hn)
    intro x y y' v h
    have := this x y y' v
    simp only [Fmt.read] at h ⊢
    have e : ∀ b : Bytes, (f.read P bo cls o b >>= fun (v, n) => (match v with
        | .bytes d => Parsed.ofE (de d) >>= fun s => .ok (.str (dropNuls s))
        | _ => .odd : Parsed Val) >>= fun w => .ok (w, n)) = f.read P bo cls o b >>= fun (v, n) => match v with
        | .bytes d => Parsed.ofE (de d) >>= fun s => .ok (.str (dropNuls s), n)
        | _ => .odd := by
      intro b
      cases f.read P bo cls o b with
      | ok p =>
        obtain ⟨v, n⟩ := p
        simp only [ok_bind]
        cases v <;> first | rfl | (simp only [bind_assoc, ok_bind])
      | err | deep | odd => rfl
    simp only [e] at this
    exact this h
  | .counted w, _ => by
    intro x y y' v h
    simp only [Fmt.read] at h ⊢
    split at h
    · simp only [Parsed.ok.injEq, Prod.mk.injEq] at h
      obtain ⟨rfl, hl⟩ := h
      have hw : w.bytes ≤ x.length := by omega
      rw [if_pos (by rw [List.length_append]; omega)]
      rw [List.take_append_of_le_length hw] at hl ⊢
      rw [List.take_append_of_le_length hw, List.drop_append_of_le_length hw, List.drop_append_of_le_length hw,
        List.take_append_of_le_length (by rw [List.length_drop]; omega), List.take_append_of_le_length (by rw [List.length_drop]; omega), hl]
    · cases h
  | .until t, _ => by
    intro x y y' v h
    simp only [Fmt.read] at h ⊢
    exact until_local t x y y' v h
  | .net, _ => net_local o
  | .rest, hn => by simp only [Fmt.near] at hn
  | .fixed n f, hn => by
    simp only [Fmt.near] at hn
    have := Local.bind (k := fun vs => .ok (Val.list vs)) (readMany_local (read_local hc o f hn) n)
    intro x y y' v h
    have := this x y y' v
    simp only [ok_bind] at this
    simp only [Fmt.read] at h ⊢
    exact this h
  | .list w f, hn => by
    simp only [Fmt.near] at hn
    have := Local.behind (h := w.bytes) (g := fun d => readMany (f.read P bo cls o) (natFrom P bo d)) (fun _ => readMany_local (read_local hc o f hn) _)
      (fun _ vs _ => .ok (Val.list vs))
    intro x y y' v h
    have := this x y y' v
    simp only [ok_bind] at this
    simp only [Fmt.read] at h ⊢
    exact this h
  | .sized w w2 f, hn => by
    simp only [Fmt.near] at hn
    have := Local.behind (h := w.bytes + gap bo w.bytes (some (w2.bytes, w2.bytes)) + w2.bytes)
      (g := fun d => readMany (f.read P bo cls o) (natFrom P bo (d.take w.bytes))) (fun _ => readMany_local (read_local hc o f hn) _)
      (fun d vs k => if k = natFrom P bo ((d.drop (w.bytes + gap bo w.bytes (some (w2.bytes, w2.bytes)))).take w2.bytes) then .ok (Val.list vs) else .err .valueError)
    intro x y y' v h
    have := this x y y' v
    have e : ∀ b : Bytes, ((b.take (w.bytes + gap bo w.bytes (some (w2.bytes, w2.bytes)) + w2.bytes)).drop (w.bytes + gap bo w.bytes (some (w2.bytes, w2.bytes)))).take w2.bytes =
        (b.drop (w.bytes + gap bo w.bytes (some (w2.bytes, w2.bytes)))).take w2.bytes := by
      intro b
      rw [List.drop_take, List.take_take]
      congr 1
      omega
    have e2 : ∀ b : Bytes, (b.take (w.bytes + gap bo w.bytes (some (w2.bytes, w2.bytes)) + w2.bytes)).take w.bytes = b.take w.bytes := by
      intro b
      rw [List.take_take]
      congr 1
      omega
    have e3 : ∀ (p : Prop) [Decidable p] (vs : List Val) (m : Nat), ((if p then Parsed.ok (Val.list vs) else .err .valueError) >>= fun w => Parsed.ok (w, m)) =
        if p then .ok (.list vs, m) else .err .valueError := by
      intro p _ vs m
      split <;> rfl
    simp only [e, e2, e3] at this
    simp only [Fmt.read] at h ⊢
    exact this h
  | .tup fs, hn => by
    simp only [Fmt.near] at hn
    have := Local.bind (k := fun vs => .ok (Val.tup vs)) (reads_local hc o fs hn 0)
    intro x y y' v h
    have := this x y y' v
    simp only [ok_bind] at this
    simp only [Fmt.read] at h ⊢
    split at h
    · rename_i hf
      rw [if_pos hf]
      exact this h
    · cases h
  | .obj c, hn => by
    simp only [Fmt.near] at hn
    intro x y y' v h
    simp only [Fmt.read] at h ⊢
    exact hc c hn x y y' v h
  | .me, hn => by
    simp only [Fmt.near] at hn
    intro x y y' v h
    simp only [Fmt.read] at h ⊢
    exact hc _ hn x y y' v h
  | .choice _ _ ahead decider keys opts other, hn => by
    simp only [Fmt.near] at hn
    obtain ⟨rfl, h1, h2⟩ := hn
    intro x y y' v h
    simp only [Fmt.read] at h ⊢
    cases hd : decider o with
    | error e => rw [hd] at h; cases h
    | ok r =>
      rw [hd] at h
      simp only [Parsed.ofE, ok_bind] at h ⊢
      split at h
      · cases h
      · rename_i hh
        rw [if_neg hh]
        split at h
        · exact readAt_local hc o opts h1 _ x y y' v h
        · exact readAt_local hc o other h2 _ x y y' v h
theorem reads_local (hc : ∀ c, S c → Local (cls c)) (o : PObj) : ∀ fs : List Fmt, Fmt.allNear S o.cls fs → ∀ k, Local (Fmt.reads P bo cls o k fs)
  | [], _, k => fun x y y' v h => by simp only [Fmt.reads] at h ⊢; exact h
  | f :: fs, hn, k => by
    simp only [Fmt.allNear] at hn
    have := Local.pair (read_local hc o f hn.1) (k := fun _ => Fmt.reads P bo cls o (after bo k f.basic) fs) (fun _ => reads_local hc o fs hn.2 _)
      (fun v vs => v :: vs) (gap bo k f.basic)
    intro x y y' v h
    have := this x y y' v
    simp only [Fmt.reads] at h ⊢
    exact this h
theorem readAt_local (hc : ∀ c, S c → Local (cls c)) (o : PObj) : ∀ fs : List Fmt, Fmt.allNear S o.cls fs → ∀ k, Local (Fmt.readAt P bo cls o fs k)
  | [], _, k => fun x y y' v h => by simp only [Fmt.readAt] at h; cases h
  | f :: fs, hn, 0 => by
    simp only [Fmt.allNear] at hn
    intro x y y' v h
    simp only [Fmt.readAt] at h ⊢
    exact read_local hc o f hn.1 x y y' v h
  | f :: fs, hn, k + 1 => by
    simp only [Fmt.allNear] at hn
    intro x y y' v h
    simp only [Fmt.readAt] at h ⊢
    exact readAt_local hc o fs hn.2 k x y y' v h
end

theorem readFields_local (hc : ∀ c, S c → Local (cls c)) : ∀ (fs : List Field) (o : PObj), (∀ f ∈ fs, f.near S o.cls) → ∀ k, Local (readFields P bo cls o k fs)
  | [], o, _, k => fun x y y' v h => by simp only [readFields] at h ⊢; exact h
  | .value a f :: fs, o, hn, k => by
    have h1 := hn _ (List.mem_cons_self ..)
    simp only [Field.near] at h1
    have := Local.pair (read_local (P := P) (bo := bo) hc o f h1) (k := fun v => readFields P bo cls (o.with a v) (after bo k f.basic) fs)
      (fun v => readFields_local hc fs (o.with a v) (fun g hg => hn g (List.mem_cons_of_mem _ hg)) _) (fun v vs => v :: vs) (gap bo k f.basic)
    intro x y y' v h
    have := this x y y' v
    simp only [readFields] at h ⊢
    exact this h
  | .pad a n :: fs, o, hn, k => by
    have := Local.behind (h := n) (g := fun _ => readFields P bo cls o (k + n) fs)
      (fun v => readFields_local hc fs o (fun g hg => hn g (List.mem_cons_of_mem _ hg)) _) (fun _ vs _ => .ok vs)
    intro x y y' v h
    have := this x y y' v
    simp only [ok_bind] at this
    simp only [readFields] at h ⊢
    exact this h
  | .when a c f d :: fs, o, hn, k => by
    have h1 := hn _ (List.mem_cons_self ..)
    simp only [Field.near] at h1
    have h2 := Local.pair (read_local (P := P) (bo := bo) hc o f h1) (k := fun v => readFields P bo cls (o.with a v) 0 fs)
      (fun v => readFields_local hc fs (o.with a v) (fun g hg => hn g (List.mem_cons_of_mem _ hg)) _) (fun v vs => v :: vs) 0
    have h3 := Local.bind (k := fun vs => .ok (d :: vs)) (readFields_local hc fs (o.with a d) (fun g hg => hn g (List.mem_cons_of_mem _ hg)) 0)
    simp only [List.drop_zero, Nat.zero_add] at h2
    simp only [ok_bind] at h3
    intro x y y' v h
    simp only [readFields] at h ⊢
    cases hd : c o with
    | error e => rw [hd] at h; cases h
    | ok r =>
      rw [hd] at h
      simp only [Parsed.ofE, ok_bind] at h ⊢
      split at h
      · cases h
      · rename_i hh
        rw [if_neg hh]
        split at h
        · exact h2 x y y' v h
        · exact h3 x y y' v h
        · cases h

theorem readObj_local {docs : ClassId → Option ClassDoc} (h : NearDocs docs S) : ∀ k c, S c → Local (readObj P docs k c)
  | 0, c, _ => fun x y y' v hr => by simp only [readObj] at hr; cases hr
  | k + 1, c, hc => by
    cases hd : docs c with
    | none => intro x y y' v hr; simp only [readObj, hd] at hr; cases hr
    | some d =>
      have := Local.bind (k := fun vs => .ok (Val.obj c Option.none (d.attrs.zip vs)))
        (readFields_local (P := P) (bo := d.byteOrder) (readObj_local h k) d.fields ⟨c, true, []⟩ (h c d hc hd) 0)
      simp only [ok_bind] at this
      intro x y y' v hr
      simp only [readObj, hd] at hr ⊢
      split at hr
      · cases hr
      · rename_i hh
        rw [if_neg hh]
        exact this x y y' v hr

/-! ### Fields in front of others -/

/-- The object with these attributes as well. -/
def withAll (o : PObj) (names : List Name) (vs : List Val) : PObj := { o with attrs := o.attrs ++ names.zip vs }

theorem withAll_cons (o : PObj) (a : Name) (v : Val) (names : List Name) (vs : List Val) : withAll (o.with a v) names vs = withAll o (a :: names) (v :: vs) := by
  simp [withAll, PObj.with]

/-- The fields that are no pads. -/
abbrev names (fs : List Field) : List Name := (fs.filter (!·.isPad)).map Field.name

theorem readFields_append (gs : List Field) : ∀ (fs : List Field) (o : PObj) (k : Nat) (b : Bytes),
    readFields P bo cls o k (fs ++ gs) b = readFields P bo cls o k fs b >>= fun (vs, n) =>
      readFields P bo cls (withAll o (names fs) vs) (runs bo k fs) gs (b.drop n) >>= fun (ws, m) => .ok (vs ++ ws, n + m)
  | [], o, k, b => by
    simp only [List.nil_append, readFields, ok_bind, runs, withAll, names, List.filter_nil, List.map_nil, List.zip_nil_left, List.append_nil, List.drop_zero,
      Nat.zero_add]
    exact (bind_ok _).symm
  | .value a f :: fs, o, k, b => by
    simp only [List.cons_append, readFields, bind_assoc, runs]
    congr 1
    funext ⟨v, n⟩
    simp only [readFields_append gs fs, bind_assoc]
    congr 1
    funext ⟨vs, m⟩
    simp only [ok_bind, bind_assoc, List.drop_drop, withAll_cons]
    simp only [names, List.filter, Field.isPad, Bool.not_false, List.map_cons, Field.name, List.cons_append, Nat.add_assoc]
  | .pad a n :: fs, o, k, b => by
    simp only [List.cons_append, readFields, runs]
    split
    · simp only [readFields_append gs fs, bind_assoc]
      congr 1
      funext ⟨vs, m⟩
      simp only [ok_bind, bind_assoc, List.drop_drop]
      simp only [names, List.filter, Field.isPad, Bool.not_true, Nat.add_assoc]
    · rfl
  | .when a c f d :: fs, o, k, b => by
    simp only [List.cons_append, readFields, bind_assoc, runs]
    congr 1
    funext r
    split
    · rfl
    · split
      · simp only [bind_assoc]
        congr 1
        funext ⟨v, n⟩
        simp only [readFields_append gs fs, bind_assoc]
        congr 1
        funext ⟨vs, m⟩
        simp only [ok_bind, bind_assoc, List.drop_drop, withAll_cons]
        simp only [names, List.filter, Field.isPad, Bool.not_false, List.map_cons, Field.name, List.cons_append, Nat.add_assoc]
      · simp only [readFields_append gs fs, bind_assoc]
        congr 1
        funext ⟨vs, m⟩
        simp only [ok_bind, bind_assoc, withAll_cons]
        simp only [names, List.filter, Field.isPad, Bool.not_false, List.map_cons, Field.name, List.cons_append]
      · rfl

theorem readFields_within {ns : List Name} : ∀ (fs : List Field), (∀ f ∈ fs, f.within ns) → ∀ (o o' : PObj), Spec.Alike ns o o' → ∀ k b,
    readFields P bo cls o k fs b = readFields P bo cls o' k fs b
  | [], _, o, o', _, k, b => by simp only [readFields]
  | .value a f :: fs, h, o, o', ha, k, b => by
    have hf := h _ (List.mem_cons_self ..)
    simp only [Field.within] at hf
    simp only [readFields, Extends.read_within ha f hf]
    congr 1
    funext ⟨v, n⟩
    simp only [readFields_within fs (fun g hg => h g (List.mem_cons_of_mem _ hg)) _ _ (Extends.alike_with ha a v)]
  | .pad a n :: fs, h, o, o', ha, k, b => by
    simp only [readFields, readFields_within fs (fun g hg => h g (List.mem_cons_of_mem _ hg)) _ _ ha]
  | .when a c f d :: fs, h, o, o', ha, k, b => by
    have hf := h _ (List.mem_cons_self ..)
    simp only [Field.within] at hf
    simp only [readFields, hf.1 o o' ha, Extends.read_within ha f hf.2]
    congr 1
    funext r
    split
    · rfl
    · split
      · congr 1
        funext ⟨v, n⟩
        simp only [readFields_within fs (fun g hg => h g (List.mem_cons_of_mem _ hg)) _ _ (Extends.alike_with ha a v)]
      · simp only [readFields_within fs (fun g hg => h g (List.mem_cons_of_mem _ hg)) _ _ (Extends.alike_with ha a d)]
      · rfl

theorem takes_all {n : Nat} (f : Bytes → Val) {y : Bytes} (hy : y.length = n) : ∃ v, ∀ z : Bytes, takes n (y ++ z) f = .ok (v, n) := by
  refine ⟨f y, fun z => ?_⟩
  subst hy
  rw [takes, if_pos (by rw [List.length_append]; omega), List.take_left]

/-- Basic types are read from any bytes of their size, and from no others. -/
theorem read_basic (o : PObj) : ∀ {f : Fmt} {w a : Nat}, f.basic = some (w, a) → ∀ y : Bytes, y.length = w →
    ∃ v, ∀ z : Bytes, f.read P bo cls o (y ++ z) = .ok (v, w)
  | .int s w, _, _, h, y, hy | .bool, _, _, h, y, hy | .half, _, _, h, y, hy | .single, _, _, h, y, hy | .double, _, _, h, y, hy
  | .chars n, _, _, h, y, hy | .pascal n, _, _, h, y, hy => by
    simp only [Fmt.basic, Option.some.injEq, Prod.mk.injEq] at h
    obtain ⟨rfl, rfl⟩ := h
    simp only [Fmt.read]
    exact takes_all _ hy
  | .via _ f _ _ make, _, _, h, y, hy => by
    obtain ⟨v, hv⟩ := read_basic o (f := f) h y hy
    refine ⟨make v, fun z => ?_⟩
    simp only [Fmt.read, hv z]
    rfl

end Verif.Near
