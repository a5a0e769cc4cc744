import Verif.Spec.History
import Verif.Proofs.Enough
/-
Packing with tame serializers never depends on earlier operations (`Sem.enc` is not stuck).
-/
namespace Verif
open Sem

theorem nodesList_mem {vs : List Val} {x} : x ∈ Val.nodesList vs ↔ ∃ v ∈ vs, x ∈ v.nodes := by
  induction vs with
  | nil => simp [Val.nodesList]
  | cons v vs ih => simp [Val.nodesList, ih]

theorem nodes_strip : ∀ v : Val, v.strip.nodes = v.nodes
  | .custom _ v => by simp only [Val.strip, Val.nodes]; exact nodes_strip v
  | .none | .int _ | .bool _ | .float _ | .bytes _ | .str _ | .list _ | .tup _ | .obj .. | .gen => by rfl

theorem pyIter_nodes {v : Val} {vs : List Val} (h : pyIter v = .ok vs) {x} (hx : x ∈ Val.nodesList vs) : x ∈ v.nodes := by
  rw [← nodes_strip]
  unfold pyIter at h
  split at h
  case h_5 => cases h
  all_goals (cases h; rename_i e; rw [e])
  · obtain ⟨w, hw, hx⟩ := nodesList_mem.1 hx
    obtain ⟨_, _, rfl⟩ := List.mem_map.1 hw
    simp [Val.nodes] at hx
  · obtain ⟨w, hw, hx⟩ := nodesList_mem.1 hx
    obtain ⟨_, _, rfl⟩ := List.mem_map.1 hw
    simp [Val.nodes] at hx
  · exact hx
  · exact hx

theorem first_nodes {v : Val} {vs : List Val} (h : first vs = .ok v) {x} (hx : x ∈ v.nodes) : x ∈ Val.nodesList vs := by
  cases vs with
  | nil => cases h
  | cons w ws => cases h; exact nodesList_mem.2 ⟨_, by simp, hx⟩

theorem getAttr_nodes {attrs : List (Name × Val)} {a : Name} {v : Val} (h : getAttr? attrs a = some v) {x}
    (hx : x ∈ v.nodes) : x ∈ Val.nodesAttrs attrs := by
  induction attrs with
  | nil => cases h
  | cons y ys ih =>
    obtain ⟨b, w⟩ := y
    simp only [Val.nodesAttrs, List.mem_append]
    simp only [getAttr?, List.find?_cons] at h ih
    split at h
    · cases h; exact .inl hx
    · exact .inr (ih h)

theorem getAttrs_nodes {attrs : List (Name × Val)} : ∀ {names : List Name} {vs : List Val},
    getAttrs attrs names = .ok vs → ∀ {x}, x ∈ Val.nodesList vs → x ∈ Val.nodesAttrs attrs := by
  intro names
  induction names with
  | nil => intro vs h x hx; cases h; simp [Val.nodesList] at hx
  | cons a as ih =>
    intro vs h x hx
    simp only [getAttrs] at h
    cases h1 : getAttr? attrs a with
    | none => rw [h1] at h; cases h
    | some v =>
      rw [h1] at h
      cases h2 : getAttrs attrs as with
      | error e => rw [h2] at h; cases h
      | ok ws =>
        rw [h2] at h; cases h
        simp only [Val.nodesList, List.mem_append] at hx
        exact hx.elim (getAttr_nodes h1) (ih h2)

theorem Handles.mono {env : Env} {a b} {i : SerId} (h : Handles env a i) (hs : ∀ x, x ∈ a → x ∈ b) : Handles env b i := by
  obtain ⟨c, bo, attrs, ci, ser, h1, h2, h3⟩ := h
  exact ⟨c, bo, attrs, ci, ser, hs _ h1, h2, h3⟩

theorem Calm.mono {env : Env} {a b} (h : Calm env b) (hs : ∀ x, x ∈ a → x ∈ b) : Calm env a :=
  fun c bo attrs ci ser h1 h2 => h c bo attrs ci ser (hs _ h1) h2

/-! ### Facts about `keepers`, `inside`, `tame` -/

theorem keepersList_mem {ss : List Ser} {i : SerId} : i ∈ Ser.keepersList ss ↔ ∃ s ∈ ss, i ∈ s.keepers := by
  induction ss with
  | nil => simp [Ser.keepersList]
  | cons v vs ih => simp [Ser.keepersList, ih]

theorem itemKeepersList_mem {ss : List Ser} {i : SerId} : i ∈ Ser.itemKeepersList ss ↔ ∃ s ∈ ss, i ∈ s.itemKeepers := by
  induction ss with
  | nil => simp [Ser.itemKeepersList]
  | cons v vs ih => simp [Ser.itemKeepersList, ih]

theorem tameList_mem {unp : Bool} {ss : List Ser} : Ser.tameList unp ss = true ↔ ∀ s ∈ ss, s.tame unp = true := by
  induction ss with
  | nil => simp [Ser.tameList]
  | cons v vs ih => simp [Ser.tameList, ih]

theorem freeList_mem {ss : List Ser} : Ser.freeList ss = true ↔ ∀ s ∈ ss, s.free = true := by
  induction ss with
  | nil => simp [Ser.freeList]
  | cons v vs ih => simp [Ser.freeList, ih]

theorem keepers_eq (s : Ser) : s.keepers = s.keeper.toList ++ s.inside := by
  cases s <;> simp [Ser.keepers, Ser.inside, Ser.keeper]

theorem inside_keepers {s : Ser} {i : SerId} (h : i ∈ s.inside) : i ∈ s.keepers := by
  rw [keepers_eq]; simp [h]

theorem touch_keepers {s : Ser} {i : SerId} (h : i ∈ touch s) : i ∈ s.keepers := by
  rw [keepers_eq]; exact List.mem_append_left _ h

/-- A partial object is there when it is needed. -/
def Ready (s : Ser) (q : Option PObj) : Prop :=
  (q.isSome = true ∧ s.keeper.isSome = true) ∨ (s.keeper = none ∧ ∀ id ss, s = .compound id ss → ∀ t ∈ ss, t.keeper = none ∧
    ∀ id' ss', t = .compound id' ss' → Ser.freeList ss' = true)

theorem free_keeper {s : Ser} (h : s.free = true) : s.keeper = none := by
  cases s <;> simp_all [Ser.free, Ser.keeper]

theorem free_compound {s : Ser} (h : s.free = true) {id ss} (e : s = .compound id ss) : Ser.freeList ss = true := by
  subst e; simpa [Ser.free] using h

theorem ready_of_free {s : Ser} (h : s.free = true) : Ready s none := by
  refine .inr ⟨free_keeper h, ?_⟩
  rintro id ss rfl t ht
  have := freeList_mem.1 (by simpa [Ser.free] using h) t ht
  exact ⟨free_keeper this, fun _ _ e => free_compound this e⟩

theorem ready_member {s : Ser} (h : s.keeper = none) (hc : ∀ id ss, s = .compound id ss → Ser.freeList ss = true) :
    Ready s none := by
  refine .inr ⟨h, ?_⟩
  rintro id ss rfl t ht
  have := freeList_mem.1 (hc id ss rfl) t ht
  exact ⟨free_keeper this, fun _ _ e => free_compound this e⟩

theorem condPick_cases {s s' : Ser} {d : List Val} {r : Val} (h : condPick s d r = .ok s') : s' = s ∨ s' = .skip d := by
  unfold condPick at h
  split at h
  · cases h
  · split at h
    · cases h; exact .inl rfl
    · split at h
      · cases h; exact .inr rfl
      · cases h

/-- What `prepack` gives back is as tame as the serializer itself, and ready. -/
structure PreOk (unp : Bool) (s s' : Ser) (q : Option PObj) : Prop where
  tame : s'.tame unp = true
  ready : Ready s' q
  inside : ∀ i, i ∈ s'.inside → i ∈ s.inside
  keeper : s'.keeper = s.keeper
  items : ∀ i, i ∈ s'.itemKeepers → i ∈ s.itemKeepers
  lazy : s'.isLazy = true → s.canBeLazy = true

theorem pre_ok {unp : Bool} {s s' : Ser} {p : PObj} {q : Option PObj} (ht : s.tame unp = true)
    (h : pre s p = .ok (s', q)) : PreOk unp s s' q := by
  cases s with
  | cond ser c defs =>
    obtain ⟨r, h1, h⟩ := Except.bind_ok' h
    obtain ⟨s2, h2, h⟩ := Except.bind_ok' h
    cases h
    simp only [Ser.tame, Bool.and_eq_true] at ht
    rcases condPick_cases h2 with rfl | rfl
    · refine ⟨ht.2, ready_of_free ht.1, ?_, free_keeper ht.1, fun i hi => hi, ?_⟩
      · intro i hi
        simpa [Ser.inside, Ser.keeper, Ser.keepers] using inside_keepers hi
      · intro hl
        cases s' <;> simp_all [Ser.isLazy, Ser.isCompound, Ser.canBeLazy]
    · refine ⟨rfl, ready_of_free rfl, ?_, rfl, ?_, ?_⟩ <;>
        simp [Ser.inside, Ser.keeper, Ser.keepers, Ser.itemKeepers, Ser.isLazy, Ser.isCompound]
  | selfT id =>
    cases h
    refine ⟨rfl, ready_of_free rfl, ?_, rfl, ?_, ?_⟩ <;>
      simp [Ser.inside, Ser.keeper, Ser.keepers, Ser.itemKeepers, Ser.isLazy, Ser.isCompound]
  | compound id ss =>
    simp only [Sem.pre, Except.ok.injEq, Prod.mk.injEq] at h
    obtain ⟨h1, h2⟩ := h
    subst h2
    split at h1
    · subst h1
      refine ⟨by simpa [Ser.tame] using ht, .inr ⟨rfl, fun _ _ e => by cases e⟩, fun i hi => by exact hi, rfl,
        fun i hi => by exact hi, fun _ => rfl⟩
    · rename_i hn
      subst h1
      refine ⟨ht, .inr ⟨rfl, ?_⟩, fun i hi => hi, rfl, fun i hi => hi, fun _ => rfl⟩
      rintro id' ss' e t hm
      cases e
      have : t.overridesPre = false := by
        cases ho : t.overridesPre with
        | false => rfl
        | true => exact absurd (List.any_eq_true.2 ⟨t, hm, ho⟩) hn
      cases t <;> simp_all [Ser.overridesPre, Ser.keeper]
  | _ =>
    cases h
    refine ⟨ht, ?_, fun i hi => hi, rfl, fun i hi => hi, ?_⟩
    · first
        | exact .inl ⟨rfl, rfl⟩
        | exact .inr ⟨rfl, fun _ _ e => by cases e⟩
    · simp [Ser.isLazy, Ser.isCompound, Ser.canBeLazy]

theorem unionPick_tame {unp : Bool} {keys : List Val} {opts : List Ser} {dflt s : Ser} {r : Val}
    (h : unionPick keys opts dflt r = .ok s) (ho : Ser.tameList unp opts = true) (hd : dflt.tame unp = true) :
    s.tame unp = true := by
  rcases unionPick_mem h with h | rfl
  · exact tameList_mem.1 ho _ h
  · exact hd

theorem unionPick_keepers {keys : List Val} {opts : List Ser} {dflt s : Ser} {r : Val}
    (h : unionPick keys opts dflt r = .ok s) {i : SerId} (hi : i ∈ s.keepers) :
    i ∈ Ser.keepersList opts ++ dflt.keepers := by
  rcases unionPick_mem h with h | rfl
  · exact List.mem_append_left _ (keepersList_mem.2 ⟨_, h, hi⟩)
  · exact List.mem_append_right _ hi

theorem unionPick_items {keys : List Val} {opts : List Ser} {dflt s : Ser} {r : Val}
    (h : unionPick keys opts dflt r = .ok s) {i : SerId} (hi : i ∈ s.itemKeepers) :
    i ∈ Ser.itemKeepersList opts ++ dflt.itemKeepers := by
  rcases unionPick_mem h with h | rfl
  · exact List.mem_append_left _ (itemKeepersList_mem.2 ⟨_, h, hi⟩)
  · exact List.mem_append_right _ hi

/-! ### Packing -/

/-- Not stuck, and a success satisfies `Q`. -/
def Sat (o : Out α) (Q : α → Prop) : Prop := o ≠ .stuck ∧ ∀ r, o = .ok r → Q r

theorem Sat.ofE {x : Except Err α} {f : α → Out β} {P : β → Prop}
    (h : ∀ a, x = .ok a → Sat (f a) P) : Sat (Out.ofE x >>= f) P := by
  cases x with
  | error e => exact ⟨(by intro h; cases h), (by intro r h; cases h)⟩
  | ok a => exact h a rfl

theorem Sat.bind {x : Out α} {f : α → Out β} {P : β → Prop} {Q : α → Prop} (h : Sat x Q)
    (k : ∀ a, x = .ok a → Q a → Sat (f a) P) : Sat (x >>= f) P := by
  cases x with
  | stuck => exact absurd rfl h.1
  | err e => exact ⟨(by intro h; cases h), (by intro r h; cases h)⟩
  | ok a => exact k a rfl (h.2 a rfl)

theorem Sat.err {e : Err} {P : α → Prop} : Sat (.err e) P :=
  ⟨(by intro h; cases h), (by intro r h; cases h)⟩

theorem Sat.ok {r : α} {P : α → Prop} (h : P r) : Sat (.ok r) P :=
  ⟨(by intro h; cases h), (by intro r h; cases h; exact h)⟩

theorem Sat.mono {o : Out α} {P Q : α → Prop} (h : Sat o P) (hPQ : ∀ a, P a → Q a) : Sat o Q :=
  ⟨h.1, fun r hr => hPQ r (h.2 r hr)⟩

/-- Not stuck, and only these objects are handed a partial object. -/
abbrev Quiet (o : Out Enc) (P : SerId → Prop) : Prop := Sat o fun r => ∀ i ∈ r.touched, P i

theorem Quiet.leaf {x : Except Err Bytes} {P : SerId → Prop} : Quiet (encLeaf x) P := by
  cases x with
  | error e => exact Sat.err
  | ok b => exact Sat.ok (by simp)

section
variable {env : Env}

/-- The claim about one serializer. -/
def QuietEnc (env : Env) (encN : Ser → Option PObj → List Val → Out Enc) : Prop :=
  ∀ s q vs, s.tame false = true → Ready s q → Calm env (Val.nodesList vs) →
    (∀ k ∈ s.itemKeepers, ¬ Handles env (Val.nodesList vs) k) →
    Quiet (encN s q vs) (fun i => i ∈ s.inside ∨ Handles env (Val.nodesList vs) i)

theorem encLoop_quiet {encN : Ser → Option PObj → List Val → Out Enc} (hN : QuietEnc env encN)
    {preF : Ser → Except Err (Ser × Option PObj)} {tch : Ser → List SerId} (htch : ∀ s i, i ∈ tch s → i ∈ s.keepers) :
    ∀ ss vals, (∀ s ∈ ss, ∀ s' q, preF s = .ok (s', q) → PreOk false s s' q) →
      Calm env (Val.nodesList vals) → (∀ k ∈ Ser.itemKeepersList ss, ¬ Handles env (Val.nodesList vals) k) →
      Quiet (encLoop encN preF tch ss vals)
        (fun i => i ∈ Ser.keepersList ss ∨ Handles env (Val.nodesList vals) i) := by
  intro ss
  induction ss with
  | nil => intro vals _ _ _; exact Sat.ok (by simp)
  | cons s ss ih =>
    intro vals hpre hc hk
    rw [encLoop]
    refine Sat.ofE ?_
    rintro ⟨s', q⟩ e
    have hp := hpre s (by simp) s' q e
    have ht : ∀ x, x ∈ Val.nodesList (vals.take s'.numValues) → x ∈ Val.nodesList vals := fun x hx => by
      obtain ⟨v, h1, h2⟩ := nodesList_mem.1 hx
      exact nodesList_mem.2 ⟨v, List.mem_of_mem_take h1, h2⟩
    have hd : ∀ x, x ∈ Val.nodesList (vals.drop s'.numValues) → x ∈ Val.nodesList vals := fun x hx => by
      obtain ⟨v, h1, h2⟩ := nodesList_mem.1 hx
      exact nodesList_mem.2 ⟨v, List.mem_of_mem_drop h1, h2⟩
    refine Sat.bind (hN s' q _ hp.tame hp.ready (hc.mono ht) fun k hk' hh =>
      hk k (by simp [Ser.itemKeepersList, hp.items k hk']) (hh.mono ht)) ?_
    intro a _ ha
    split
    · exact Sat.err
    · refine Sat.bind (ih _ (fun s hs => hpre s (by simp [hs])) (hc.mono hd) fun k hk' hh =>
        hk k (by simp [Ser.itemKeepersList, hk']) (hh.mono hd)) ?_
      intro r _ hr
      refine Sat.ok ?_
      intro i hi
      simp only [Ser.keepersList, List.mem_append] at hi ⊢
      rcases hi with (hi | hi) | hi
      · exact .inl (.inl (htch _ _ hi))
      · rcases ha i hi with h | h
        · exact .inl (.inl (inside_keepers (hp.inside i h)))
        · exact .inr (h.mono ht)
      · rcases hr i hi with h | h
        · exact .inl (.inr h)
        · exact .inr (h.mono hd)

theorem encItems_quiet {encN : Ser → Option PObj → List Val → Out Enc} (hN : QuietEnc env encN) {item : Ser}
    {q : Option PObj} (ht : item.tame false = true) (hr : Ready item q) (hin : ∀ k, item.keeper = some k → k ∉ item.inside) :
    ∀ vals, Calm env (Val.nodesList vals) →
      (∀ k ∈ item.keeper.toList ++ item.itemKeepers, ¬ Handles env (Val.nodesList vals) k) →
      Quiet (encItems encN item q vals) (fun i => i ∈ item.inside ∨ Handles env (Val.nodesList vals) i) := by
  intro vals
  induction vals with
  | nil => intro _ _; exact Sat.ok (by simp)
  | cons v vals ih =>
    intro hc hk
    rw [encItems]
    have h1 : ∀ x, x ∈ Val.nodesList [v] → x ∈ Val.nodesList (v :: vals) := fun x hx => by
      simp only [Val.nodesList, List.append_nil, List.mem_append] at hx ⊢; exact .inl hx
    have h2 : ∀ x, x ∈ Val.nodesList vals → x ∈ Val.nodesList (v :: vals) := fun x hx => by
      simp only [Val.nodesList, List.mem_append]; exact .inr hx
    refine Sat.bind (hN item q _ ht hr (hc.mono h1) fun k hk' hh => hk k (by simp [hk']) (hh.mono h1)) ?_
    intro a _ ha
    split
    · exact Sat.err
    · split
      · rename_i hst
        exfalso
        cases hkp : item.keeper with
        | none => simp [hkp] at hst
        | some k =>
          simp only [hkp, Option.any_some, List.contains_iff_mem] at hst
          rcases ha k hst with h | h
          · exact hin k hkp h
          · exact hk k (by simp [hkp]) (h.mono h1)
      · refine Sat.bind (ih (hc.mono h2) fun k hk' hh => hk k hk' (hh.mono h2)) ?_
        intro r _ hr
        refine Sat.ok ?_
        intro i hi
        simp only [List.mem_append] at hi
        rcases hi with hi | hi
        · exact (ha i hi).imp id fun h => h.mono h1
        · exact (hr i hi).imp id fun h => h.mono h2

theorem encObj_quiet {encN : Ser → Option PObj → List Val → Out Enc} (hN : QuietEnc env encN) (v : Val)
    (hc : Calm env v.nodes) : Sat (encObj env encN v) (fun r => ∀ i ∈ r.1.touched, Handles env v.nodes i) := by
  cases v with
  | obj cls bo attrs =>
    simp only [encObj]
    refine Sat.ofE ?_
    rintro ⟨ci, ser⟩ h1
    obtain ⟨ht, hk⟩ := hc cls bo attrs ci ser (by simp [Val.nodes]) h1
    refine Sat.ofE ?_
    rintro ⟨s, q⟩ h2
    have hp := pre_ok ht h2
    refine Sat.ofE fun vals h3 => ?_
    have hn : ∀ x, x ∈ Val.nodesList vals → x ∈ Val.nodesAttrs attrs := fun x hx => getAttrs_nodes h3 hx
    have hn' : ∀ x, x ∈ Val.nodesList vals → x ∈ (Val.obj cls bo attrs).nodes := fun x hx => by
      simp [Val.nodes, hn x hx]
    refine Sat.bind (hN s q vals hp.tame hp.ready (hc.mono hn') fun k hk' hh => hk k (hp.items k hk') (hh.mono hn)) ?_
    intro r _ hr
    refine Sat.ok ?_
    intro i hi
    simp only [List.mem_append] at hi
    have self : ∀ i, i ∈ ser.keepers → Handles env (Val.obj cls bo attrs).nodes i := fun i hi =>
      ⟨cls, bo, attrs, ci, ser, by simp [Val.nodes], h1, hi⟩
    rcases hi with hi | hi
    · exact self i (touch_keepers hi)
    · rcases hr i hi with h | h
      · exact self i (inside_keepers (hp.inside i h))
      · exact h.mono hn'
  | _ => exact Sat.err

theorem encUnion_quiet {encN : Ser → Option PObj → List Val → Out Enc} (hN : QuietEnc env encN) {keys : List Val}
    {opts : List Ser} {dflt : Ser} {p : PObj} {r : Val} {vs : List Val} (ho : Ser.tameList false opts = true)
    (hd : dflt.tame false = true) (hc : Calm env (Val.nodesList vs))
    (hk : ∀ k ∈ Ser.itemKeepersList opts ++ dflt.itemKeepers, ¬ Handles env (Val.nodesList vs) k) :
    Quiet (encUnion encN keys opts dflt p r vs)
      (fun i => i ∈ Ser.keepersList opts ++ dflt.keepers ∨ Handles env (Val.nodesList vs) i) := by
  unfold encUnion
  refine Sat.ofE fun s e1 => Sat.ofE ?_
  rintro ⟨s', q⟩ e2
  have hp := pre_ok (unionPick_tame e1 ho hd) e2
  refine Sat.bind (hN s' q vs hp.tame hp.ready hc fun k hk' => hk k (unionPick_items e1 (hp.items k hk'))) ?_
  intro a _ ha
  split
  · exact Sat.err
  · refine Sat.ok ?_
    intro i hi
    simp only [List.mem_append] at hi
    rcases hi with hi | hi
    · exact .inl (unionPick_keepers e1 (touch_keepers hi))
    · exact (ha i hi).imp (fun h => unionPick_keepers e1 (inside_keepers (hp.inside i h))) id

theorem ready_none {s : Ser} {id : SerId} (h : Ready s none) (hk : s.keeper = some id) : False := by
  rcases h with h | ⟨h, _⟩
  · cases h.1
  · rw [hk] at h; cases h

theorem enc_quiet (env : Env) : ∀ n, QuietEnc env (enc env n) := by
  intro n
  induction n with
  | zero => intro s q vs _ _ _ _; exact Sat.err
  | succ n ih =>
    intro s q vs ht hr hc hk
    cases s with
    | null => exact Sat.ok (by simp)
    | struct st => exact Quiet.leaf
    | dynChar id st => exact Quiet.leaf
    | consuming id => exact Quiet.leaf
    | terminated id term => exact Quiet.leaf
    | net id => exact Quiet.leaf
    | staticArr count item ser => exact Quiet.leaf
    | dynArr id cnt item => exact Quiet.leaf
    | cond => exact Sat.err
    | skip => exact Sat.ok (by simp)
    | selfT => exact Sat.err
    | unicode inner en de =>
      simp only [Ser.tame, Bool.and_eq_true] at ht
      rw [enc]
      refine Sat.ofE fun b _ => ?_
      refine ⟨(ih inner none [.bytes b] ht.2 (ready_of_free ht.1) ?_ ?_).1, ?_⟩
      · intro c bo attrs ci ser h; simp [Val.nodesList, Val.nodes] at h
      · rintro k hk' ⟨c, bo, attrs, ci, ser, h, _⟩; simp [Val.nodesList, Val.nodes] at h
      · intro r hr' i hi
        rcases (ih inner none [.bytes b] ht.2 (ready_of_free ht.1) (by
            intro c bo attrs ci ser h; simp [Val.nodesList, Val.nodes] at h) (by
            rintro k hk' ⟨c, bo, attrs, ci, ser, h, _⟩; simp [Val.nodesList, Val.nodes] at h)).2 r hr' i hi with h | h
        · exact .inl (by simpa [Ser.inside, Ser.keeper, Ser.keepers] using inside_keepers h)
        · obtain ⟨c, bo, attrs, ci, ser, h, _⟩ := h
          simp [Val.nodesList, Val.nodes] at h
    | array id hdr item sl =>
      cases q with
      | none => exact (ready_none hr rfl).elim
      | some p =>
        simp only [enc]
        simp only [Ser.tame, Bool.and_eq_true] at ht
        refine Sat.ofE ?_
        rintro ⟨item', qi⟩ e1
        have hp := pre_ok ht.1 e1
        refine Sat.ofE fun v e2 => Sat.ofE fun items e3 => ?_
        have hn : ∀ x, x ∈ Val.nodesList items → x ∈ Val.nodesList vs := fun x hx => first_nodes e2 (pyIter_nodes e3 hx)
        refine Sat.bind (encItems_quiet ih hp.tame hp.ready ?_ items (hc.mono hn) ?_) ?_
        · intro k hk1 hk2
          rw [hp.keeper] at hk1
          have := ht.2
          have hm := hp.inside k hk2
          simp [hk1, hm] at this
        · intro k hk' hh
          rw [hp.keeper] at hk'
          refine hk k ?_ (hh.mono hn)
          simp only [Ser.itemKeepers, List.mem_append] at hk' ⊢
          exact hk'.imp_right (hp.items k)
        · intro r _ hr'
          refine Sat.ofE fun hv _ => Sat.ofE fun h _ => Sat.ok ?_
          intro i hi
          have hins : (Ser.array id hdr item sl).inside = item.keepers := by simp [Ser.inside, Ser.keeper, Ser.keepers]
          rw [hins]
          simp only [List.mem_append] at hi
          rcases hi with hi | hi
          · exact .inl (touch_keepers hi)
          · exact (hr' i hi).imp (fun h => inside_keepers (hp.inside i h)) fun h => h.mono hn
    | tuple id inner =>
      rcases vs with _ | ⟨v, _ | ⟨w, ws⟩⟩
      · exact Sat.err
      · cases q with
        | none => exact (ready_none hr rfl).elim
        | some p =>
          simp only [enc]
          simp only [Ser.tame, Bool.and_eq_true] at ht
          refine Sat.ofE ?_
          rintro ⟨inner', qi⟩ e1
          have hp := pre_ok ht.1 e1
          refine Sat.ofE fun vals e2 => ?_
          have hn : ∀ x, x ∈ Val.nodesList vals → x ∈ Val.nodesList [v] := fun x hx => by
            simp [Val.nodesList, pyIter_nodes e2 hx]
          refine Sat.bind (ih inner' qi vals hp.tame hp.ready (hc.mono hn) fun k hk' hh =>
            hk k (hp.items k hk') (hh.mono hn)) ?_
          intro r _ hr'
          refine Sat.ok ?_
          intro i hi
          have hins : (Ser.tuple id inner).inside = inner.keepers := by simp [Ser.inside, Ser.keeper, Ser.keepers]
          rw [hins]
          simp only [List.mem_append] at hi
          rcases hi with hi | hi
          · exact .inl (touch_keepers hi)
          · exact (hr' i hi).imp (fun h => inside_keepers (hp.inside i h)) fun h => h.mono hn
      · exact Sat.err
    | lookback id decider keys opts dflt =>
      cases q with
      | none => exact (ready_none hr rfl).elim
      | some p =>
        simp only [enc]
        simp only [Ser.tame, Bool.and_eq_true] at ht
        refine Sat.ofE fun r _ => ?_
        have hins : (Ser.lookback id decider keys opts dflt).inside = Ser.keepersList opts ++ dflt.keepers := by
          simp [Ser.inside, Ser.keeper, Ser.keepers]
        rw [hins]
        exact encUnion_quiet ih ht.1.1 ht.1.2 hc hk
    | lookahead id ra decider keys opts dflt =>
      cases q with
      | none => exact (ready_none hr rfl).elim
      | some p =>
        simp only [enc]
        simp only [Ser.tame, Bool.and_eq_true] at ht
        refine Sat.ofE fun r _ => ?_
        have := encUnion_quiet (keys := keys) (p := p) (r := r) ih ht.1.1 ht.1.2 hc fun k hk' => hk k (by
          simp only [Ser.itemKeepers, List.mem_append] at hk' ⊢; exact .inr hk')
        refine ⟨this.1, fun r hr' i hi => (this.2 r hr' i hi).imp (fun h => ?_) (fun h => h)⟩
        simp only [Ser.inside, Ser.keeper, Ser.keepers]
        simp only [Option.isSome_some, ↓reduceIte, List.tail_cons]
        exact List.mem_append_right _ h
    | structured id cls =>
      rcases vs with _ | ⟨v, _ | ⟨w, ws⟩⟩
      · exact Sat.err
      · simp only [enc]
        have hn : Val.nodesList [v] = v.nodes := by simp [Val.nodesList]
        rw [hn] at hc ⊢
        refine Sat.bind (encObj_quiet ih v hc) ?_
        rintro ⟨r, ser⟩ _ hr'
        simp only
        split
        · exact Sat.err
        · exact Sat.ok fun i hi => .inr (hr' i hi)
      · exact Sat.err
    | compound id ss =>
      rw [enc]
      simp only [Ser.tame] at ht
      have hr' : ∀ s ∈ ss, s.keeper = none ∧ ∀ id' ss', s = .compound id' ss' → Ser.freeList ss' = true := by
        rcases hr with h | ⟨_, h⟩
        · cases h.2
        · exact h id ss rfl
      refine encLoop_quiet (tch := fun _ => []) ih (by simp) ss vs ?_ hc hk
      rintro s hs s' q' ⟨⟩
      obtain ⟨h1, h2⟩ := hr' s hs
      exact ⟨tameList_mem.1 ht s hs, ready_member h1 h2, fun i hi => hi, rfl, fun i hi => hi, fun h => by
        cases s <;> simp_all [Ser.isLazy, Ser.isCompound, Ser.canBeLazy]⟩
    | specialized id p ss =>
      rw [enc]
      simp only [Ser.tame] at ht
      exact encLoop_quiet ih (fun s i hi => touch_keepers hi) ss vs
        (fun s hs s' q' e => pre_ok (tameList_mem.1 ht s hs) e) hc hk

end

end Verif
