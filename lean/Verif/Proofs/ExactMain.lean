import Verif.Proofs.Exact
import Verif.Proofs.Proxy
import Verif.Proofs.ReadTrim
/-
The main induction of C50 over containers, unions and classes.
-/
namespace Verif
open Sem

variable {env : Env} {k t : Bool}

/-! ### Terminated strings -/

theorem findTerm_split {term : Byte} : ∀ {b : Bytes} {j : Nat}, findTerm term b = some j → b.take j ++ [term] = b.take (j + 1) ∧ term ∉ b.take j
  | [], _, h => by cases h
  | x :: b, j, h => by
    simp only [findTerm] at h
    split at h
    · rename_i hx; cases h
      have hx : x = term := by simpa using hx
      subst hx
      simp
    · rename_i hx
      have hx : ¬ x = term := by simpa using hx
      obtain ⟨j', h1, rfl⟩ := Option.map_eq_some_iff.1 h
      obtain ⟨g1, g2⟩ := findTerm_split h1
      refine ⟨by simpa using g1, ?_⟩
      simp only [List.take_succ_cons, List.mem_cons, not_or]
      exact ⟨fun h => hx h.symm, g2⟩

theorem term_exact {term : Byte} {src : PSrc} {b : Bytes} (hv : Views src b) (ha : src.isAt = false) {d : Dec} (h : terminatedDec term src = .ok d) :
    ∃ x, d = ⟨[.bytes x], x.length + 1, src.ahead (x.length + 1), []⟩ ∧ x.length + 1 ≤ b.length ∧ term ∉ x ∧ x ++ [term] = b.take (x.length + 1) := by
  have key : ∀ j, findTerm term b = some j → (b.take j).length = j ∧ j + 1 ≤ b.length ∧ term ∉ b.take j ∧ b.take j ++ [term] = b.take (j + 1) := by
    intro j hj
    have := findTerm_lt hj
    obtain ⟨g1, g2⟩ := findTerm_split hj
    exact ⟨by rw [List.length_take]; omega, by omega, g2, g1⟩
  cases src with
  | «at» => cases ha
  | buf x =>
    cases hv
    simp only [terminatedDec] at h
    split at h
    · cases h
    · rename_i j hj; cases h
      obtain ⟨g1, g2, g3, g4⟩ := key j hj
      exact ⟨b.take j, by rw [g1]; rfl, by rw [g1]; exact g2, g3, by rw [g1]; exact g4⟩
  | io data pos =>
    have hv : data.drop pos = b := hv
    simp only [terminatedDec, hv] at h
    rw [termReadLoop_eq term _ _ _ _ (Nat.lt_succ_self _)] at h
    cases hj : findTerm term b with
    | none => rw [hj] at h; cases h
    | some j =>
      rw [hj] at h
      simp only [Option.map, List.nil_append, Nat.zero_add, Except.ok.injEq] at h
      obtain ⟨g1, g2, g3, g4⟩ := key j hj
      exact ⟨b.take j, by rw [g1, ← h]; rfl, by rw [g1]; exact g2, g3, by rw [g1]; exact g4⟩

/-! ### Packing and unpacking use the same serializers -/

/-- The partial object of the unpacker shows the attributes that the object has. -/
def AgreeP (names : List Name) (p q : PObj) : Prop := p.cls = q.cls ∧ ∀ a ∈ names, getAttr? p.attrs a = getAttr? q.attrs a

inductive Twin (names : List Name) : Ser → Ser → Prop
  | same (s : Ser) : Twin names s s
  | spec (id : SerId) (p p' : PObj) (ss : List Ser) (h : AgreeP names p p') : Twin names (.specialized id p ss) (.specialized id p' ss)

inductive TwinQ (names : List Name) : Option PObj → Option PObj → Prop
  | none : TwinQ names Option.none Option.none
  | some (p p' : PObj) (h : AgreeP names p p') : TwinQ names (Option.some p) (Option.some p')

theorem Twin.shape {names : List Name} {s1 s2 : Ser} (h : Twin names s1 s2) : s1.sized = s2.sized ∧ s1.keeper = s2.keeper := by
  cases h <;> simp [Ser.sized, Ser.keeper]

theorem condPick_ok {ser s : Ser} {defs : List Val} {r : Val} (h : condPick ser defs r = .ok s) : s = ser ∨ s = .skip defs := by
  unfold condPick at h
  split at h
  · cases h
  · split at h
    · cases h; exact .inl rfl
    · split at h <;> cases h; exact .inr rfl

theorem pre_twin {names : List Name} {s : Ser} {p p' : PObj} (hp : AgreeP names p p') (he : s.exact k t names) {s2 : Ser} {q2 : Option PObj}
    (h : preU s p' = .ok (s2, q2)) : ∃ s1 q1, pre s p = .ok (s1, q1) ∧ Twin names s1 s2 ∧ TwinQ names q1 q2 ∧ s2.exact k t names ∧
      s2.yields = s.yields ∧ s1.numValues = s.numValues := by
  have keep : ∀ s : Ser, TwinQ names (s.keeper.map fun _ => p) (s.keeper.map fun _ => p') := by
    intro s
    cases s.keeper
    · exact .none
    · exact .some _ _ hp
  cases s with
  | cond ser c defs =>
    simp only [preU, pre] at h ⊢
    simp only [Ser.exact] at he
    obtain ⟨r, h1, h⟩ := Except.bind_ok' h
    obtain ⟨x, h2, h⟩ := Except.bind_ok' h
    cases h
    rw [he.1 p p' hp.1 hp.2, h1]
    refine ⟨s2, Option.none, by simp only [bind, Except.bind, h2], .same _, .none, ?_⟩
    rcases condPick_ok h2 with rfl | rfl
    · exact ⟨he.2.2.2.2, he.2.1, rfl⟩
    · exact ⟨by simp only [Ser.exact], he.2.2.1, he.2.2.1⟩
  | selfT id =>
    simp only [preU, pre] at h ⊢
    obtain ⟨c, h1, h⟩ := Except.bind_ok' h
    cases h
    have : c = p.cls := by
      unfold clsOfPartial at h1
      split at h1
      · cases h1
      · split at h1 <;> cases h1; exact hp.1.symm
    subst this
    exact ⟨_, _, rfl, .same _, .none, by simp only [Ser.exact], rfl, rfl⟩
  | compound id ss =>
    simp only [preU, pre, Except.ok.injEq, Prod.mk.injEq] at h
    obtain ⟨rfl, rfl⟩ := h
    refine ⟨if needsPreprocess ss then .specialized id p ss else .compound id ss, Option.none, rfl, ?_⟩
    by_cases hc : needsPreprocess ss
    · simp only [if_pos hc]
      exact ⟨.spec _ _ _ _ hp, .none, by simpa only [Ser.exact] using he, rfl, rfl⟩
    · simp only [if_neg hc]
      exact ⟨.same _, .none, he, trivial, trivial⟩
  | null => cases h; exact ⟨_, _, rfl, .same _, .none, he, rfl, rfl⟩
  | struct => cases h; exact ⟨_, _, rfl, .same _, .none, he, rfl, rfl⟩
  | dynChar => cases h; exact ⟨_, _, rfl, .same _, .none, he, rfl, rfl⟩
  | consuming => cases h; exact ⟨_, _, rfl, .same _, .none, he, rfl, rfl⟩
  | terminated => cases h; exact ⟨_, _, rfl, .same _, .none, he, rfl, rfl⟩
  | net => cases h; exact ⟨_, _, rfl, .same _, .none, he, rfl, rfl⟩
  | unicode => cases h; exact ⟨_, _, rfl, .same _, .none, he, rfl, rfl⟩
  | array => cases h; exact ⟨_, _, rfl, .same _, .some _ _ hp, he, rfl, rfl⟩
  | staticArr => cases h; exact ⟨_, _, rfl, .same _, .none, he, rfl, rfl⟩
  | dynArr => cases h; exact ⟨_, _, rfl, .same _, .none, he, rfl, rfl⟩
  | tuple => cases h; exact ⟨_, _, rfl, .same _, .some _ _ hp, he, rfl, rfl⟩
  | lookback => cases h; exact ⟨_, _, rfl, .same _, .some _ _ hp, he, rfl, rfl⟩
  | lookahead => cases h; exact ⟨_, _, rfl, .same _, .some _ _ hp, he, rfl, rfl⟩
  | skip => cases h; exact ⟨_, _, rfl, .same _, .none, he, rfl, rfl⟩
  | structured => cases h; exact ⟨_, _, rfl, .same _, .none, he, rfl, rfl⟩
  | specialized => cases h; exact ⟨_, _, rfl, .same _, .none, he, rfl, rfl⟩

/-! ### Sizes grow -/

theorem decLoop_grows {decN : Ser → Option PObj → PSrc → Out Dec} {src : PSrc} : ∀ (ss : List Ser) (size pos : Nat) (d : Dec),
    decLoop decN src size pos ss = .ok d → size ≤ d.size
  | [], size, pos, d, h => by cases h; exact Nat.le_refl _
  | s :: ss, size, pos, d, h => by
    rw [decLoop] at h
    obtain ⟨a, _, h⟩ := Out.bind_ok' h
    obtain ⟨_, h⟩ := sized_of_enc h
    obtain ⟨r, h2, h⟩ := Out.bind_ok' h
    cases h
    have := decLoop_grows ss _ _ _ h2
    simp only; omega

theorem decLoopSpec_grows {decN : Ser → Option PObj → PSrc → Out Dec} {upd : Upd} {src : PSrc} : ∀ (ss : List Ser) (p : PObj) (done size pos : Nat) (d : Dec),
    decLoopSpec decN upd src p done size pos ss = .ok d → size ≤ d.size
  | [], p, done, size, pos, d, h => by cases h; exact Nat.le_refl _
  | s :: ss, p, done, size, pos, d, h => by
    rw [decLoopSpec] at h
    obtain ⟨x, _, h⟩ := Out.ofE_ok' h
    obtain ⟨a, _, h⟩ := Out.bind_ok' h
    obtain ⟨p', _, h⟩ := Out.ofE_ok' h
    obtain ⟨_, h⟩ := sized_of_enc h
    obtain ⟨r, h2, h⟩ := Out.bind_ok' h
    cases h
    have := decLoopSpec_grows ss _ _ _ _ _ h2
    simp only; omega

theorem decItems_grows {decN : Ser → Option PObj → PSrc → Out Dec} {item : Ser} {q : Option PObj} {src : PSrc} : ∀ (k size pos : Nat) (d : Dec),
    decItems decN item q src size pos k = .ok d → size ≤ d.size
  | 0, size, pos, d, h => by cases h; exact Nat.le_refl _
  | k + 1, size, pos, d, h => by
    rw [decItems] at h
    obtain ⟨a, _, h⟩ := Out.bind_ok' h
    obtain ⟨_, h⟩ := sized_of_enc h
    split at h
    · cases h
    · obtain ⟨r, h2, h⟩ := Out.bind_ok' h
      cases h
      have := decItems_grows k _ _ _ h2
      simp only; omega

/-! ### The induction -/

/-- Read and packed again with recursion limit `n`. -/
def Restore (env : Env) (k t : Bool) (n : Nat) : Prop :=
  ∀ names s1 s2 q1 q2 src b d, Twin names s1 s2 → TwinQ names q1 q2 → s2.exact k t names → Views src b → (t = true → src.isAt = false) →
    (k = true → src.isBuf = true ∧ d.size ≤ b.length) → dec env n noUpd s2 q2 src = .ok d →
    d.vals.length = s2.yields ∧ d.size ≤ b.length ∧ d.pos = src.ahead d.size ∧ Back k (enc env n s1 q1 d.vals) (b.take d.size) d.touched

theorem take_split {b : Bytes} {size m m' : Nat} : (b.drop size).take m ++ (b.drop (size + m)).take m' = (b.drop size).take (m + m') := by
  rw [List.take_add, List.drop_drop]

section loops
variable {n : Nat} (ih : Restore env k t n) {src : PSrc} {b : Bytes} (hv : Views src b) (ht : t = true → src.isAt = false)
include ih hv ht

theorem items_exact {names : List Name} {i1 i2 : Ser} {q1 q2 : Option PObj} (hi : Twin names i1 i2) (hq : TwinQ names q1 q2) (he : i2.exact k t names)
    (hy : i2.yields = 1) : ∀ (c size : Nat) (d : Dec), (k = true → src.isBuf = true ∧ d.size ≤ b.length) → size ≤ b.length →
    decItems (dec env n noUpd) i2 q2 src size (src.ahead size) c = .ok d →
    ∃ m, d.size = size + m ∧ size + m ≤ b.length ∧ d.vals.length = c ∧ d.pos = src.ahead (size + m) ∧
      Back k (encItems (enc env n) i1 q1 d.vals) ((b.drop size).take m) d.touched
  | 0, size, d, _, hs, h => by
    cases h
    exact ⟨0, rfl, hs, rfl, rfl, .inl rfl⟩
  | c + 1, size, d, hk, hs, h => by
    rw [decItems] at h
    obtain ⟨a, h1, h⟩ := Out.bind_ok' h
    obtain ⟨hz, h⟩ := sized_of_enc h
    split at h
    · cases h
    · rename_i hst
      obtain ⟨r, h2, h⟩ := Out.bind_ok' h
      cases h
      simp only at hk ⊢
      have hg := decItems_grows _ _ _ _ h2
      obtain ⟨g1, g2, g3, g4⟩ := ih _ _ _ _ _ _ _ a hi hq he (hv.nil hs) (fun h => by rw [isAt_next]; exact ht h)
        (fun h => by rw [isBuf_next, List.length_drop]; exact ⟨(hk h).1, by have := (hk h).2; omega⟩) h1
      rw [List.length_drop] at g2
      rw [ahead_next] at g3
      rw [g3] at h2
      obtain ⟨m, e1, e2, e3, e4, e5⟩ := items_exact hi hq he hy c (size + a.size) r hk (by omega) h2
      refine ⟨a.size + m, by omega, by omega, by rw [List.length_append, g1, hy, e3]; omega, by rw [e4, Nat.add_assoc], ?_⟩
      rw [hy] at g1
      obtain ⟨v, hav⟩ := List.length_eq_one_iff.1 g1
      rw [hav] at g4 ⊢
      rw [List.singleton_append, encItems]
      refine g4.bind ?_
      simp only
      rw [if_neg (by rw [hi.shape.1, hz]; simp), hi.shape.2, if_neg hst]
      refine e5.bind (.inl ?_)
      rw [take_split]

theorem loop_exact : ∀ (ss : List Ser) (size : Nat) (d : Dec), (∀ s ∈ ss, ∃ names, s.exact k t names ∧ s.yields = s.numValues) →
    (k = true → src.isBuf = true ∧ d.size ≤ b.length) → size ≤ b.length → decLoop (dec env n noUpd) src size (src.ahead size) ss = .ok d →
    ∃ m, d.size = size + m ∧ size + m ≤ b.length ∧ d.vals.length = Ser.numValuesList ss ∧ d.pos = src.ahead (size + m) ∧
      Back k (encLoop (enc env n) (fun s => .ok (s, none)) (fun _ => []) ss d.vals) ((b.drop size).take m) d.touched
  | [], size, d, _, _, hs, h => by
    cases h
    exact ⟨0, rfl, hs, rfl, rfl, .inl rfl⟩
  | s :: ss, size, d, he, hk, hs, h => by
    rw [decLoop] at h
    obtain ⟨a, h1, h⟩ := Out.bind_ok' h
    obtain ⟨hz, h⟩ := sized_of_enc h
    obtain ⟨r, h2, h⟩ := Out.bind_ok' h
    cases h
    simp only at hk ⊢
    have hg := decLoop_grows _ _ _ _ h2
    obtain ⟨names, he1, he2⟩ := he s (by simp)
    obtain ⟨g1, g2, g3, g4⟩ := ih names s s none none _ _ a (.same s) .none he1 (hv.nil hs) (fun h => by rw [isAt_next]; exact ht h)
      (fun h => by rw [isBuf_next, List.length_drop]; exact ⟨(hk h).1, by have := (hk h).2; omega⟩) h1
    rw [List.length_drop] at g2
    rw [ahead_next] at g3
    rw [g3] at h2
    obtain ⟨m, e1, e2, e3, e4, e5⟩ := loop_exact ss (size + a.size) r (fun s hs => he s (by simp [hs])) hk (by omega) h2
    rw [he2] at g1
    refine ⟨a.size + m, by omega, by omega, by rw [List.length_append, g1, e3]; rfl, by rw [e4, Nat.add_assoc], ?_⟩
    rw [encLoop, Out.ofE_ok_bind rfl]
    simp only
    rw [← g1, List.take_left, List.drop_left]
    refine g4.bind ?_
    simp only
    rw [if_neg (by rw [hz]; simp)]
    refine e5.bind (.inl ?_)
    rw [take_split]
    rfl

theorem spec_exact {names : List Name} {p p' : PObj} (hp : AgreeP names p p') : ∀ (ss : List Ser) (done size : Nat) (d : Dec), Ser.exactList k t names ss →
    (k = true → src.isBuf = true ∧ d.size ≤ b.length) → size ≤ b.length →
    decLoopSpec (dec env n noUpd) noUpd src p' done size (src.ahead size) ss = .ok d →
    ∃ m, d.size = size + m ∧ size + m ≤ b.length ∧ d.vals.length = Ser.numValuesList ss ∧ d.pos = src.ahead (size + m) ∧
      Back k (encLoop (enc env n) (fun s => pre s p) touch ss d.vals) ((b.drop size).take m) d.touched
  | [], done, size, d, _, _, hs, h => by
    cases h
    exact ⟨0, rfl, hs, rfl, rfl, .inl rfl⟩
  | s :: ss, done, size, d, he, hk, hs, h => by
    rw [decLoopSpec] at h
    obtain ⟨⟨s2, q2⟩, h0, h⟩ := Out.ofE_ok' h
    obtain ⟨a, h1, h⟩ := Out.bind_ok' h
    obtain ⟨p2, hp2, h⟩ := Out.ofE_ok' h
    cases hp2
    obtain ⟨hz, h⟩ := sized_of_enc h
    obtain ⟨r, h2, h⟩ := Out.bind_ok' h
    cases h
    simp only at hk hz h1 h2 ⊢
    have hg := decLoopSpec_grows _ _ _ _ _ _ h2
    simp only [Ser.exactList] at he
    obtain ⟨he2, he1, he3⟩ := he
    obtain ⟨s1, q1, w1, w2, w3, w4, w5, w6⟩ := pre_twin hp he1 h0
    obtain ⟨g1, g2, g3, g4⟩ := ih names _ _ _ _ _ _ a w2 w3 w4 (hv.nil hs) (fun h => by rw [isAt_next]; exact ht h)
      (fun h => by rw [isBuf_next, List.length_drop]; exact ⟨(hk h).1, by have := (hk h).2; omega⟩) h1
    rw [List.length_drop] at g2
    rw [ahead_next] at g3
    rw [g3] at h2
    obtain ⟨m, e1, e2, e3, e4, e5⟩ := spec_exact hp ss _ (size + a.size) r he3 hk (by omega) h2
    rw [w5, he2] at g1
    refine ⟨a.size + m, by omega, by omega, by rw [List.length_append, g1, e3]; rfl, by rw [e4, Nat.add_assoc], ?_⟩
    rw [encLoop, Out.ofE_ok_bind w1]
    simp only
    rw [w6, ← g1, List.take_left, List.drop_left]
    refine g4.bind ?_
    simp only
    rw [if_neg (by rw [w2.shape.1, hz]; simp)]
    refine e5.bind (.inl ?_)
    rw [take_split]

end loops

/-! ### Attributes seen while unpacking -/

theorem getAttr_append {as bs : List (Name × Val)} {a : Name} (h : a ∈ as.map Prod.fst) : getAttr? (as ++ bs) a = getAttr? as a := by
  unfold getAttr?
  rw [List.find?_append]
  obtain ⟨x, hx, rfl⟩ := List.mem_map.1 h
  have : (as.find? fun p => p.1 == x.1).isSome := by
    rw [List.find?_isSome]
    exact ⟨x, hx, by simp⟩
  obtain ⟨y, hy⟩ := Option.isSome_iff_exists.1 this
  rw [hy]; rfl

theorem zip_fst_take : ∀ (names : List Name) (vs : List Val), (names.zip vs).map Prod.fst = names.take vs.length
  | [], vs => by simp
  | _ :: _, [] => by simp
  | x :: xs, y :: ys => by simpa using zip_fst_take xs ys

theorem agree_zip {attrs : List Name} {prev more : List Val} {cls : ClassId} {x y : Bool} (h : prev.length ≤ attrs.length) :
    AgreeP (attrs.take prev.length) ⟨cls, x, attrs.zip (prev ++ more)⟩ ⟨cls, y, attrs.zip prev⟩ := by
  refine ⟨rfl, fun a ha => ?_⟩
  simp only
  rw [zip_split h, getAttr_append]
  rw [zip_fst_take]; exact ha

theorem assign_zip {attrs : List Name} (hn : attrs.Nodup) {prev vs : List Val} {cls : ClassId} {x : Bool} {p' : PObj}
    (hl : prev.length ≤ attrs.length) (h : assignVals attrs ⟨cls, x, attrs.zip prev⟩ prev.length vs = .ok p') :
    prev.length + vs.length ≤ attrs.length ∧ p' = ⟨cls, x, attrs.zip (prev ++ vs)⟩ := by
  obtain ⟨h1, rfl⟩ := assignVals_set h
  rw [List.length_drop] at h1
  refine ⟨by omega, ?_⟩
  simp only [PObj.mk.injEq, true_and]
  rw [zip_split hl, setAll_new ((zip_fst_sublist _ _).nodup ((List.drop_sublist _ _).nodup hn))]
  intro a ha hb
  rw [zip_fst_take] at ha hb
  have hd := List.take_append_drop prev.length attrs ▸ hn
  rw [List.nodup_append] at hd
  exact hd.2.2 a hb a (List.mem_of_mem_take ha) rfl

theorem class_exact {n : Nat} (ih : Restore env k t n) {src : PSrc} {b : Bytes} (hv : Views src b) (ht : t = true → src.isAt = false)
    {attrs : List Name} (hn : attrs.Nodup) {cls : ClassId} : ∀ (ss : List Ser) (prev : List Val) (size : Nat) (d : Dec),
    exactParts k t attrs prev.length ss → prev.length ≤ attrs.length →
    (k = true → src.isBuf = true ∧ d.size ≤ b.length) → size ≤ b.length →
    decLoopSpec (dec env n noUpd) (assignVals attrs) src ⟨cls, true, attrs.zip prev⟩ prev.length size (src.ahead size) ss = .ok d →
    ∃ m, d.size = size + m ∧ size + m ≤ b.length ∧ d.pos = src.ahead (size + m) ∧
      Back k (encLoop (enc env n) (fun s => pre s ⟨cls, false, attrs.zip (prev ++ d.vals)⟩) touch ss d.vals) ((b.drop size).take m) d.touched
  | [], prev, size, d, _, _, _, hs, h => by
    cases h
    exact ⟨0, rfl, hs, rfl, .inl rfl⟩
  | s :: ss, prev, size, d, he, hl, hk, hs, h => by
    rw [decLoopSpec] at h
    obtain ⟨⟨s2, q2⟩, h0, h⟩ := Out.ofE_ok' h
    obtain ⟨a, h1, h⟩ := Out.bind_ok' h
    obtain ⟨p2, hp2, h⟩ := Out.ofE_ok' h
    obtain ⟨hl2, rfl⟩ := assign_zip hn hl hp2
    obtain ⟨hz, h⟩ := sized_of_enc h
    obtain ⟨r, h2, h⟩ := Out.bind_ok' h
    cases h
    simp only at hk hz h1 h2 ⊢
    have hg := decLoopSpec_grows _ _ _ _ _ _ h2
    obtain ⟨he2, he1, he3⟩ := he
    obtain ⟨s1, q1, w1, w2, w3, w4, w5, w6⟩ := pre_twin (agree_zip (x := false) (more := a.vals ++ r.vals) hl) he1 h0
    obtain ⟨g1, g2, g3, g4⟩ := ih _ _ _ _ _ _ _ a w2 w3 w4 (hv.nil hs) (fun h => by rw [isAt_next]; exact ht h)
      (fun h => by rw [isBuf_next, List.length_drop]; exact ⟨(hk h).1, by have := (hk h).2; omega⟩) h1
    rw [List.length_drop] at g2
    rw [ahead_next] at g3
    rw [g3] at h2
    rw [w5, he2] at g1
    rw [← g1, ← List.length_append] at he3
    rw [← List.length_append] at h2
    obtain ⟨m, e1, e2, e4, e5⟩ := class_exact ih hv ht hn ss (prev ++ a.vals) (size + a.size) r he3 (by rw [List.length_append]; exact hl2) hk (by omega) h2
    refine ⟨a.size + m, by omega, by omega, by rw [e4, Nat.add_assoc], ?_⟩
    rw [encLoop, Out.ofE_ok_bind w1]
    simp only
    rw [w6, ← g1, List.take_left, List.drop_left]
    refine g4.bind ?_
    simp only
    rw [if_neg (by rw [w2.shape.1, hz]; simp)]
    rw [List.append_assoc] at e5
    refine e5.bind (.inl ?_)
    rw [take_split]

theorem exactParts_each {attrs : List Name} : ∀ (ss : List Ser) (done : Nat), exactParts k t attrs done ss →
    ∀ s ∈ ss, ∃ names, s.exact k t names ∧ s.yields = s.numValues
  | [], _, _, s, hs => by simp at hs
  | s0 :: ss, done, h, s, hs => by
    obtain ⟨h1, h2, h3⟩ := h
    rcases List.mem_cons.1 hs with rfl | hs
    · exact ⟨_, h2, h1⟩
    · exact exactParts_each ss _ h3 s hs

theorem dec_noUpd {n : Nat} {upd : Upd} {s : Ser} {q : Option PObj} {src : PSrc} (hs : ∀ id p ss, s ≠ .specialized id p ss) :
    dec env n upd s q src = dec env n noUpd s q src := by
  cases n with
  | zero => rfl
  | succ n => cases s <;> first | exact absurd rfl (hs _ _ _) | simp only [dec]

/-- An object, read and packed again. -/
theorem obj_exact (hE : env.exact k t) {n : Nat} (ih : ∀ m ≤ n, Restore env k t m) {src : PSrc} {b : Bytes} (hv : Views src b)
    (ht : t = true → src.isAt = false) {cls : ClassId} {v : Val} {d : Dec} {ser : Ser} (hk : k = true → src.isBuf = true ∧ d.size ≤ b.length)
    (h : decObj env (dec env n) cls src = .ok (v, d, ser)) :
    d.size ≤ b.length ∧ d.pos = src.ahead d.size ∧
      (encObj env (enc env n) v = .ok (⟨b.take d.size, d.touched⟩, ser) ∨ (k = true ∧ ∃ e, encObj env (enc env n) v = .err e)) := by
  unfold decObj at h
  cases hci : env.classes cls with
  | none => rw [hci] at h; cases h
  | some ci =>
    rw [hci] at h
    simp only at h
    obtain ⟨⟨s2, q2⟩, h0, h⟩ := Out.ofE_ok' h
    obtain ⟨r, h1, h⟩ := Out.bind_ok' h
    obtain ⟨w, h2, h⟩ := Out.ofE_ok' h
    cases h
    simp only at hk h1 ⊢
    obtain ⟨hnd, hpi, hser⟩ := hE _ _ hci
    unfold construct at h2
    by_cases hlen : r.vals.length = ci.attrs.length
    case neg => rw [if_neg hlen] at h2; cases h2
    rw [if_pos hlen] at h2
    rw [hpi] at h2
    simp only [bind, Except.bind, Except.ok.injEq] at h2
    subst h2
    have ho : objSer env cls none = .ok (ci, ci.serializer) := by simp [objSer, hci]
    have hga : getAttrs (ci.attrs.zip r.vals) ci.attrs = .ok r.vals := by
      rw [← setAll_zip hnd]
      exact (Zips.getAttrs_proxy hnd r.vals).1 hlen.symm
    suffices hm : ∃ s1 q1, pre ci.serializer ⟨cls, false, ci.attrs.zip r.vals⟩ = .ok (s1, q1) ∧ r.size ≤ b.length ∧ r.pos = src.ahead r.size ∧
        Back k (enc env n s1 q1 r.vals) (b.take r.size) r.touched by
      obtain ⟨s1, q1, w1, w2, w3, w4⟩ := hm
      refine ⟨w2, w3, ?_⟩
      simp only [encObj]
      rw [Out.ofE_ok_bind ho]
      simp only
      rw [Out.ofE_ok_bind w1]
      simp only
      rw [Out.ofE_ok_bind hga]
      rcases w4 with w4 | ⟨hk, e, w4⟩
      · rw [w4]; exact .inl rfl
      · rw [w4]; exact .inr ⟨hk, e, rfl⟩
    have other : ∀ s : Ser, ci.serializer = s → s.exact k t [] → (∀ id p ss, s2 ≠ .specialized id p ss) →
        ∃ s1 q1, pre ci.serializer ⟨cls, false, ci.attrs.zip r.vals⟩ = .ok (s1, q1) ∧ r.size ≤ b.length ∧ r.pos = src.ahead r.size ∧
        Back k (enc env n s1 q1 r.vals) (b.take r.size) r.touched := by
      intro s hs he hns
      obtain ⟨s1, q1, w1, w2, w3, w4, w5, w6⟩ := pre_twin (p := ⟨cls, false, ci.attrs.zip r.vals⟩) (p' := ⟨cls, true, []⟩) (names := []) ⟨rfl, by simp⟩ (hs ▸ he) h0
      rw [dec_noUpd hns] at h1
      obtain ⟨g1, g2, g3, g4⟩ := ih n (Nat.le_refl _) _ _ _ _ _ _ _ _ w2 w3 w4 hv ht hk h1
      exact ⟨s1, q1, w1, g2, g3, g4⟩
    cases hs : ci.serializer with
    | specialized => rw [hs] at hser; exact hser.elim
    | compound id ss =>
      rw [hs] at hser h0
      simp only at hser
      cases n with
      | zero => cases h1
      | succ n =>
        simp only [preU, pre, Except.ok.injEq, Prod.mk.injEq] at h0 ⊢
        obtain ⟨rfl, rfl⟩ := h0
        by_cases hc : needsPreprocess ss
        · simp only [if_pos hc] at h1 ⊢
          simp only [dec] at h1
          rw [← ahead_zero] at h1
          obtain ⟨m, e1, e2, e3, e4⟩ := class_exact (ih n (by omega)) hv ht hnd ss [] 0 r hser (Nat.zero_le _) hk (Nat.zero_le _) (by
            simpa using h1)
          refine ⟨_, _, ⟨rfl, rfl⟩, by omega, by rw [e3, e1], ?_⟩
          simp only [enc]
          rw [e1, Nat.zero_add]
          simpa using e4
        · simp only [if_neg hc] at h1 ⊢
          simp only [dec] at h1
          rw [← ahead_zero] at h1
          obtain ⟨m, e1, e2, e3, e4, e5⟩ := loop_exact (ih n (by omega)) hv ht ss 0 r (exactParts_each ss 0 hser) hk (Nat.zero_le _) h1
          refine ⟨_, _, ⟨rfl, rfl⟩, by omega, by rw [e4, e1], ?_⟩
          simp only [enc]
          rw [e1, Nat.zero_add]
          simpa using e5
    | cond s c defs =>
      rw [← hs]
      rw [hs] at hser
      simp only at hser
      refine other _ hs hser ?_
      rintro id p ss rfl
      rw [hs] at h0
      simp only [preU, pre] at h0
      obtain ⟨r, h1, h⟩ := Except.bind_ok' h0
      obtain ⟨x, h2, h⟩ := Except.bind_ok' h
      cases h
      simp only [Ser.exact] at hser
      rcases condPick_ok h2 with rfl | h3
      · exact hser.2.2.2.1
      · cases h3
    | selfT id =>
      rw [← hs]
      rw [hs] at hser h0
      refine other _ hs hser ?_
      rintro id p ss rfl
      simp only [preU] at h0
      obtain ⟨r, h1, h⟩ := Except.bind_ok' h0
      cases h
    | _ =>
      rw [← hs]
      rw [hs] at hser h0
      refine other _ hs hser ?_
      rintro id p ss rfl
      simp [preU, pre] at h0

theorem unionPick_mem'' {keys : List Val} {opts : List Ser} {d s : Ser} {r : Val} (h : unionPick keys opts d r = .ok s) :
    s ∈ opts ∨ (s = d ∧ d ≠ .null) := by
  unfold unionPick at h
  split at h
  · cases h
  · split at h
    · rename_i s' hl
      cases h
      unfold lookupOpt at hl
      simp only [Option.map_eq_some_iff] at hl
      obtain ⟨⟨k, o⟩, h1, rfl⟩ := hl
      exact .inl (List.of_mem_zip (List.mem_of_find?_eq_some h1)).2
    · split at h
      · cases h
      · rename_i hd; cases h; exact .inr ⟨rfl, hd⟩

theorem exactOpts_mem {names : List Name} : ∀ {opts : List Ser}, Ser.exactOpts k t names opts → ∀ s ∈ opts, s.yields = 1 ∧ s.exact k t names
  | [], _, s, hs => by simp at hs
  | s0 :: ss, h, s, hs => by
    simp only [Ser.exactOpts] at h
    rcases List.mem_cons.1 hs with rfl | hs
    · exact ⟨h.1, h.2.1⟩
    · exact exactOpts_mem h.2.2 s hs

theorem ofE_inv {α : Type} {x : Except Err α} {a : α} (h : Out.ofE x = .ok a) : x = .ok a := by
  cases x with
  | error e => cases h
  | ok y => cases h; rfl

theorem union_exact {n : Nat} (ih : Restore env k t n) {names : List Name} {keys : List Val} {opts : List Ser} {dflt : Ser} {p p' : PObj}
    (hp : AgreeP names p p') (ho : Ser.exactOpts k t names opts) (hy : dflt.yields = (match dflt with
      | .null => 0
      | _ => 1)) (hd : dflt.exact k t names) {src : PSrc} {b : Bytes} (hv : Views src b) (ht : t = true → src.isAt = false) {d : Dec}
    (hk : k = true → src.isBuf = true ∧ d.size ≤ b.length) {r : Val} (h : decUnion (dec env n noUpd) keys opts dflt p' r src = .ok d) :
    d.vals.length = 1 ∧ d.size ≤ b.length ∧ d.pos = src.ahead d.size ∧
      Back k (encUnion (enc env n) keys opts dflt p r d.vals) (b.take d.size) d.touched := by
  unfold decUnion at h
  obtain ⟨s, h1, h⟩ := Out.ofE_ok' h
  obtain ⟨⟨s2, q2⟩, h2, h⟩ := Out.ofE_ok' h
  simp only at h
  split at h
  · cases h
  · obtain ⟨a, h3, h⟩ := Out.bind_ok' h
    obtain ⟨hz, h⟩ := sized_of_enc h
    cases h
    simp only at hk ⊢
    have hs : s.yields = 1 ∧ s.exact k t names := by
      rcases unionPick_mem'' h1 with hm | ⟨rfl, hm⟩
      · exact exactOpts_mem ho s hm
      · refine ⟨?_, hd⟩
        rw [hy]
        split
        · exact absurd rfl hm
        · rfl
    obtain ⟨s1, q1, w1, w2, w3, w4, w5, w6⟩ := pre_twin hp hs.2 h2
    obtain ⟨g1, g2, g3, g4⟩ := ih _ _ _ _ _ _ _ _ w2 w3 w4 hv ht hk h3
    refine ⟨by rw [g1, w5, hs.1], g2, g3, ?_⟩
    unfold encUnion
    rw [Out.ofE_ok_bind h1, Out.ofE_ok_bind w1]
    simp only
    refine g4.bind (.inl ?_)
    rw [if_neg (by rw [w2.shape.1, hz]; simp)]

theorem exactList_each {names : List Name} : ∀ (ss : List Ser), Ser.exactList k t names ss → ∀ s ∈ ss, ∃ names, s.exact k t names ∧ s.yields = s.numValues
  | [], _, s, hs => by simp at hs
  | s0 :: ss, h, s, hs => by
    simp only [Ser.exactList] at h
    rcases List.mem_cons.1 hs with rfl | hs
    · exact ⟨_, h.2.1, h.1⟩
    · exact exactList_each ss h.2.2 s hs

theorem restore (hE : env.exact k t) : ∀ n, Restore env k t n := by
  intro n
  induction n using Nat.strongRecOn with
  | _ n ihs =>
  cases n with
  | zero => intro names s1 s2 q1 q2 src b d _ _ _ _ _ _ h; cases h
  | succ n =>
    have ihl : ∀ m ≤ n, Restore env k t m := fun m hm => ihs m (by omega)
    have ih : Restore env k t n := ihl n (Nat.le_refl _)
    clear ihs
    intro names s1 s2 q1 q2 src b d hw hq he hv ht hk h
    cases hw with
    | spec id p p' ss hp =>
      simp only [dec] at h
      simp only [enc]
      rw [← ahead_zero] at h
      obtain ⟨m, e1, e2, e3, e4, e5⟩ := spec_exact ih hv ht hp ss 0 0 d (by simpa only [Ser.exact] using he) hk (Nat.zero_le _) h
      exact ⟨e3, by omega, by rw [e4, e1], by rw [e1, Nat.zero_add]; exact e5⟩
    | same =>
    cases s1 with
    | null => cases h; simp only [enc]; exact ⟨rfl, Nat.zero_le _, ahead_zero.symm, .inl rfl⟩
    | struct st =>
      simp only [dec] at h
      obtain ⟨⟨vs, pos⟩, h1, h2⟩ := Except.bind_ok' (ofE_inv h)
      cases h2
      simp only [Ser.exact] at he
      obtain ⟨g1, g2, g3, g4, g5⟩ := structDec_exact he hv h1
      refine ⟨g4, g1, g2, .inl ?_⟩
      simp only [enc]
      simp only at g5
      rw [g5]; rfl
    | dynChar id st =>
      simp only [dec] at h
      simp only [Ser.exact] at he
      obtain ⟨rfl, he1, he2⟩ := he
      obtain ⟨hb, hl⟩ := hk rfl
      obtain ⟨g1, g2, g3, g4⟩ := dynChar_exact he1 he2 hv hb (ofE_inv h) hl
      exact ⟨g1, hl, g2, by simp only [enc]; rw [g3]; exact g4⟩
    | consuming id =>
      simp only [dec, Out.ok.injEq] at h
      rw [consuming_ext hv] at h
      subst h
      refine ⟨rfl, Nat.le_refl _, rfl, .inl ?_⟩
      simp [enc, consumingDec, Dec.moved, consumeData, encLeaf, first, bind, Except.bind, Val.strip]
    | terminated id term =>
      simp only [dec] at h
      simp only [Ser.exact] at he
      obtain ⟨x, rfl, g1, g2, g3⟩ := term_exact hv (ht he) (ofE_inv h)
      refine ⟨rfl, g1, rfl, .inl ?_⟩
      cases hq with
      | none => rw [term_enc (v := .bytes x) (b := x) rfl, g3]
      | some => 
        have := term_enc (env := env) (n := n) (id := id) (term := term) (v := .bytes x) (b := x) rfl
        simp only [enc] at this ⊢
        rw [this, g3]
    | net => simp only [Ser.exact] at he
    | unicode inner en de =>
      cases inner <;> simp only [Ser.exact] at he
      rename_i id term
      obtain ⟨he1, he2⟩ := he
      simp only [dec] at h
      obtain ⟨r, h1, h⟩ := Out.bind_ok' h
      obtain ⟨vs, h2, h⟩ := Out.ofE_ok' h
      cases h
      cases n with
      | zero => cases h1
      | succ n =>
      simp only [dec] at h1
      obtain ⟨x, rfl, g1, g2, g3⟩ := term_exact hv (ht he1) (ofE_inv h1)
      simp only [unicodeDecode, first] at h2
      obtain ⟨v0, h2a, h2⟩ := Except.bind_ok' h2
      cases h2a
      obtain ⟨str, h3, h2⟩ := Except.bind_ok' h2
      cases h2
      have hen := he2 x str g2 h3
      refine ⟨rfl, g1, rfl, .inl ?_⟩
      rw [enc, Out.ofE_ok_bind (a := x) (by simpa [first, bind, Except.bind] using hen)]
      rw [term_enc (v := .bytes x) (b := x) rfl, g3]
    | array id hdr item sl =>
      simp only [Ser.exact] at he
      simp only [dec] at h
      obtain ⟨⟨hvs, pos⟩, h1, h⟩ := Out.ofE_ok' h
      obtain ⟨⟨count, ds⟩, h2, h⟩ := Out.ofE_ok' h
      cases hq with
      | none => cases h
      | some p p' hp =>
      obtain ⟨⟨i2, qi2⟩, h3, h⟩ := Out.ofE_ok' h
      obtain ⟨r, h4, h⟩ := Out.bind_ok' h
      obtain ⟨u, h5, h⟩ := Out.ofE_ok' h
      cases h
      simp only at h4 hk ⊢
      obtain ⟨g1, g2, g3⟩ := header_exact he.1 hv h1 h2 h5
      simp only at g2
      subst g2
      obtain ⟨i1, qi1, w1, w2, w3, w4, w5, w6⟩ := pre_twin hp he.2.2 h3
      obtain ⟨m, e1, e2, e3, e4, e5⟩ := items_exact ih hv ht w2 w3 w4 (by rw [w5, he.2.1]) _ _ r hk g1 h4
      refine ⟨rfl, by omega, by rw [e4, e1], ?_⟩
      simp only [enc]
      rw [Out.ofE_ok_bind w1]
      simp only
      rw [Out.ofE_ok_bind (show first [Val.list r.vals] = .ok (.list r.vals) from rfl), Out.ofE_ok_bind (show pyIter (.list r.vals) = .ok r.vals from rfl)]
      refine e5.bind ?_
      simp only
      rw [e3]
      have hlen : ((b.drop (hdrSize hdr)).take m).length = r.size - hdrSize hdr := by
        rw [List.length_take, List.length_drop]; omega
      rw [hlen]
      obtain ⟨hv', g4, g5⟩ := Except.bind_ok' g3
      rw [Out.ofE_ok_bind g4, Out.ofE_ok_bind g5]
      refine .inl ?_
      rw [e1, List.take_add]
    | staticArr count item ser =>
      simp only [Ser.exact] at he
      simp only [dec] at h
      obtain ⟨⟨vs, pos⟩, h1, h2⟩ := Except.bind_ok' (ofE_inv h)
      cases h2
      simp only [enc]
      cases ser with
      | none =>
        simp only at he
        cases h1
        subst he
        exact ⟨rfl, Nat.zero_le _, ahead_zero.symm, .inl rfl⟩
      | some s =>
        obtain ⟨g1, g2, g3, g4, g5⟩ := structDec_exact he.1 hv h1
        simp only at g2 g3 g4 g5
        refine ⟨rfl, g1, g2, .inl ?_⟩
        have : staticArrPrep count [.list vs] = .ok vs := by
          simp [staticArrPrep, first, bind, Except.bind, pyLen, Val.strip, pyIter, he.2, g4]
        simp only [this, bind, Except.bind, packOpt, g5]
        rfl
    | dynArr id cnt item =>
      simp only [Ser.exact] at he
      obtain ⟨rfl, he1, he2, he3, he4, he5, he6, he7⟩ := he
      simp only [dec] at h
      obtain ⟨g1, g2, g3, g4⟩ := dynArr_exact he1 he2 he3 he4 he5 he6 he7 hv (ofE_inv h)
      exact ⟨g1, (hk rfl).2, g2, by simp only [enc]; rw [g3]; exact g4⟩
    | tuple id inner =>
      simp only [Ser.exact] at he
      simp only [dec] at h
      cases hq with
      | none => cases h
      | some p p' hp =>
      obtain ⟨⟨i2, qi2⟩, h3, h⟩ := Out.ofE_ok' h
      simp only at h
      split at h
      · cases h
      · obtain ⟨r, h4, h⟩ := Out.bind_ok' h
        cases h
        simp only at hk ⊢
        obtain ⟨i1, qi1, w1, w2, w3, w4, w5, w6⟩ := pre_twin hp he h3
        obtain ⟨g1, g2, g3, g4⟩ := ih _ _ _ _ _ _ _ _ w2 w3 w4 hv ht hk h4
        refine ⟨rfl, g2, g3, ?_⟩
        simp only [enc]
        rw [Out.ofE_ok_bind w1]
        simp only
        rw [Out.ofE_ok_bind (show pyIter (.tup r.vals) = .ok r.vals from rfl)]
        exact g4.bind (.inl rfl)
    | lookback id decider keys opts dflt =>
      simp only [Ser.exact] at he
      simp only [dec] at h
      cases hq with
      | none => cases h
      | some p p' hp =>
      obtain ⟨r, h1, h⟩ := Out.ofE_ok' h
      obtain ⟨g1, g2, g3, g4⟩ := union_exact ih hp he.2.1 he.2.2.1 he.2.2.2 hv ht hk h
      refine ⟨g1, g2, g3, ?_⟩
      simp only [enc]
      rw [Out.ofE_ok_bind (by rw [he.1 p p' hp.1 hp.2]; exact h1)]
      exact g4
    | lookahead => simp only [Ser.exact] at he
    | cond => cases h
    | skip vals => cases h; simp only [enc]; exact ⟨rfl, Nat.zero_le _, ahead_zero.symm, .inl rfl⟩
    | structured id cls =>
      simp only [dec] at h
      obtain ⟨⟨v, r, ser⟩, h1, h⟩ := Out.bind_ok' h
      simp only at h
      obtain ⟨hz, h⟩ := sized_of_enc h
      cases h
      simp only at hk ⊢
      obtain ⟨g1, g2, g3⟩ := obj_exact hE ihl hv ht hk h1
      refine ⟨rfl, g1, g2, ?_⟩
      simp only [enc]
      rcases g3 with g3 | ⟨hk, e, g3⟩
      · rw [g3, Out.ok_bind]
        simp only
        rw [if_neg (by simp [hz])]
        exact .inl rfl
      · rw [g3]; exact .inr ⟨hk, e, rfl⟩
    | selfT => cases h
    | compound id ss =>
      simp only [Ser.exact] at he
      simp only [dec] at h
      simp only [enc]
      rw [← ahead_zero] at h
      obtain ⟨m, e1, e2, e3, e4, e5⟩ := loop_exact ih hv ht ss 0 d (exactList_each ss he) hk (Nat.zero_le _) h
      exact ⟨e3, by omega, by rw [e4, e1], by rw [e1, Nat.zero_add]; exact e5⟩
    | specialized id p ss =>
      simp only [Ser.exact] at he
      simp only [dec] at h
      simp only [enc]
      rw [← ahead_zero] at h
      obtain ⟨m, e1, e2, e3, e4, e5⟩ := spec_exact ih hv ht ⟨rfl, fun _ _ => rfl⟩ ss 0 0 d he hk (Nat.zero_le _) h
      exact ⟨e3, by omega, by rw [e4, e1], by rw [e1, Nat.zero_add]; exact e5⟩

end Verif
