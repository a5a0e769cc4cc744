import Verif.Proofs.ParseParts
import Verif.Proofs.NetLemmas
/-
Lemmas for the parser of documented formats: numbers and strings.
-/
namespace Verif
open Spec Sem

variable {bo : ByteOrder} {cf : ClassId → Bool} {env : Env} {k : Nat}

/-- One value. -/
def Spec.Parsed.one (r : Parsed (Val × Nat)) : Parsed (List Val × Nat) := r >>= fun x => .ok ([x.1], x.2)

/-! ### Numbers -/

theorem natOf_foldl : ∀ (b : Bytes) (n : Nat), b.foldl (fun n x => 256 * n + x.toNat) n = 256 ^ b.length * n + natOf b
  | [], n => by simp [natOf]
  | x :: b, n => by
    have h1 := natOf_foldl b (256 * n + x.toNat)
    have h2 := natOf_foldl b x.toNat
    simp only [List.foldl_cons, natOf, List.length_cons, Nat.mul_zero, Nat.zero_add] at h1 h2 ⊢
    rw [h1, h2, Nat.pow_succ, Nat.mul_add, Nat.mul_assoc, Nat.add_assoc]

theorem natOf_leNat : ∀ b : Bytes, natOf b.reverse = leNat b
  | [] => rfl
  | x :: b => by
    have := natOf_leNat b
    simp only [List.reverse_cons, natOf, List.foldl_append, List.foldl_cons, List.foldl_nil, leNat] at this ⊢
    rw [this]
    omega

theorem natFrom_eq (P : Platform) (b : Bytes) : natFrom P bo b = leNat (orderBytes (bo.little P) b) := by
  have key : ∀ l : Bool, (if l then b.reverse else b) = (orderBytes l b).reverse := by intro l; cases l <;> simp [orderBytes]
  have : bigFirst P bo b = (orderBytes (bo.little P) b).reverse := by cases bo <;> first | exact key _ | rfl | simp [bigFirst, orderBytes, ByteOrder.little]
  rw [natFrom, this, natOf_leNat]

theorem natFrom_lt (P : Platform) (b : Bytes) : natFrom P bo b < 256 ^ b.length := by
  rw [natFrom_eq]
  have := leNat_lt (orderBytes (bo.little P) b)
  rwa [orderBytes_length] at this

theorem intFrom_eq (P : Platform) {s : Bool} {w : Size} {b : Bytes} (hb : b.length = w.bytes) :
    decodeInt (bo.little P) s w.bytes b = intFrom P bo s b := by
  unfold decodeInt intFrom
  rw [← natFrom_eq, hb]
  generalize natFrom P bo b = u
  have h1 : 256 ^ w.bytes ≤ 2 * u ↔ 2 ^ (8 * w.bytes - 1) ≤ u := by cases w <;> simp only [Size.bytes] <;> simp <;> omega
  have h2 : (256 : Int) ^ w.bytes = 2 ^ (8 * w.bytes) := by cases w <;> rfl
  simp only [h1, h2, Bool.and_eq_true, decide_eq_true_eq]

theorem intFrom_nat (P : Platform) {b : Bytes} : intFrom P bo false b = natFrom P bo b := by simp [intFrom]

/-! ### Basic types -/

/-- The actions of `n` values: all of them are `make`. -/
def Acts (st : StructSer) (n : Nat) (make : Val → Val) : Prop :=
  (st.actions = none ∧ make = id) ∨ st.actions = some (rep n [fun v => .ok (make v)])

theorem run_rep {make : Val → Val} : ∀ {n : Nat} {raw : List Val}, raw.length = n →
    StructSer.runActions (rep n [fun v => .ok (make v)]) raw = .ok (raw.map make)
  | 0, raw, h => by
    match raw, h with
    | [], _ => rfl
  | n + 1, raw, h => by
    match raw, h with
    | v :: raw, h =>
      rw [rep_succ]
      simp only [List.singleton_append, StructSer.runActions, run_rep (make := make) (n := n) (raw := raw) (by simpa using h)]
      rfl

theorem Acts.apply {st : StructSer} {n : Nat} {make : Val → Val} (h : Acts st n make) {raw : List Val} (hr : raw.length = n) :
    st.applyActions raw = .ok (raw.map make) := by
  rcases h with ⟨h, rfl⟩ | h
  · simp [StructSer.applyActions, h]
  · simp only [StructSer.applyActions, h]
    exact run_rep hr

theorem Acts.fin {st : StructSer} {n : Nat} {make : Val → Val} (h : Acts st n make) {raw : List Val} (hr : raw.length = n) :
    st.fin raw = raw.map make := by
  simp only [StructSer.fin, h.apply hr]

theorem is_acts {f : Fmt} {st : StructSer} (h : f.Is cf bo (.struct st)) : ∃ make, Acts st 1 make ∧ st.numValues = 1 := by
  obtain ⟨t, h1, h2⟩ := is_basic_toks (is_struct h) h
  have hn := h1.numValues h2
  have hb := is_struct h
  cases f <;> simp only [Fmt.basic] at hb <;> (try cases hb)
  case via =>
    obtain ⟨st', e, _, _⟩ := h
    cases e
    exact ⟨_, .inr rfl, hn⟩
  all_goals
    obtain ⟨st', e, h⟩ := h
    cases e
    exact ⟨id, .inl ⟨h.acts, rfl⟩, hn⟩

theorem is_sure {f : Fmt} {st : StructSer} (h : f.Is cf bo (.struct st)) : Sure st := by
  obtain ⟨make, h1, h2⟩ := is_acts h
  exact fun raw hr => ⟨_, h1.apply (hr.trans h2)⟩

/-- The format is a basic type: the number of bytes, the alignment and how the bytes are read. -/
structure Item (bo : ByteOrder) (P : Platform) (st : StructSer) (t : Tok) (w a : Nat) (F : Bytes → Val) : Prop where
  ser : OneTok bo t st
  width : ∀ nat, t.bytes nat = w
  align : t.c.align true = a
  sizes : a = 1 ∨ a = 2 ∨ a = 4 ∨ a = 8
  dvd : a ∣ w
  pos : 0 < w
  one : t.numVals = 1
  val : ∃ (make : Val → Val) (G : Bytes → Val), Acts st 1 make ∧ (∀ d, d.length = w → unpackTok P bo t d = [G d]) ∧ ∀ d, F d = make (G d)

theorem direct_item {f : Fmt} {st : StructSer} {P : Platform} (hd : f.direct = true) (hg : f.good bo = true) (h : f.Is cf bo (.struct st)) :
    ∃ t w a F, f.basic = some (w, a) ∧ Item bo P st t w a F ∧ ∀ cls o b, f.read P bo cls o b = takes w b F := by
  have key : ∀ {t : Tok} {w a : Nat} {F : Bytes → Val}, IsItem bo t (.struct st) → (∀ nat, t.bytes nat = w) → t.c.align true = a →
      (a = 1 ∨ a = 2 ∨ a = 4 ∨ a = 8) → a ∣ w → 0 < w → (∀ d, d.length = w → unpackTok P bo t d = [F d]) → Item bo P st t w a F := by
    rintro t w a F ⟨st', e, h⟩ h1 h2 h3 h4 h5 h6
    cases e
    have h7 : t.numVals = 1 := by
      have := unpackTok_length P bo t (List.replicate w 0)
      rw [h6 _ List.length_replicate] at this
      exact this.symm
    exact ⟨h.tok, h1, h2, h3, h4, h5, h7, id, F, .inl ⟨h.acts, rfl⟩, h6, fun _ => rfl⟩
  have hb := is_struct h
  cases f <;> simp only [Fmt.basic] at hb <;> (try cases hb) <;> simp only [Fmt.Is] at h
  case via => cases hd
  case int s w =>
    refine ⟨_, _, _, _, rfl, key h (fun nat => by cases nat <;> cases w <;> rfl) (by cases w <;> rfl) (by cases w <;> simp [Size.bytes])
      (Nat.dvd_refl _) (by cases w <;> decide) (fun d hd => ?_), fun cls o b => rfl⟩
    have hw : w.wd.bytes bo.isNative = w.bytes := by cases w <;> cases bo <;> rfl
    simp only [unpackTok, unpackMany, unpackOne, Code.bytes, hw]
    rw [List.take_of_length_le (by omega), intFrom_eq P hd]
  case bool =>
    refine ⟨_, _, _, _, rfl, key h (fun nat => by cases nat <;> rfl) rfl (by simp) (by simp) (by simp) (fun d hd => ?_), fun cls o b => rfl⟩
    match d, hd with
    | [x], _ =>
      have hx : (x != 0) = ([x] != [0]) := by
        simp only [bne, List.cons_beq_cons, beq_self_eq_true, Bool.and_true]
      simp [unpackTok, unpackMany, unpackOne, Code.bytes, hx]
  case half =>
    refine ⟨_, _, _, _, rfl, key h (fun nat => by cases nat <;> rfl) rfl (by simp) (by simp) (by simp) (fun d hd => ?_), fun cls o b => rfl⟩
    simp only [unpackTok, unpackMany, unpackOne, Code.bytes]
    rw [List.take_of_length_le (by omega), ← natFrom_eq]
  case single =>
    refine ⟨_, _, _, _, rfl, key h (fun nat => by cases nat <;> rfl) rfl (by simp) (by simp) (by simp) (fun d hd => ?_), fun cls o b => rfl⟩
    simp only [unpackTok, unpackMany, unpackOne, Code.bytes]
    rw [List.take_of_length_le (by omega), ← natFrom_eq]
  case double =>
    refine ⟨_, _, _, _, rfl, key h (fun nat => by cases nat <;> rfl) rfl (by simp) (by simp) (by simp) (fun d hd => ?_), fun cls o b => rfl⟩
    simp only [unpackTok, unpackMany, unpackOne, Code.bytes]
    rw [List.take_of_length_le (by omega), ← natFrom_eq]
  case pascal n =>
    simp only [Fmt.good, decide_eq_true_eq] at hg
    refine ⟨_, _, _, _, rfl, key h (fun nat => by simp [Tok.bytes, Code.bytes]) rfl (by simp) (by simp) hg (fun d hd => ?_), fun cls o b => rfl⟩
    match d, hd with
    | x :: d, _ => simp [unpackTok, natOf]
    | [], hd => simp at hd; omega
  case chars n =>
    simp only [Fmt.good, decide_eq_true_eq] at hg
    exact ⟨_, _, _, _, rfl, key h (fun nat => by simp [Tok.bytes, Code.bytes]) rfl (by simp) (by simp) hg (fun d hd => rfl), fun cls o b => rfl⟩

theorem is_item {f : Fmt} {st : StructSer} {P : Platform} (hg : f.good bo = true) (h : f.Is cf bo (.struct st)) :
    ∃ t w a F, f.basic = some (w, a) ∧ Item bo P st t w a F ∧ ∀ cls o b, f.read P bo cls o b = takes w b F := by
  by_cases hd : f.direct = true
  · exact direct_item hd hg h
  have hb := is_struct h
  cases f <;> simp only [Fmt.basic] at hb <;> first | (cases hb; done) | (exact absurd rfl hd) | skip
  case via id f name make =>
    obtain ⟨st', e, hd', h'⟩ := h
    cases e
    simp only [Fmt.good, Bool.and_eq_true] at hg
    obtain ⟨t, w, a, F, e1, hi, hr⟩ := direct_item (P := P) hd' hg.2 h'
    have hi2 := hi
    obtain ⟨mk, G, ha, hG, hF⟩ := hi2.val
    have hmk : mk = _root_.id := by
      rcases ha with ha | ha
      · exact ha.2
      · obtain ⟨t', ⟨_, e, h2⟩, _⟩ := is_direct hd' h'
        cases e
        rw [h2.acts] at ha
        cases ha
    subst hmk
    refine ⟨t, w, a, fun d => make (F d), by rw [Fmt.basic]; exact e1,
      ⟨hi.ser.made hi.one make, hi.width, hi.align, hi.sizes, hi.dvd, hi.pos, hi.one, make, G, .inr rfl, hG, fun d => by rw [hF]; rfl⟩, fun cls o b => ?_⟩
    rw [Fmt.read, hr]
    unfold takes
    split <;> rfl

variable {P : Platform} {st : StructSer} {t : Tok} {w a : Nat} {F : Bytes → Val}

/-- A basic type as part of a run. -/
theorem Item.readAt (h : Item bo P st t w a F) (o : Nat) (b : Bytes) :
    st.readAt P o b = (takes w (b.drop (gap bo o (some (w, a)))) F >>= fun x => .ok ([x.1], gap bo o (some (w, a)) + x.2)) ∧
      o + (gap bo o (some (w, a)) + w) = after bo o (some (w, a)) := by
  refine ⟨?_, by simp only [after]; omega⟩
  unfold StructSer.readAt takes
  have hpos := h.pos
  rw [h.ser.toks, h.ser.order]
  simp only [endOff, unpackToks, gap_eq (w := w) h.align h.sizes, h.width, List.append_nil, List.length_drop]
  generalize gap bo o (some (w, a)) = g
  by_cases hc : g + w ≤ b.length
  · obtain ⟨make, G, ha, hG, hF⟩ := h.val
    rw [if_pos (by omega), if_pos (by omega), hG _ (by rw [List.length_take, List.length_drop]; omega), ha.fin rfl]
    simp only [Bind.bind, Parsed.bind, Parsed.ok.injEq, Prod.mk.injEq, hF, List.map_cons, List.map_nil, true_and]
    omega
  · rw [if_neg (by omega), if_neg (by omega)]
    rfl

theorem gap_zero (x : Option (Nat × Nat)) : gap bo 0 x = 0 := by
  cases x with
  | none => rfl
  | some x =>
    simp only [gap]
    split
    · rcases x with ⟨w, a⟩
      simp only [Nat.zero_add, Nat.sub_zero]
      rcases Nat.eq_zero_or_pos a with rfl | h
      · simp
      · rw [Nat.div_eq_of_lt (by omega), Nat.zero_mul]
    · rfl

theorem Item.sure (h : Item bo P st t w a F) : Sure st := by
  obtain ⟨make, G, ha, _, _⟩ := h.val
  exact fun raw hr => ⟨_, ha.apply (hr.trans (h.ser.numValues h.one))⟩

theorem Item.readZero (h : Item bo P st t w a F) (b : Bytes) : st.readAt P 0 b = (takes w b F).one := by
  have := (h.readAt 0 b).1
  rw [gap_zero, List.drop_zero] at this
  rw [this]
  simp only [Parsed.one, Nat.zero_add]

/-- `n` of a basic type. -/
theorem readMany_takes {n : Nat} : ∀ b : Bytes, n * w ≤ b.length ∧ (∃ vs, readMany (takes w · F) n b = .ok (vs, n * w)) ∨
    b.length < n * w ∧ readMany (takes w · F) n b = .err .structError := by
  induction n with
  | zero => intro b; exact .inl ⟨by omega, [], by simp [readMany]⟩
  | succ n ih =>
    intro b
    simp only [readMany, takes]
    by_cases hc : w ≤ b.length
    · rw [if_pos hc]
      rw [Nat.succ_mul]
      rcases ih (b.drop w) with ⟨h1, vs, h2⟩ | ⟨h1, h2⟩
      · rw [List.length_drop] at h1
        refine .inl ⟨by omega, ?_⟩
        simp only [takes] at h2
        simp only [Bind.bind, Parsed.bind, h2]
        exact ⟨_, by rw [Nat.add_comm]⟩
      · rw [List.length_drop] at h1
        refine .inr ⟨by omega, ?_⟩
        simp only [takes] at h2
        simp only [Bind.bind, Parsed.bind, h2]
    · rw [if_neg hc]
      exact .inr ⟨by rw [Nat.succ_mul]; omega, rfl⟩

theorem gap_dvd {o : Nat} (ho : a ∣ o) (ha : 0 < a) : gap bo o (some (w, a)) = 0 := by
  simp only [gap]
  split
  · obtain ⟨c, rfl⟩ := ho
    have : (a * c + a - 1) / a = c := by
      rw [Nat.add_sub_assoc (by omega), Nat.mul_add_div ha, Nat.div_eq_of_lt (by omega)]
      rfl
    rw [this, Nat.mul_comm]
    omega
  · rfl

/-- A fixed number of them. -/
theorem Item.rep {make : Val → Val} {G : Bytes → Val} (h : Item bo P st t w a F) (hG : ∀ d, d.length = w → unpackTok P bo t d = [G d])
    (hF : ∀ d, F d = make (G d)) : ∀ (n o : Nat) (b : Bytes), a ∣ o → endOff bo.isNative (rep n [t]) o = o + n * w ∧
    ∀ vs m, readMany (takes w · F) n b = .ok (vs, m) → (unpackToks P bo (Verif.rep n [t]) o b).map make = vs := by
  intro n
  induction n with
  | zero => intro o b _; exact ⟨by simp [Verif.rep, endOff], fun vs m e => by cases e; rfl⟩
  | succ n ih =>
    intro o b ho
    have ha : 0 < a := by rcases h.sizes with e | e | e | e <;> omega
    obtain ⟨h1, h2⟩ := ih (o + w) (b.drop w) (Nat.dvd_add ho h.dvd)
    rw [rep_succ]
    simp only [List.singleton_append, endOff, unpackToks, gap_eq (w := w) h.align h.sizes, h.width, gap_dvd ho ha, Nat.add_zero, List.drop_zero,
      Nat.zero_add]
    refine ⟨by rw [h1, Nat.succ_mul]; omega, fun vs m e => ?_⟩
    simp only [readMany, takes] at e
    by_cases hc : w ≤ b.length
    · rw [if_pos hc] at e
      simp only [Bind.bind, Parsed.bind] at e
      cases hr : readMany (fun x => if w ≤ x.length then Parsed.ok (F (x.take w), w) else .err .structError) n (b.drop w) with
      | ok y =>
        rw [hr] at e
        cases e
        rw [hG _ (by rw [List.length_take]; omega), List.map_append, h2 y.1 y.2 hr, List.map_cons, ← hF]
        rfl
      | err => rw [hr] at e; cases e
      | deep => rw [hr] at e; cases e
      | odd => rw [hr] at e; cases e
    · rw [if_neg hc] at e
      cases e

theorem item_many {ser : Option StructSer} {n : Nat} {q : Option PObj} (h : Item bo env.plat st t w a F) (hm : st.mul n = .ok ser) (b : Bytes) :
    Parses env k (.staticArr n st ser) q b (readMany (takes w · F) n b >>= fun x => .ok ([.list x.1], x.2)) := by
  refine .leaf (fun m u => rfl) ?_
  by_cases hn : n = 0
  · subst hn
    cases hm
    exact ⟨rfl, rfl⟩
  · obtain ⟨c, e1, e2, e3, _, e5, _⟩ := mul_toks (a := st) (n := n) (by omega) (by rw [h.ser.toks]; simp) h.ser.single
    rw [e1] at hm
    cases hm
    obtain ⟨make, G, ha, hG, hF⟩ := h.val
    have hac : Acts c n make := by
      rcases ha with ⟨h1, h2⟩ | h1
      · exact .inl ⟨by rw [e5, h1]; rfl, h2⟩
      · refine .inr ?_
        rw [e5, h1]
        rfl
    have hnv : c.numValues = n := by
      rw [StructSer.numValues, e3.vals, h.ser.toks, numVals_rep]
      simp [numVals, h.one]
    have hna : Sure c := fun raw hr => ⟨_, hac.apply (hr.trans hnv)⟩
    have hrep := h.rep hG hF n 0 b (Nat.dvd_zero a)
    have hz : c.size = n * w := by
      simp only [StructSer.size, sizeToks, e3.off, e2, h.ser.order, h.ser.toks, hrep.1]
      omega
    have hfin : c.fin (unpackToks env.plat bo (Verif.rep n [t]) 0 b) = (unpackToks env.plat bo (Verif.rep n [t]) 0 b).map make :=
      hac.fin (by rw [unpackToks_length, numVals_rep]; simp [numVals, h.one])
    simp only [structDecOpt, structDec, struct_unpack hna, hz, e3.unpack, e2, h.ser.order, h.ser.toks, hfin]
    rcases readMany_takes (w := w) (F := F) (n := n) b with ⟨h1, vs, h2⟩ | ⟨h1, h2⟩
    · rw [if_pos h1, hrep.2 vs _ h2, h2]
      exact ⟨rfl, hz⟩
    · rw [if_neg (by omega), h2]
      exact rfl

end Verif
