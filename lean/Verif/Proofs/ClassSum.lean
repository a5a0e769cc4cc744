import Verif.Props.Adding
import Verif.Proofs.LastWins
/-
Helper lemmas: changing the byte order of a sum is summing with the byte order changed.
-/
namespace Verif
open Spec

variable {cf : ClassId → Bool} {id : SerId}

theorem parseAux_std : ∀ {f : List Char} {acc : Option Nat} {t : List Tok}, parseAux true f acc = some t →
    (parseAux false f acc = some t ↔ ∀ k ∈ t, k.c.nativeOnly = false)
  | [], none, t, h => by cases h; simp [parseAux]
  | [], some _, t, h => by cases h
  | ch :: cs, acc, t, h => by
    simp only [parseAux] at h ⊢
    by_cases h1 : acc = none ∧ ch.isWhitespace
    · rw [if_pos h1] at h ⊢
      exact parseAux_std h
    · rw [if_neg h1] at h ⊢
      by_cases h2 : ch.isDigit
      · rw [if_pos h2] at h ⊢
        exact parseAux_std h
      · rw [if_neg h2] at h ⊢
        cases hc : Code.ofChar ch with
        | none => rw [hc] at h; cases h
        | some c =>
          rw [hc] at h
          dsimp only at h ⊢
          rw [if_neg (by simp)] at h
          cases hr : parseAux true cs none with
          | none => rw [hr] at h; cases h
          | some r =>
            rw [hr] at h
            cases h
            have ih := parseAux_std hr
            by_cases hn : c.nativeOnly = true
            · rw [if_pos (by simp [hn])]
              constructor
              · intro h; cases h
              · intro h
                have := h _ (by simp : (⟨acc.getD 1, c⟩ : Tok) ∈ (⟨acc.getD 1, c⟩ : Tok) :: r)
                rw [hn] at this; cases this
            · rw [if_neg (fun h => hn h.1)]
              have hn' : c.nativeOnly = false := by simpa using hn
              constructor
              · intro h
                have : parseAux false cs none = some r := by
                  cases hq : parseAux false cs none with
                  | none => rw [hq] at h; cases h
                  | some q => rw [hq] at h; cases h; rfl
                intro k hk
                rcases List.mem_cons.1 hk with rfl | hk
                · exact hn'
                · exact ih.1 this k hk
              · intro h
                rw [ih.2 fun k hk => h k (by simp [hk])]
                rfl

/-- The codes `n`, `N`, `P` are not available without native sizes; all else is. -/
theorem parse_mode {m : Bool} {f : List Char} {t : List Tok} (h : parse true f = some t) :
    parse m f = some t ↔ (m = true ∨ ∀ k ∈ t, k.c.nativeOnly = false) := by
  cases m with
  | true => simp [h]
  | false =>
    rw [show parse false f = parseAux false f none from rfl, parseAux_std h]
    simp

/-- `z` is the sum of `x` and `y`, in byte order `bo`, where `y` is one item. -/
structure SumIn (bo : ByteOrder) (x y z : StructSer) : Prop where
  sum : x.add y = .ok z
  xok : x.Valid
  yok : y.Valid
  xbo : x.byteOrder = bo
  ybo : y.byteOrder = bo
  single : SingleItem y.baseFormat

theorem SumIn.clean {bo : ByteOrder} {x y z : StructSer} (h : SumIn bo x y z) (hbo : bo.isNative = false) : CleanSum x y z :=
  ⟨h.sum, h.xok, h.yok, h.xbo.trans h.ybo.symm, .inl h.single, fun t _ => by rw [h.xbo, hbo, align_std]; omega⟩

/-- Like `C34_fields`, in any byte order. -/
theorem fields_sumIn {bo : ByteOrder} {ss : List Ser} {s : Ser} (hs : ∀ x ∈ ss, FieldOf bo x)
    (h : sumSers cf id ss = .ok s) : Merge (SumIn bo) ss (parts s) ∧ SumState cf bo s := by
  suffices ∀ (ss done : List Ser) (acc : Ser), (∀ x ∈ ss, FieldOf bo x) → SumState cf bo acc →
      Merge (SumIn bo) done (parts acc) → ss.foldlM (fun (acc : Ser) s => acc.add cf id s) acc = .ok s →
      Merge (SumIn bo) (done ++ ss) (parts s) ∧ SumState cf bo s by
    simpa using this ss [] .null hs sumState_null (.refl _) h
  intro ss
  induction ss with
  | nil =>
    intro done acc _ hp hm h
    cases h
    exact ⟨by simpa using hm, hp⟩
  | cons b ss ih =>
    intro done acc hf hp hm h
    rw [List.foldlM_cons] at h
    obtain ⟨acc', ha, h⟩ := Except.bind_ok' h
    have hb := hf b (by simp)
    have hm1 := hm.append [] [b]
    simp only [List.nil_append] at hm1
    have hp' : SumState cf bo acc' := by
      rcases add_field (id := id) hp hb with ⟨s', e, k⟩ | e
      · rw [ha] at e; cases e; exact k
      · rw [ha] at e; cases e
    have step : Merge (SumIn bo) (parts acc ++ [b]) (parts acc') := by
      rcases add_one hp.flat hp.notNull hb.1 ha with ⟨rfl, he⟩ | ⟨hb0, he, _⟩ | ⟨front, x, y, z, h1, rfl, hz, he⟩
      · rw [he]
        exact .null (post := []) (by rw [List.append_nil]; exact .refl _)
      · rw [he]; exact .refl _
      · obtain ⟨vx, bx⟩ := hp.valid x (by rw [h1]; simp)
        obtain ⟨vy, bo_y, sy⟩ := hb.2 y rfl
        rw [h1, he, List.append_assoc]
        exact .join (post := []) ⟨hz, vx, vy, bx, bo_y, sy⟩ (.refl _)
    have := ih (done ++ [b]) acc' (fun x hx => hf x (by simp [hx])) hp' (hm1.trans step) h
    simpa using this

/-- Changing the byte order of a valid struct serializer in the default order. -/
theorem structWbo_default {x x' : StructSer} {bo : ByteOrder} (hx : x.Valid) :
    x.withByteOrder bo = .ok x' ↔ (parse bo.isNative x.baseFormat = some x.toks ∧ x' = ⟨bo.value ++ x.baseFormat, x.actions⟩) := by
  rw [structWbo_eq hx.fmt]
  have h1 := StructSer.parse_base hx.fmt
  constructor
  · intro h
    split at h
    · rename_i hf
      cases h
      refine ⟨?_, rfl⟩
      have hb := byteOrder_of (bo := bo) (f := x.baseFormat) (a := Option.none) fun _ => base_no_order hx.fmt
      have h2 := StructSer.parse_base (s := ⟨bo.value ++ x.baseFormat, none⟩) hf
      rw [hb.1, show StructSer.baseFormat ⟨bo.value ++ x.baseFormat, none⟩ = x.baseFormat from hb.2] at h2
      rw [h2, parse_two_modes h2 h1]
    · cases h
  · rintro ⟨h2, rfl⟩
    rw [if_pos (StructSer.of_parse (a := none) h2).1]

theorem parse_default {x : StructSer} (hx : x.Valid) (hb : x.byteOrder.isNative = true) : parse true x.baseFormat = some x.toks := by
  have := StructSer.parse_base hx.fmt
  rwa [hb] at this

/-- The byte order of a sum: both operands can be put into it, and their sum is the sum in that order. -/
theorem sumIn_wbo {x y z z' : StructSer} {bo : ByteOrder} (h : SumIn .default x y z) (hz : z.withByteOrder bo = .ok z') :
    ∃ x' y', x.withByteOrder bo = .ok x' ∧ y.withByteOrder bo = .ok y' ∧ SumIn bo x' y' z' := by
  have hf := sum_facts h.xok h.yok (h.xbo.trans h.ybo.symm) (.inl h.single) h.sum
  have px := parse_default h.xok (by rw [h.xbo]; rfl)
  have py := parse_default h.yok (by rw [h.ybo]; rfl)
  have zbo : z.byteOrder = .default := hf.byteOrder.trans h.xbo
  have pz := parse_default hf.valid (by rw [zbo]; rfl)
  -- the base format of the sum
  have zfmt : z.baseFormat = foldOverlaps false x.baseFormat y.baseFormat := by
    have key : ∀ {f : List Char} {a : Option (List Action)}, z = ⟨ByteOrder.default.value ++ f, a⟩ →
        StructSer.formatOk (ByteOrder.default.value ++ f) = true → z.baseFormat = f := by
      intro f a hz hok
      have := z.format_eq
      rw [zbo, hz] at this
      simp only [ByteOrder.value, List.nil_append] at this
      rw [hz]
      exact this.symm
    have hsum := h.sum
    unfold StructSer.add at hsum
    simp only [h.xbo, h.ybo, ↓reduceIte] at hsum
    have hp : ∀ {f z}, StructSer.mkPlain f .default = .ok z → ∃ a, z = ⟨ByteOrder.default.value ++ f, a⟩ ∧ StructSer.formatOk (ByteOrder.default.value ++ f) = true := by
      intro f z hm
      unfold StructSer.mkPlain at hm
      dsimp only at hm
      split at hm
      · rename_i ho; cases hm; exact ⟨_, rfl, ho⟩
      · cases hm
    have hq : ∀ {f as z}, StructSer.mkActions f .default as = .ok z → ∃ a, z = ⟨ByteOrder.default.value ++ f, a⟩ ∧ StructSer.formatOk (ByteOrder.default.value ++ f) = true := by
      intro f as z hm
      unfold StructSer.mkActions at hm
      dsimp only at hm
      split at hm
      · rename_i ho
        split at hm <;> (cases hm; exact ⟨_, rfl, ho⟩)
      · cases hm
    split at hsum
    · obtain ⟨a, e1, e2⟩ := hp hsum; exact key e1 e2
    · obtain ⟨a, e1, e2⟩ := hq hsum; exact key e1 e2
    · obtain ⟨a, e1, e2⟩ := hq hsum; exact key e1 e2
    · obtain ⟨a, e1, e2⟩ := hq hsum; exact key e1 e2
  obtain ⟨hzp, rfl⟩ := (structWbo_default hf.valid).1 hz
  have hcodes : ∀ k, (k ∈ x.toks ∨ k ∈ y.toks) → bo.isNative = true ∨ k.c.nativeOnly = false := by
    intro k hk
    rcases (parse_mode pz).1 hzp with hb | hno
    · exact .inl hb
    · right
      rw [zfmt] at pz
      rcases foldOverlaps_parse (cs := false) px py h.single with hp | ⟨tp, a, b, c, e1, e2, _, hp⟩
      · have : z.toks = x.toks ++ y.toks := Option.some.inj (pz.symm.trans hp)
        rw [this] at hno
        exact hno k (List.mem_append.2 hk)
      · have : z.toks = tp ++ [⟨a + b, c⟩] := Option.some.inj (pz.symm.trans hp)
        rw [this] at hno
        have hc : c.nativeOnly = false := hno ⟨a + b, c⟩ (by simp)
        rw [e1, e2] at hk
        rcases hk with hk | hk
        · rcases List.mem_append.1 hk with hk | hk
          · exact hno k (by simp [hk])
          · rw [List.mem_singleton.1 hk]; exact hc
        · rw [List.mem_singleton.1 hk]; exact hc
  have hx' : parse bo.isNative x.baseFormat = some x.toks := by
    rw [parse_mode px]
    by_cases hb : bo.isNative = true
    · exact .inl hb
    · exact .inr fun k hk => (hcodes k (.inl hk)).resolve_left hb
  have hy' : parse bo.isNative y.baseFormat = some y.toks := by
    rw [parse_mode py]
    by_cases hb : bo.isNative = true
    · exact .inl hb
    · exact .inr fun k hk => (hcodes k (.inr hk)).resolve_left hb
  have ox := StructSer.of_parse (bo := bo) (a := x.actions) hx'
  have oy := StructSer.of_parse (bo := bo) (a := y.actions) hy'
  dsimp only at ox oy
  refine ⟨⟨bo.value ++ x.baseFormat, x.actions⟩, ⟨bo.value ++ y.baseFormat, y.actions⟩, (structWbo_default h.xok).2 ⟨hx', rfl⟩,
    (structWbo_default h.yok).2 ⟨hy', rfl⟩, ?_, ?_, ?_, ox.2.1, oy.2.1, ?_⟩
  · -- the sums
    have hsum := h.sum
    have nx : StructSer.numValues ⟨bo.value ++ x.baseFormat, x.actions⟩ = x.numValues := by
      simp [StructSer.numValues, ox.2.2.2]
    have fok : StructSer.formatOk (bo.value ++ z.baseFormat) = true := (StructSer.of_parse (a := none) hzp).1
    have nz : ∀ a, StructSer.numValues ⟨bo.value ++ z.baseFormat, a⟩ = z.numValues := by
      intro a
      simp [StructSer.numValues, (StructSer.of_parse (a := a) hzp).2.2.2]
    have nz0 : ∀ a, StructSer.numValues ⟨ByteOrder.default.value ++ z.baseFormat, a⟩ = z.numValues := by
      intro a
      simp [StructSer.numValues, (StructSer.of_parse (bo := .default) (a := a) pz).2.2.2]
    have fok0 : StructSer.formatOk (ByteOrder.default.value ++ z.baseFormat) = true := (StructSer.of_parse (bo := .default) (a := none) pz).1
    have plain : StructSer.mkPlain z.baseFormat .default = .ok z → StructSer.mkPlain z.baseFormat bo = .ok ⟨bo.value ++ z.baseFormat, z.actions⟩ := by
      intro hm
      unfold StructSer.mkPlain at hm ⊢
      dsimp only at hm ⊢
      rw [if_pos fok0] at hm
      rw [if_pos fok]
      injection hm with hm
      rw [← show Option.none = z.actions from by rw [← hm]]
    have acts : ∀ as, StructSer.mkActions z.baseFormat .default as = .ok z → StructSer.mkActions z.baseFormat bo as = .ok ⟨bo.value ++ z.baseFormat, z.actions⟩ := by
      intro as hm
      unfold StructSer.mkActions at hm ⊢
      dsimp only at hm ⊢
      rw [if_pos fok0, nz0] at hm
      rw [if_pos fok, nz]
      by_cases hl : as.length < z.numValues
      · rw [if_pos hl] at hm ⊢
        injection hm with hm
        have : z.actions = some (as ++ List.replicate (z.numValues - as.length) noopAction) := by
          conv => lhs; rw [← hm]
        rw [this]
      · rw [if_neg hl] at hm ⊢
        injection hm with hm
        have : z.actions = some as := by conv => lhs; rw [← hm]
        rw [this]
    unfold StructSer.add at hsum ⊢
    simp only [h.xbo, h.ybo, ↓reduceIte, ← zfmt] at hsum
    simp only [ox.2.1, oy.2.1, ox.2.2.1, oy.2.2.1, ↓reduceIte, ← zfmt, nx]
    cases ha : x.actions with
    | none =>
      cases hb : y.actions with
      | none => rw [ha, hb] at hsum; exact plain hsum
      | some bs => rw [ha, hb] at hsum; exact acts _ hsum
    | some as =>
      cases hb : y.actions with
      | none => rw [ha, hb] at hsum; exact acts _ hsum
      | some bs => rw [ha, hb] at hsum; exact acts _ hsum
  · exact ⟨ox.1, fun as ha => by
      rw [h.xok.acts as ha]; simp [StructSer.numValues, ox.2.2.2]⟩
  · exact ⟨oy.1, fun as ha => by
      rw [h.yok.acts as ha]; simp [StructSer.numValues, oy.2.2.2]⟩
  · rw [oy.2.2.1]; exact h.single

theorem wboList_append {bo : ByteOrder} : ∀ {as bs cs : List Ser}, Ser.withByteOrderList bo (as ++ bs) = .ok cs ↔
    ∃ as' bs', Ser.withByteOrderList bo as = .ok as' ∧ Ser.withByteOrderList bo bs = .ok bs' ∧ cs = as' ++ bs'
  | [], bs, cs => by
    constructor
    · exact fun h => ⟨[], cs, rfl, h, rfl⟩
    · rintro ⟨as', bs', h1, h2, rfl⟩
      cases h1
      exact h2
  | a :: as, bs, cs => by
    simp only [List.cons_append, Ser.withByteOrderList]
    constructor
    · intro h
      obtain ⟨a', h1, h⟩ := Except.bind_ok' h
      obtain ⟨r, h2, h⟩ := Except.bind_ok' h
      cases h
      obtain ⟨as', bs', h3, h4, rfl⟩ := wboList_append.1 h2
      exact ⟨a' :: as', bs', by rw [h1, h3]; rfl, h4, rfl⟩
    · rintro ⟨as', bs', h1, h2, rfl⟩
      obtain ⟨a', h3, h1⟩ := Except.bind_ok' h1
      obtain ⟨r, h4, h1⟩ := Except.bind_ok' h1
      cases h1
      rw [h3, (wboList_append (as := as)).2 ⟨r, bs', h4, h2, rfl⟩]
      rfl

theorem wboList_struct {bo : ByteOrder} {x : StructSer} {ss cs : List Ser} : Ser.withByteOrderList bo (.struct x :: ss) = .ok cs ↔
    ∃ x' ss', x.withByteOrder bo = .ok x' ∧ Ser.withByteOrderList bo ss = .ok ss' ∧ cs = .struct x' :: ss' := by
  simp only [Ser.withByteOrderList, Ser.withByteOrder]
  constructor
  · intro h
    obtain ⟨a', h1, h⟩ := Except.bind_ok' h
    obtain ⟨x', h0, h1⟩ := Except.bind_ok' h1
    cases h1
    obtain ⟨r, h2, h⟩ := Except.bind_ok' h
    cases h
    exact ⟨x', r, h0, h2, rfl⟩
  · rintro ⟨x', ss', h1, h2, rfl⟩
    rw [h1, h2]; rfl

/-- The byte order of a merged list. -/
theorem merge_change {bo : ByteOrder} {J K : StructSer → StructSer → StructSer → Prop} (hJK : ∀ {x y z z'}, J x y z → z.withByteOrder bo = .ok z' →
      ∃ x' y', x.withByteOrder bo = .ok x' ∧ y.withByteOrder bo = .ok y' ∧ K x' y' z') {xs ys ys' : List Ser} (h : Merge J xs ys)
    (hy : Ser.withByteOrderList bo ys = .ok ys') : ∃ xs', Ser.withByteOrderList bo xs = .ok xs' ∧ Merge K xs' ys' := by
  induction h with
  | refl xs => exact ⟨ys', hy, .refl _⟩
  | null _ ih =>
    obtain ⟨xs', h1, h2⟩ := ih hy
    obtain ⟨as', bs', h3, h4, rfl⟩ := wboList_append.1 h1
    refine ⟨as' ++ .null :: bs', wboList_append.2 ⟨as', .null :: bs', h3, ?_, rfl⟩, .null h2⟩
    simp only [Ser.withByteOrderList, Ser.withByteOrder, h4]
    rfl
  | join hj _ ih =>
    obtain ⟨xs', h1, h2⟩ := ih hy
    obtain ⟨as', bs', h3, h4, rfl⟩ := wboList_append.1 h1
    obtain ⟨z', ss', h5, h6, rfl⟩ := wboList_struct.1 h4
    obtain ⟨x', y', h7, h8, h9⟩ := hJK hj h5
    exact ⟨as' ++ .struct x' :: .struct y' :: ss', wboList_append.2 ⟨as', _, h3,
      wboList_struct.2 ⟨x', _, h7, wboList_struct.2 ⟨y', _, h8, h6, rfl⟩, rfl⟩, rfl⟩, .join h9 h2⟩

theorem merge_wbo {bo : ByteOrder} {xs ys ys' : List Ser} (h : Merge (SumIn .default) xs ys)
    (hy : Ser.withByteOrderList bo ys = .ok ys') : ∃ xs', Ser.withByteOrderList bo xs = .ok xs' ∧ Merge (SumIn bo) xs' ys' :=
  merge_change sumIn_wbo h hy

theorem merge_mono {J K : StructSer → StructSer → StructSer → Prop} (hJK : ∀ x y z, J x y z → K x y z) {xs ys : List Ser}
    (h : Merge J xs ys) : Merge K xs ys := by
  induction h with
  | refl xs => exact .refl _
  | null _ ih => exact .null ih
  | join hj _ ih => exact .join (hJK _ _ _ hj) ih

theorem wbo_partsOf {bo : ByteOrder} {s s' : Ser} (hs : Simple s ∨ ∃ i ss, s = .compound i ss) (h : s.withByteOrder bo = .ok s') :
    Ser.withByteOrderList bo (parts s) = .ok (parts s') := by
  rcases hs with sa | ⟨i, ss, rfl⟩
  · rcases parts_simple sa with ⟨h0, rfl⟩ | hp
    · cases h; rfl
    · have h1 : Ser.withByteOrderList bo [s] = .ok [s'] := by
        simp only [Ser.withByteOrderList, h]; rfl
      rw [hp, h1]
      congr 1
      have : parts s' = [s'] := by
        cases s <;> first | cases sa | skip
        case null => cases hp
        case array i hdr item sl =>
          cases hdr <;> simp only [Ser.withByteOrder] at h
          · obtain ⟨_, _, h⟩ := Except.bind_ok' h; obtain ⟨_, _, h⟩ := Except.bind_ok' h; cases h; rfl
          · obtain ⟨_, _, h⟩ := Except.bind_ok' h; obtain ⟨_, _, h⟩ := Except.bind_ok' h
            obtain ⟨_, _, h⟩ := Except.bind_ok' h; cases h; rfl
        all_goals
          simp only [Ser.withByteOrder] at h
          first
          | (cases h; rfl)
          | (obtain ⟨_, _, h⟩ := Except.bind_ok' h; cases h; rfl)
          | (obtain ⟨_, _, h⟩ := Except.bind_ok' h; obtain ⟨_, _, h⟩ := Except.bind_ok' h; cases h; rfl)
          | (obtain ⟨_, _, h⟩ := Except.bind_ok' h; split at h <;> cases h; rfl)
      rw [this]
  · simp only [Ser.withByteOrder] at h
    obtain ⟨ss', h1, h2⟩ := Except.bind_ok' h
    unfold mkCompound at h2
    split at h2
    · cases h2
    · cases h2
      exact h1

theorem wbo_parts {cf : ClassId → Bool} {bo : ByteOrder} {s s' : Ser} (hs : Flat cf s) (h : s.withByteOrder bo = .ok s') :
    Ser.withByteOrderList bo (parts s) = .ok (parts s') := wbo_partsOf hs.notSpecial h

theorem withByteOrder_null {bo : ByteOrder} {s : Ser} (h : s.withByteOrder bo = .ok .null) : s = .null := by
  cases s
  case null => rfl
  case array i hdr item sl =>
    cases hdr <;> simp only [Ser.withByteOrder] at h
    · obtain ⟨_, _, h⟩ := Except.bind_ok' h; obtain ⟨_, _, h⟩ := Except.bind_ok' h; cases h
    · obtain ⟨_, _, h⟩ := Except.bind_ok' h; obtain ⟨_, _, h⟩ := Except.bind_ok' h
      obtain ⟨_, _, h⟩ := Except.bind_ok' h; cases h
  all_goals
    simp only [Ser.withByteOrder] at h
    first
    | cases h
    | (obtain ⟨_, _, h⟩ := Except.bind_ok' h; cases h)
    | (obtain ⟨_, _, h⟩ := Except.bind_ok' h; obtain ⟨_, _, h⟩ := Except.bind_ok' h; cases h)
    | (obtain ⟨_, _, h⟩ := Except.bind_ok' h; split at h <;> cases h)
    | (obtain ⟨_, _, h⟩ := Except.bind_ok' h; unfold mkCompound at h; split at h <;> cases h)

end Verif
