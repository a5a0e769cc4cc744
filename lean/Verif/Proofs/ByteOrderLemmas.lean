import Verif.Spec.ByteOrder
import Verif.Proofs.AddLemmas
import Verif.Proofs.HistoryPack
import Verif.Proofs.AddRun
/-
Which byte orders the parts of a serializer have after `with_byte_order`, and which parts of packing look at the byte
order of the machine.
-/
namespace Verif
open Sem

/-! ### Characters of formats -/

def wideChar (ch : Char) : Bool := match Code.ofChar ch with
  | some c => c.wide
  | none => false

theorem StructSer.wide_iff {s : StructSer} : s.wide = true ↔ ∃ ch ∈ s.format, wideChar ch = true := by
  simp [StructSer.wide, wideChar]; rfl

theorem isDigit_not_wide {ch : Char} (h : ch.isDigit = true) : wideChar ch = false := by
  unfold wideChar
  cases hc : Code.ofChar ch with
  | none => rfl
  | some c =>
    have := (ofChar_not_digit (c := ch) (by simp [hc])).1
    rw [h] at this; cases this

theorem value_not_wide (bo : ByteOrder) : ∀ ch ∈ bo.value, wideChar ch = false := by
  cases bo <;> simp [ByteOrder.value] <;> decide

theorem fold_chars {cs : Bool} {a b : List Char} {ch : Char} (h : ch ∈ foldOverlaps cs a b) :
    ch ∈ a ∨ ch ∈ b ∨ ch.isDigit = true := by
  unfold foldOverlaps at h
  split at h
  · rename_i c2 o2 ep pre c1 o1 h2 h1
    split at h
    · have hpre : (∀ x ∈ pre, x ∈ a) ∧ o1 ∈ a := by
        unfold reEnd at h1
        split at h1
        · cases h1
        · rename_i c rest hr
          split at h1
          · simp only [Option.some.injEq, Prod.mk.injEq] at h1
            obtain ⟨rfl, rfl, rfl⟩ := h1
            have hmem : ∀ x, x ∈ c :: rest → x ∈ a := fun x hx => by rw [← hr] at hx; simpa using hx
            refine ⟨fun x hx => hmem x ?_, hmem c (by simp)⟩
            simp only [List.mem_reverse] at hx
            exact List.mem_cons_of_mem _ (List.dropWhile_sublist _ |>.subset hx)
          · cases h1
      have hep : ep = [] := by
        unfold reStart at h2
        split at h2
        · cases h2
        · split at h2
          · simp only [Option.some.injEq, Prod.mk.injEq] at h2
            exact h2.2.2.symm
          · cases h2
      subst hep
      simp only [List.append_nil, List.mem_append, List.mem_singleton] at h
      rcases h with (h | h) | h
      · exact .inl (hpre.1 _ h)
      · exact .inr (.inr (toDigits_isDigit _ _ h))
      · exact .inl (h ▸ hpre.2)
    · rcases List.mem_append.1 h with h | h
      · exact .inl h
      · exact .inr (.inl h)
  · rcases List.mem_append.1 h with h | h
    · exact .inl h
    · exact .inr (.inl h)

theorem foldl_chars {cs : Bool} {f : List Char} {ch : Char} : ∀ (n : Nat) (acc : List Char), (∀ x ∈ acc, x ∈ f ∨ x.isDigit = true) →
    ch ∈ (List.replicate n f).foldl (foldOverlaps cs) acc → ch ∈ f ∨ ch.isDigit = true
  | 0, acc, hacc, h => hacc _ h
  | n + 1, acc, hacc, h => by
    simp only [List.replicate_succ, List.foldl_cons] at h
    refine foldl_chars n _ ?_ h
    intro x hx
    rcases fold_chars hx with h | h | h
    · exact hacc _ h
    · exact .inl h
    · exact .inr h

theorem parseAux_chars {nat : Bool} : ∀ {cs : List Char} {acc : Option Nat} {ts : List Tok}, parseAux nat cs acc = some ts →
    (∀ t ∈ ts, ∃ ch ∈ cs, Code.ofChar ch = some t.c) ∧ ∀ ch ∈ cs, ByteOrder.ofChar ch = none
  | [], none, ts, h => by simp only [parseAux, Option.some.injEq] at h; subst h; simp
  | [], some _, ts, h => by simp [parseAux] at h
  | ch :: cs, acc, ts, h => by
    have hno : ∀ c : Char, (c.isWhitespace = true ∨ c.isDigit = true ∨ (Code.ofChar c).isSome) → ByteOrder.ofChar c = none := by
      intro c hc
      unfold ByteOrder.ofChar
      repeat' split
      all_goals first | rfl | (subst_vars; exact absurd hc (by decide))
    unfold parseAux at h
    split at h
    · rename_i hw
      obtain ⟨h1, h2⟩ := parseAux_chars h
      refine ⟨fun t ht => ?_, ?_⟩
      · obtain ⟨c, hc, e⟩ := h1 t ht; exact ⟨c, by simp [hc], e⟩
      · intro c hc
        rcases List.mem_cons.1 hc with rfl | hc
        · exact hno _ (.inl hw.2)
        · exact h2 c hc
    · split at h
      · rename_i hd
        obtain ⟨h1, h2⟩ := parseAux_chars h
        refine ⟨fun t ht => ?_, ?_⟩
        · obtain ⟨c, hc, e⟩ := h1 t ht; exact ⟨c, by simp [hc], e⟩
        · intro c hc
          rcases List.mem_cons.1 hc with rfl | hc
          · exact hno _ (.inr (.inl hd))
          · exact h2 c hc
      · split at h
        · cases h
        · rename_i k hk
          split at h
          · cases h
          · simp only [Option.map_eq_some_iff] at h
            obtain ⟨ts', h, rfl⟩ := h
            obtain ⟨h1, h2⟩ := parseAux_chars h
            refine ⟨fun t ht => ?_, ?_⟩
            · rcases List.mem_cons.1 ht with rfl | ht
              · exact ⟨ch, by simp, hk⟩
              · obtain ⟨c, hc, e⟩ := h1 t ht; exact ⟨c, by simp [hc], e⟩
            · intro c hc
              rcases List.mem_cons.1 hc with rfl | hc
              · exact hno _ (.inr (.inr (by simp [hk])))
              · exact h2 c hc

theorem baseFormat_sub {s : StructSer} {ch : Char} (h : ch ∈ s.baseFormat) : ch ∈ s.format := by
  rw [StructSer.format_eq]; simp [h]

theorem toks_not_wide {s : StructSer} (h : s.wide = false) : ∀ t ∈ s.toks, t.c.wide = false := by
  intro t ht
  unfold StructSer.toks at ht
  cases hp : parse s.byteOrder.isNative s.baseFormat with
  | none => simp [hp] at ht
  | some ts =>
    simp only [hp, Option.getD_some] at ht
    obtain ⟨ch, hc, e⟩ := (parseAux_chars hp).1 t ht
    cases hw : t.c.wide with
    | false => rfl
    | true =>
      have : s.wide = true := StructSer.wide_iff.2 ⟨ch, baseFormat_sub hc, by simp [wideChar, e, hw]⟩
      rw [h] at this; cases this

/-! ### The byte order of results -/

/-- The format starts with no byte order character, or one is put in front. -/
theorem byteOrder_of {bo : ByteOrder} {f : List Char} {a : Option (List Action)} (h : bo = .default → ∀ ch ∈ f, ByteOrder.ofChar ch = none) :
    (⟨bo.value ++ f, a⟩ : StructSer).byteOrder = bo ∧ (⟨bo.value ++ f, a⟩ : StructSer).baseFormat = f := by
  unfold StructSer.byteOrder StructSer.baseFormat
  cases bo <;> try exact ⟨rfl, rfl⟩
  cases f with
  | nil => exact ⟨rfl, rfl⟩
  | cons c cs => simp [ByteOrder.value, splitByteOrder, h rfl c (by simp)]

theorem base_no_order {s : StructSer} (h : StructSer.formatOk s.format = true) : ∀ ch ∈ s.baseFormat, ByteOrder.ofChar ch = none :=
  (parseAux_chars (StructSer.parse_base h)).2

theorem remake_eq {s r : StructSer} {f : List Char} {bo : ByteOrder} (h : s.remake f bo = .ok r) :
    r.format = bo.value ++ f ∧ StructSer.formatOk r.format = true := by
  unfold StructSer.remake StructSer.mkPlain StructSer.mkActions at h
  split at h
  · simp only at h; split at h <;> cases h; rename_i ho; exact ⟨rfl, ho⟩
  · simp only at h
    split at h
    · rename_i ho
      split at h <;> cases h <;> exact ⟨rfl, ho⟩
    · cases h

theorem StructSer.byteOrder_congr {s t : StructSer} (h : s.format = t.format) : s.byteOrder = t.byteOrder := by
  simp [StructSer.byteOrder, h]

theorem StructSer.wide_congr {s t : StructSer} (h : s.format = t.format) : s.wide = t.wide := by
  simp [StructSer.wide, h]

theorem structWbo {s r : StructSer} {bo : ByteOrder} (hs : StructSer.formatOk s.format = true) (h : s.withByteOrder bo = .ok r) :
    r.byteOrder = bo ∧ r.wide = s.wide ∧ StructSer.formatOk r.format = true ∧ r.baseFormat = s.baseFormat ∧ r.actions = s.actions := by
  unfold StructSer.withByteOrder at h
  split at h
  · rename_i hb; cases h; exact ⟨hb, rfl, hs, rfl, rfl⟩
  · obtain ⟨r', h1, h2⟩ := Except.bind_ok' h
    cases h2
    obtain ⟨e, ho⟩ := remake_eq h1
    have hb := byteOrder_of (bo := bo) (f := s.baseFormat) (a := s.actions) fun _ => base_no_order hs
    refine ⟨?_, ?_, ho, ?_, rfl⟩
    · refine Eq.trans (StructSer.byteOrder_congr ?_) hb.1
      exact e
    · have ew : (⟨r'.format, s.actions⟩ : StructSer).wide = (⟨bo.value ++ s.baseFormat, s.actions⟩ : StructSer).wide :=
        StructSer.wide_congr e
      rw [ew]
      cases hw : s.wide with
      | true =>
        obtain ⟨ch, hc, hw⟩ := StructSer.wide_iff.1 hw
        rw [StructSer.format_eq, List.mem_append] at hc
        refine StructSer.wide_iff.2 ⟨ch, ?_, hw⟩
        rcases hc with hc | hc
        · rw [value_not_wide _ _ hc] at hw; cases hw
        · simp [hc]
      | false =>
        cases hw' : (⟨bo.value ++ s.baseFormat, s.actions⟩ : StructSer).wide with
        | false => rfl
        | true =>
          obtain ⟨ch, hc, hw1⟩ := StructSer.wide_iff.1 hw'
          simp only [List.mem_append] at hc
          rcases hc with hc | hc
          · rw [value_not_wide _ _ hc] at hw1; cases hw1
          · rw [← hw]; exact (StructSer.wide_iff.2 ⟨ch, baseFormat_sub hc, hw1⟩).symm
    · show (splitByteOrder r'.format).2 = _
      rw [e]; exact hb.2

theorem mul_facts {s c : StructSer} {n : Int} (h : s.mul n = .ok (some c)) :
    (s.wide = false → c.wide = false) ∧ (StructSer.formatOk s.format = true ∨ s.byteOrder ≠ .default → c.byteOrder = s.byteOrder) ∧
    (StructSer.formatOk s.format = true → StructSer.formatOk c.format = true) := by
  unfold StructSer.mul at h
  obtain ⟨r, h1, h2⟩ := Except.bind_ok' h
  have key : ∀ t, r = some t → (s.wide = false → t.wide = false) ∧
      (StructSer.formatOk s.format = true ∨ s.byteOrder ≠ .default → t.byteOrder = s.byteOrder) ∧
      (StructSer.formatOk s.format = true → StructSer.formatOk t.format = true) := by
    intro t ht
    subst ht
    unfold StructSer.mulImpl at h1
    split at h1
    · cases h1
    · split at h1
      · cases h1
      · split at h1
        · cases h1; exact ⟨id, fun _ => rfl, id⟩
        · obtain ⟨t', h3, h4⟩ := Except.bind_ok' h1
          cases h4
          obtain ⟨e, ho⟩ := remake_eq h3
          have hch : ∀ ch ∈ (List.replicate (n.toNat - 1) s.baseFormat).foldl (foldOverlaps false) s.baseFormat,
              ch ∈ s.baseFormat ∨ ch.isDigit = true := fun ch hc => foldl_chars _ _ (fun x hx => .inl hx) hc
          refine ⟨?_, ?_, fun _ => ho⟩
          · intro hw
            cases hw' : t.wide with
            | false => rfl
            | true =>
              obtain ⟨ch, hc, hw1⟩ := StructSer.wide_iff.1 hw'
              rw [e, List.mem_append] at hc
              rcases hc with hc | hc
              · rw [value_not_wide _ _ hc] at hw1; cases hw1
              · rcases hch _ hc with hc | hc
                · rw [← hw]; exact (StructSer.wide_iff.2 ⟨ch, baseFormat_sub hc, hw1⟩).symm
                · rw [isDigit_not_wide hc] at hw1; cases hw1
          · intro hor
            rw [StructSer.byteOrder_congr (t := ⟨_, none⟩) e]
            refine (byteOrder_of ?_).1
            intro hd ch hc
            rcases hor with hok | hne
            · rcases hch _ hc with hc | hc
              · exact base_no_order hok _ hc
              · unfold ByteOrder.ofChar
                repeat' split
                all_goals first | rfl | (subst_vars; exact absurd hc (by decide))
            · exact absurd hd hne
  split at h2
  · rename_i t _ acts _
    cases h2
    have k := key _ rfl
    exact ⟨fun h => (StructSer.wide_congr rfl).trans (k.1 h), fun h => (StructSer.byteOrder_congr rfl).trans (k.2.1 h), k.2.2⟩
  · cases h2
    exact key c rfl

/-! ### Serializers -/

theorem ordersList_mem {ss : List Ser} {b : ByteOrder} : b ∈ Ser.ordersList ss ↔ ∃ s ∈ ss, b ∈ s.orders := by
  induction ss with
  | nil => simp [Ser.ordersList]
  | cons s ss ih => simp [Ser.ordersList, ih]

theorem structsList_mem {ss : List Ser} {b : StructSer} : b ∈ Ser.structsList ss ↔ ∃ s ∈ ss, b ∈ s.structs := by
  induction ss with
  | nil => simp [Ser.structsList]
  | cons s ss ih => simp [Ser.structsList, ih]

theorem structOrders {s : StructSer} {b : ByteOrder} : b ∈ s.orders ↔ s.wide = true ∧ b = s.byteOrder := by
  unfold StructSer.orders
  split <;> simp_all

mutual
/-- After `with_byte_order` every number has the new byte order, except in the parts that do not follow. -/
theorem wbo_orders (bo : ByteOrder) : ∀ (s s' : Ser), s.FormatsOk → s.withByteOrder bo = .ok s' →
    (∀ b ∈ s'.orders, b = bo ∨ b ∈ s.deaf) ∧ (∀ b ∈ s.deaf, b ∈ s'.orders) ∧ s'.FormatsOk
  | .struct st, s', hf, h => by
    simp only [Ser.withByteOrder] at h
    obtain ⟨r, h1, h2⟩ := Except.bind_ok' h
    cases h2
    have hw := structWbo (hf st (by simp [Ser.structs])) h1
    refine ⟨?_, by simp [Ser.deaf], by simp [Ser.FormatsOk, Ser.structs, hw.2.2.1]⟩
    intro b hb
    simp only [Ser.orders] at hb
    exact .inl ((structOrders.1 hb).2.trans hw.1)
  | .dynChar id st, s', hf, h => by
    simp only [Ser.withByteOrder] at h
    obtain ⟨r, h1, h2⟩ := Except.bind_ok' h
    cases h2
    have hw := structWbo (hf st (by simp [Ser.structs])) h1
    refine ⟨?_, by simp [Ser.deaf], by simp [Ser.FormatsOk, Ser.structs, hw.2.2.1]⟩
    intro b hb
    simp only [Ser.orders] at hb
    exact .inl ((structOrders.1 hb).2.trans hw.1)
  | .array id hdr item sl, s', hf, h => by
    cases hdr with
    | none =>
      simp only [Ser.withByteOrder] at h
      obtain ⟨hdr', h1, h2⟩ := Except.bind_ok' h
      cases h1
      obtain ⟨item', h3, h4⟩ := Except.bind_ok' h2
      cases h4
      have hi := wbo_orders bo item item' (fun x hx => hf x (by simp [Ser.structs, hx])) h3
      simpa [Ser.orders, Ser.deaf, Ser.FormatsOk, Ser.structs] using hi
    | some hd =>
      simp only [Ser.withByteOrder] at h
      obtain ⟨hd', h5, h⟩ := Except.bind_ok' h
      obtain ⟨hdr', h1, h2⟩ := Except.bind_ok' h
      cases h1
      obtain ⟨item', h3, h4⟩ := Except.bind_ok' h2
      cases h4
      have hi := wbo_orders bo item item' (fun x hx => hf x (by simp [Ser.structs, hx])) h3
      have hw := structWbo (hf hd (by simp [Ser.structs])) h5
      refine ⟨?_, ?_, ?_⟩
      · intro b hb
        simp only [Ser.orders, List.mem_append] at hb
        rcases hb with hb | hb
        · exact .inl ((structOrders.1 hb).2.trans hw.1)
        · exact hi.1 b hb
      · intro b hb
        simp only [Ser.orders, List.mem_append]
        exact .inr (hi.2.1 b hb)
      · intro x hx
        simp only [Ser.structs, Option.toList_some, List.mem_append, List.mem_singleton] at hx
        rcases hx with rfl | hx
        · exact hw.2.2.1
        · exact hi.2.2 x hx
  | .staticArr count item ser, s', hf, h => by
    simp only [Ser.withByteOrder] at h
    obtain ⟨item', h1, h2⟩ := Except.bind_ok' h
    unfold mkStaticArr at h2
    obtain ⟨ser', h3, h4⟩ := Except.bind_ok' h2
    cases h4
    have hw := structWbo (hf item (by simp [Ser.structs])) h1
    refine ⟨?_, by simp [Ser.deaf], ?_⟩
    · intro b hb
      simp only [Ser.orders, List.mem_append] at hb
      rcases hb with hb | hb
      · exact .inl ((structOrders.1 hb).2.trans hw.1)
      · cases ser' with
        | none => simp at hb
        | some c =>
          have hm := (mul_facts h3).2.1 (.inl hw.2.2.1)
          exact .inl ((structOrders.1 hb).2.trans (hm.trans hw.1))
    · intro x hx
      simp only [Ser.structs, List.mem_cons, Option.mem_toList] at hx
      rcases hx with rfl | hx
      · exact hw.2.2.1
      · cases ser' with
        | none => simp at hx
        | some c => cases hx; exact (mul_facts h3).2.2 hw.2.2.1
  | .dynArr id cnt item, s', hf, h => by
    simp only [Ser.withByteOrder] at h
    obtain ⟨cnt', h1, h2⟩ := Except.bind_ok' h
    obtain ⟨item', h3, h4⟩ := Except.bind_ok' h2
    cases h4
    have hw1 := structWbo (hf cnt (by simp [Ser.structs])) h1
    have hw2 := structWbo (hf item (by simp [Ser.structs])) h3
    refine ⟨?_, by simp [Ser.deaf], by simp [Ser.FormatsOk, Ser.structs, hw1.2.2.1, hw2.2.2.1]⟩
    intro b hb
    simp only [Ser.orders, List.mem_append] at hb
    rcases hb with hb | hb
    · split at hb
      · simp only [List.mem_singleton] at hb; exact .inl (hb.trans hw1.1)
      · simp at hb
    · exact .inl ((structOrders.1 hb).2.trans hw2.1)
  | .cond ser c defs, s', hf, h => by
    simp only [Ser.withByteOrder] at h
    obtain ⟨ser', h1, h2⟩ := Except.bind_ok' h
    have hi := wbo_orders bo ser ser' (fun x hx => hf x (by simpa [Ser.structs] using hx)) h1
    split at h2
    · cases h2
    · cases h2
      simpa [Ser.orders, Ser.deaf, Ser.FormatsOk, Ser.structs] using hi
  | .compound id ss, s', hf, h => by
    simp only [Ser.withByteOrder] at h
    obtain ⟨ss', h1, h2⟩ := Except.bind_ok' h
    have hi := wbo_ordersList bo ss ss' (fun x hx => hf x (by simpa [Ser.structs] using hx)) h1
    unfold mkCompound at h2
    split at h2
    · cases h2
    · cases h2
      simpa [Ser.orders, Ser.deaf, Ser.FormatsOk, Ser.structs] using hi
  | .specialized id p ss, s', hf, h => by
    simp only [Ser.withByteOrder] at h
    obtain ⟨ss', h1, h2⟩ := Except.bind_ok' h
    have hi := wbo_ordersList bo ss ss' (fun x hx => hf x (by simpa [Ser.structs] using hx)) h1
    unfold mkCompound at h2
    split at h2
    · cases h2
    · cases h2
      simpa [Ser.orders, Ser.deaf, Ser.FormatsOk, Ser.structs] using hi
  | .null, s', hf, h => by cases h; exact ⟨by simp [Ser.orders], by simp [Ser.deaf], hf⟩
  | .consuming _, s', hf, h => by cases h; exact ⟨by simp [Ser.orders], by simp [Ser.deaf], hf⟩
  | .terminated _ _, s', hf, h => by cases h; exact ⟨by simp [Ser.orders], by simp [Ser.deaf], hf⟩
  | .net _, s', hf, h => by cases h; exact ⟨by simp [Ser.orders, Ser.deaf], by simp [Ser.deaf, Ser.orders], hf⟩
  | .unicode .., s', hf, h => by cases h; exact ⟨fun b hb => .inr (by simpa [Ser.orders, Ser.deaf] using hb), by simp [Ser.deaf, Ser.orders], hf⟩
  | .tuple .., s', hf, h => by cases h; exact ⟨fun b hb => .inr (by simpa [Ser.orders, Ser.deaf] using hb), by simp [Ser.deaf, Ser.orders], hf⟩
  | .lookback .., s', hf, h => by cases h; exact ⟨fun b hb => .inr (by simpa [Ser.orders, Ser.deaf] using hb), by simp [Ser.deaf, Ser.orders], hf⟩
  | .lookahead .., s', hf, h => by cases h; exact ⟨fun b hb => .inr (by simpa [Ser.orders, Ser.deaf] using hb), by simp [Ser.deaf, Ser.orders], hf⟩
  | .skip _, s', hf, h => by cases h; exact ⟨by simp [Ser.orders], by simp [Ser.deaf], hf⟩
  | .structured .., s', hf, h => by cases h; exact ⟨by simp [Ser.orders], by simp [Ser.deaf], hf⟩
  | .selfT _, s', hf, h => by cases h; exact ⟨by simp [Ser.orders], by simp [Ser.deaf], hf⟩
theorem wbo_ordersList (bo : ByteOrder) : ∀ (ss ss' : List Ser), (∀ x ∈ Ser.structsList ss, StructSer.formatOk x.format = true) →
    Ser.withByteOrderList bo ss = .ok ss' →
    (∀ b ∈ Ser.ordersList ss', b = bo ∨ b ∈ Ser.deafList ss) ∧ (∀ b ∈ Ser.deafList ss, b ∈ Ser.ordersList ss') ∧
      ∀ x ∈ Ser.structsList ss', StructSer.formatOk x.format = true
  | [], ss', _, h => by cases h; simp [Ser.ordersList, Ser.deafList, Ser.structsList]
  | s :: ss, ss', hf, h => by
    simp only [Ser.withByteOrderList] at h
    obtain ⟨s1, h1, h2⟩ := Except.bind_ok' h
    obtain ⟨ss1, h3, h4⟩ := Except.bind_ok' h2
    cases h4
    have a := wbo_orders bo s s1 (fun x hx => hf x (by simp [Ser.structsList, hx])) h1
    have b := wbo_ordersList bo ss ss1 (fun x hx => hf x (by simp [Ser.structsList, hx])) h3
    simp only [Ser.ordersList, Ser.deafList, Ser.structsList, List.mem_append]
    refine ⟨?_, ?_, ?_⟩
    · rintro x (hx | hx)
      · exact (a.1 x hx).imp id .inl
      · exact (b.1 x hx).imp id .inr
    · rintro x (hx | hx)
      · exact .inl (a.2.1 x hx)
      · exact .inr (b.2.1 x hx)
    · rintro x (hx | hx)
      · exact a.2.2 x hx
      · exact b.2.2 x hx
end

end Verif
