import Verif.Proofs.HostLemmas
/-
`with_byte_order` after `with_byte_order`.
-/
namespace Verif

theorem structWbo_eq {s : StructSer} (hs : StructSer.formatOk s.format = true) (bo : ByteOrder) :
    s.withByteOrder bo = if StructSer.formatOk (bo.value ++ s.baseFormat) then .ok ⟨bo.value ++ s.baseFormat, s.actions⟩ else .error .structError := by
  unfold StructSer.withByteOrder
  split
  · rename_i hb
    rw [← hb, ← StructSer.format_eq, if_pos hs]
  · unfold StructSer.remake StructSer.mkPlain StructSer.mkActions
    cases s.actions with
    | none => simp only; split <;> rfl
    | some as =>
      simp only
      split
      · split <;> rfl
      · rfl

theorem struct_last_wins {s c : StructSer} {b1 : ByteOrder} (hs : StructSer.formatOk s.format = true) (h : s.withByteOrder b1 = .ok c) (b2 : ByteOrder) :
    c.withByteOrder b2 = s.withByteOrder b2 := by
  obtain ⟨_, _, h1, h2, h3⟩ := structWbo hs h
  rw [structWbo_eq hs, structWbo_eq h1, h2, h3]

theorem numVals_mode {f : List Char} {bo bo' : ByteOrder} {t t' : List Tok} (h : parse bo.isNative f = some t) (h' : parse bo'.isNative f = some t') :
    t = t' := parse_two_modes h h'

theorem structWbo_numValues {s c : StructSer} {bo : ByteOrder} (hs : StructSer.formatOk s.format = true) (h : s.withByteOrder bo = .ok c) :
    c.numValues = s.numValues := by
  obtain ⟨_, _, h1, h2, _⟩ := structWbo hs h
  unfold StructSer.numValues
  have e1 := StructSer.parse_base hs
  have e2 := StructSer.parse_base h1
  rw [h2] at e2
  rw [parse_two_modes e2 e1]

mutual
theorem wbo_numValues (bo : ByteOrder) : ∀ (s s' : Ser), s.FormatsOk → s.withByteOrder bo = .ok s' → s'.numValues = s.numValues ∧ s'.isCompound = s.isCompound
  | .struct st, s', hf, h => by
    simp only [Ser.withByteOrder] at h
    obtain ⟨r, h1, h2⟩ := Except.bind_ok' h
    cases h2
    exact ⟨by simp [Ser.numValues, structWbo_numValues (hf st (by simp [Ser.structs])) h1], rfl⟩
  | .dynChar id st, s', hf, h => by
    simp only [Ser.withByteOrder] at h
    obtain ⟨r, h1, h2⟩ := Except.bind_ok' h
    cases h2
    exact ⟨rfl, rfl⟩
  | .array id hdr item sl, s', hf, h => by
    cases hdr with
    | none =>
      simp only [Ser.withByteOrder] at h
      obtain ⟨hdr', h1, h2⟩ := Except.bind_ok' h
      cases h1
      obtain ⟨item', h3, h4⟩ := Except.bind_ok' h2
      cases h4
      exact ⟨rfl, rfl⟩
    | some hd =>
      simp only [Ser.withByteOrder] at h
      obtain ⟨hd', h5, h⟩ := Except.bind_ok' h
      obtain ⟨hdr', h1, h2⟩ := Except.bind_ok' h
      cases h1
      obtain ⟨item', h3, h4⟩ := Except.bind_ok' h2
      cases h4
      exact ⟨rfl, rfl⟩
  | .staticArr count item ser, s', hf, h => by
    simp only [Ser.withByteOrder] at h
    obtain ⟨item', h1, h2⟩ := Except.bind_ok' h
    unfold mkStaticArr at h2
    obtain ⟨ser', h3, h4⟩ := Except.bind_ok' h2
    cases h4
    exact ⟨rfl, rfl⟩
  | .dynArr id cnt item, s', hf, h => by
    simp only [Ser.withByteOrder] at h
    obtain ⟨cnt', h1, h2⟩ := Except.bind_ok' h
    obtain ⟨item', h3, h4⟩ := Except.bind_ok' h2
    cases h4
    exact ⟨rfl, rfl⟩
  | .cond ser c defs, s', hf, h => by
    simp only [Ser.withByteOrder] at h
    obtain ⟨ser', h1, h2⟩ := Except.bind_ok' h
    have hi := wbo_numValues bo ser ser' (fun x hx => hf x (by simpa [Ser.structs] using hx)) h1
    split at h2
    · cases h2
    · cases h2
      exact ⟨by simp [Ser.numValues, hi.1], rfl⟩
  | .compound id ss, s', hf, h => by
    simp only [Ser.withByteOrder] at h
    obtain ⟨ss', h1, h2⟩ := Except.bind_ok' h
    have hi := wbo_numValuesList bo ss ss' (fun x hx => hf x (by simpa [Ser.structs] using hx)) h1
    unfold mkCompound at h2
    split at h2
    · cases h2
    · cases h2
      exact ⟨by simp [Ser.numValues, hi.1], rfl⟩
  | .specialized id p ss, s', hf, h => by
    simp only [Ser.withByteOrder] at h
    obtain ⟨ss', h1, h2⟩ := Except.bind_ok' h
    have hi := wbo_numValuesList bo ss ss' (fun x hx => hf x (by simpa [Ser.structs] using hx)) h1
    unfold mkCompound at h2
    split at h2
    · cases h2
    · cases h2
      exact ⟨by simp [Ser.numValues, hi.1], rfl⟩
  | .null, s', hf, h => by cases h; exact ⟨rfl, rfl⟩
  | .consuming _, s', hf, h => by cases h; exact ⟨rfl, rfl⟩
  | .terminated _ _, s', hf, h => by cases h; exact ⟨rfl, rfl⟩
  | .net _, s', hf, h => by cases h; exact ⟨rfl, rfl⟩
  | .unicode .., s', hf, h => by cases h; exact ⟨rfl, rfl⟩
  | .tuple .., s', hf, h => by cases h; exact ⟨rfl, rfl⟩
  | .lookback .., s', hf, h => by cases h; exact ⟨rfl, rfl⟩
  | .lookahead .., s', hf, h => by cases h; exact ⟨rfl, rfl⟩
  | .skip _, s', hf, h => by cases h; exact ⟨rfl, rfl⟩
  | .structured .., s', hf, h => by cases h; exact ⟨rfl, rfl⟩
  | .selfT _, s', hf, h => by cases h; exact ⟨rfl, rfl⟩
theorem wbo_numValuesList (bo : ByteOrder) : ∀ (ss ss' : List Ser), (∀ x ∈ Ser.structsList ss, StructSer.formatOk x.format = true) →
    Ser.withByteOrderList bo ss = .ok ss' → Ser.numValuesList ss' = Ser.numValuesList ss ∧ ss'.any Ser.isCompound = ss.any Ser.isCompound
  | [], ss', _, h => by cases h; exact ⟨rfl, rfl⟩
  | s :: ss, ss', hf, h => by
    simp only [Ser.withByteOrderList] at h
    obtain ⟨s1, h1, h2⟩ := Except.bind_ok' h
    obtain ⟨ss1, h3, h4⟩ := Except.bind_ok' h2
    cases h4
    have a := wbo_numValues bo s s1 (fun x hx => hf x (by simp [Ser.structsList, hx])) h1
    have b := wbo_numValuesList bo ss ss1 (fun x hx => hf x (by simp [Ser.structsList, hx])) h3
    exact ⟨by simp [Ser.numValuesList, a.1, b.1], by simp [a.2, b.2]⟩
end

/-- Equal up to the identities of serializer objects, or the same exception. -/
def SameAnon (x y : Except Err Ser) : Prop := x.map Ser.anon = y.map Ser.anon

theorem SameAnon.refl (x : Except Err Ser) : SameAnon x x := rfl

theorem SameAnon.ok {a b : Ser} (h : a.anon = b.anon) : SameAnon (.ok a) (.ok b) := congrArg Except.ok h

theorem SameAnon.bind {x y : Except Err Ser} {f g : Ser → Except Err Ser} (h : SameAnon x y)
    (hf : ∀ a b, x = .ok a → y = .ok b → a.anon = b.anon → SameAnon (f a) (g b)) : SameAnon (x >>= f) (y >>= g) := by
  cases x with
  | error e => cases y with
    | error e' => cases h; rfl
    | ok b => cases h
  | ok a => cases y with
    | error e' => cases h
    | ok b => exact hf a b rfl rfl (by cases hx : a.anon; all_goals (unfold SameAnon at h; simp only [Except.map, Except.ok.injEq] at h; rw [← hx]; exact h))

mutual
/-- The byte order applied first does not matter. -/
theorem wbo_last_wins (b1 b2 : ByteOrder) : ∀ (s c : Ser), s.FormatsOk → s.withByteOrder b1 = .ok c → SameAnon (c.withByteOrder b2) (s.withByteOrder b2)
  | .struct st, s', hf, h => by
    simp only [Ser.withByteOrder] at h
    obtain ⟨r, h1, h2⟩ := Except.bind_ok' h
    cases h2
    simp only [Ser.withByteOrder]
    rw [struct_last_wins (hf st (by simp [Ser.structs])) h1]
    exact .refl _
  | .dynChar id st, s', hf, h => by
    simp only [Ser.withByteOrder] at h
    obtain ⟨r, h1, h2⟩ := Except.bind_ok' h
    cases h2
    simp only [Ser.withByteOrder]
    rw [struct_last_wins (hf st (by simp [Ser.structs])) h1]
    cases st.withByteOrder b2 with
    | error e => rfl
    | ok r => rfl
  | .array id hdr item sl, s', hf, h => by
    cases hdr with
    | none =>
      simp only [Ser.withByteOrder] at h
      obtain ⟨hdr', h1, h2⟩ := Except.bind_ok' h
      cases h1
      obtain ⟨item', h3, h4⟩ := Except.bind_ok' h2
      cases h4
      have hi := wbo_last_wins b1 b2 item item' (fun x hx => hf x (by simp [Ser.structs, hx])) h3
      simp only [Ser.withByteOrder]
      exact SameAnon.bind hi fun a b _ _ e => .ok (by simp only [Ser.anon, e])
    | some hd =>
      simp only [Ser.withByteOrder] at h
      obtain ⟨hd', h5, h⟩ := Except.bind_ok' h
      obtain ⟨hdr', h1, h2⟩ := Except.bind_ok' h
      cases h1
      obtain ⟨item', h3, h4⟩ := Except.bind_ok' h2
      cases h4
      have hi := wbo_last_wins b1 b2 item item' (fun x hx => hf x (by simp [Ser.structs, hx])) h3
      simp only [Ser.withByteOrder]
      rw [struct_last_wins (hf hd (by simp [Ser.structs])) h5]
      cases hd.withByteOrder b2 with
      | error e => rfl
      | ok r => exact SameAnon.bind hi fun a b _ _ e => .ok (by simp only [Ser.anon, e])
  | .staticArr count item ser, s', hf, h => by
    simp only [Ser.withByteOrder] at h
    obtain ⟨item', h1, h2⟩ := Except.bind_ok' h
    unfold mkStaticArr at h2
    obtain ⟨ser', h3, h4⟩ := Except.bind_ok' h2
    cases h4
    simp only [Ser.withByteOrder]
    rw [struct_last_wins (hf item (by simp [Ser.structs])) h1]
    exact .refl _
  | .dynArr id cnt item, s', hf, h => by
    simp only [Ser.withByteOrder] at h
    obtain ⟨cnt', h1, h2⟩ := Except.bind_ok' h
    obtain ⟨item', h3, h4⟩ := Except.bind_ok' h2
    cases h4
    simp only [Ser.withByteOrder]
    rw [struct_last_wins (hf cnt (by simp [Ser.structs])) h1, struct_last_wins (hf item (by simp [Ser.structs])) h3]
    cases cnt.withByteOrder b2 with
    | error e => rfl
    | ok r => cases item.withByteOrder b2 with
      | error e => rfl
      | ok r => rfl
  | .cond ser c defs, s', hf, h => by
    simp only [Ser.withByteOrder] at h
    obtain ⟨ser', h1, h2⟩ := Except.bind_ok' h
    have hfs : ser.FormatsOk := fun x hx => hf x (by simpa [Ser.structs] using hx)
    have hi := wbo_last_wins b1 b2 ser ser' hfs h1
    have hf' := (wbo_orders b1 ser ser' hfs h1).2.2
    have hn := wbo_numValues b1 ser ser' hfs h1
    split at h2
    · cases h2
    · cases h2
      simp only [Ser.withByteOrder]
      refine SameAnon.bind hi fun a b ha hb e => ?_
      rw [(wbo_numValues b2 _ _ hf' ha).1, hn.1, (wbo_numValues b2 _ _ hfs hb).1]
      split
      · rfl
      · exact .ok (by simp only [Ser.anon, e])
  | .compound id ss, s', hf, h => by
    simp only [Ser.withByteOrder] at h
    obtain ⟨ss', h1, h2⟩ := Except.bind_ok' h
    have hfs : ∀ x ∈ Ser.structsList ss, StructSer.formatOk x.format = true := fun x hx => hf x (by simpa [Ser.structs] using hx)
    have hi := wbo_last_winsList b1 b2 ss ss' hfs h1
    have hf' := (wbo_ordersList b1 ss ss' hfs h1).2.2
    have hn := wbo_numValuesList b1 ss ss' hfs h1
    unfold mkCompound at h2
    split at h2
    · cases h2
    · rename_i hc
      cases h2
      simp only [Ser.withByteOrder]
      cases hx : Ser.withByteOrderList b2 ss' with
      | error e => cases hy : Ser.withByteOrderList b2 ss with
        | error e' => rw [hx, hy] at hi; cases hi; rfl
        | ok b => rw [hx, hy] at hi; cases hi
      | ok a => cases hy : Ser.withByteOrderList b2 ss with
        | error e' => rw [hx, hy] at hi; cases hi
        | ok b =>
          rw [hx, hy] at hi
          simp only [Except.map, Except.ok.injEq] at hi
          have c1 := (wbo_numValuesList b2 _ _ hf' hx).2
          have c2 := (wbo_numValuesList b2 _ _ hfs hy).2
          show SameAnon (mkCompound _ a) (mkCompound _ b)
          unfold mkCompound
          rw [if_neg (by rw [c1]; exact hc), if_neg (by rw [c2, ← hn.2]; exact hc)]
          exact .ok (by simp only [Ser.anon, hi])
  | .specialized id p ss, s', hf, h => by
    simp only [Ser.withByteOrder] at h
    obtain ⟨ss', h1, h2⟩ := Except.bind_ok' h
    have hfs : ∀ x ∈ Ser.structsList ss, StructSer.formatOk x.format = true := fun x hx => hf x (by simpa [Ser.structs] using hx)
    have hi := wbo_last_winsList b1 b2 ss ss' hfs h1
    have hf' := (wbo_ordersList b1 ss ss' hfs h1).2.2
    have hn := wbo_numValuesList b1 ss ss' hfs h1
    unfold mkCompound at h2
    split at h2
    · cases h2
    · rename_i hc
      cases h2
      simp only [Ser.withByteOrder]
      cases hx : Ser.withByteOrderList b2 ss' with
      | error e => cases hy : Ser.withByteOrderList b2 ss with
        | error e' => rw [hx, hy] at hi; cases hi; rfl
        | ok b => rw [hx, hy] at hi; cases hi
      | ok a => cases hy : Ser.withByteOrderList b2 ss with
        | error e' => rw [hx, hy] at hi; cases hi
        | ok b =>
          rw [hx, hy] at hi
          simp only [Except.map, Except.ok.injEq] at hi
          have c1 := (wbo_numValuesList b2 _ _ hf' hx).2
          have c2 := (wbo_numValuesList b2 _ _ hfs hy).2
          show SameAnon (mkCompound _ a) (mkCompound _ b)
          unfold mkCompound
          rw [if_neg (by rw [c1]; exact hc), if_neg (by rw [c2, ← hn.2]; exact hc)]
          exact .ok (by simp only [Ser.anon, hi])
  | .null, s', hf, h => by cases h; exact .refl _
  | .consuming _, s', hf, h => by cases h; exact .refl _
  | .terminated _ _, s', hf, h => by cases h; exact .refl _
  | .net _, s', hf, h => by cases h; exact .refl _
  | .unicode .., s', hf, h => by cases h; exact .refl _
  | .tuple .., s', hf, h => by cases h; exact .refl _
  | .lookback .., s', hf, h => by cases h; exact .refl _
  | .lookahead .., s', hf, h => by cases h; exact .refl _
  | .skip _, s', hf, h => by cases h; exact .refl _
  | .structured .., s', hf, h => by cases h; exact .refl _
  | .selfT _, s', hf, h => by cases h; exact .refl _
theorem wbo_last_winsList (b1 b2 : ByteOrder) : ∀ (ss cs : List Ser), (∀ x ∈ Ser.structsList ss, StructSer.formatOk x.format = true) →
    Ser.withByteOrderList b1 ss = .ok cs → (Ser.withByteOrderList b2 cs).map Ser.anonList = (Ser.withByteOrderList b2 ss).map Ser.anonList
  | [], ss', _, h => by cases h; rfl
  | s :: ss, ss', hf, h => by
    simp only [Ser.withByteOrderList] at h
    obtain ⟨s1, h1, h2⟩ := Except.bind_ok' h
    obtain ⟨ss1, h3, h4⟩ := Except.bind_ok' h2
    cases h4
    have a := wbo_last_wins b1 b2 s s1 (fun x hx => hf x (by simp [Ser.structsList, hx])) h1
    have b := wbo_last_winsList b1 b2 ss ss1 (fun x hx => hf x (by simp [Ser.structsList, hx])) h3
    simp only [Ser.withByteOrderList]
    unfold SameAnon at a
    cases hx : s1.withByteOrder b2 <;> cases hy : s.withByteOrder b2 <;> rw [hx, hy] at a <;> cases hz : Ser.withByteOrderList b2 ss1 <;>
      cases hw : Ser.withByteOrderList b2 ss <;> rw [hz, hw] at b <;> simp_all [Except.map, bind, Except.bind, Ser.anonList]
end

end Verif
