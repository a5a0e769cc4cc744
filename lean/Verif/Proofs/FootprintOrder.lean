import Verif.Proofs.FootprintUnpack
/-
The serializer objects in the copy that `with_byte_order` makes.
-/
namespace Verif

mutual
theorem names_wbo (bo : ByteOrder) : ∀ {s s' : Ser}, s.withByteOrder bo = .ok s' → (∀ d ∈ s'.names, d ∈ s.names) ∧ (s'.hasSelf = true → s.hasSelf = true)
  | .struct st, s', h => by
    simp only [Ser.withByteOrder] at h
    cases h1 : st.withByteOrder bo <;> rw [h1] at h <;> cases h
    simp [Ser.names, Ser.hasSelf]
  | .dynChar id st, s', h => by
    simp only [Ser.withByteOrder] at h
    cases h1 : st.withByteOrder bo <;> rw [h1] at h <;> cases h
    simp [Ser.names, Ser.hasSelf]
  | .array id hdr item sl, s', h => by
    simp only [Ser.withByteOrder] at h
    cases hdr with
    | none =>
      obtain ⟨hdr', _, h⟩ := Except.bind_ok' h
      obtain ⟨item', h2, h⟩ := Except.bind_ok' h
      cases h
      have a := names_wbo bo h2; exact a
    | some hd =>
      obtain ⟨_, _, h⟩ := Except.bind_ok' h
      obtain ⟨hdr', _, h⟩ := Except.bind_ok' h
      obtain ⟨item', h2, h⟩ := Except.bind_ok' h
      cases h
      have a := names_wbo bo h2; exact a
  | .staticArr count item ser, s', h => by
    simp only [Ser.withByteOrder] at h
    obtain ⟨item', h1, h⟩ := Except.bind_ok' h
    obtain ⟨ser', h2, h⟩ := Except.bind_ok' h
    cases h
    simp [Ser.names, Ser.hasSelf]
  | .dynArr id cnt item, s', h => by
    simp only [Ser.withByteOrder] at h
    obtain ⟨hdr', h1, h⟩ := Except.bind_ok' h
    obtain ⟨item', h2, h⟩ := Except.bind_ok' h
    cases h
    simp [Ser.names, Ser.hasSelf]
  | .cond ser c defs, s', h => by
    simp only [Ser.withByteOrder] at h
    obtain ⟨ser', h1, h⟩ := Except.bind_ok' h
    split at h <;> cases h
    have a := names_wbo bo h1; exact a
  | .compound id ss, s', h => by
    simp only [Ser.withByteOrder] at h
    obtain ⟨ss', h1, h⟩ := Except.bind_ok' h
    unfold mkCompound at h
    split at h <;> cases h
    have a := namesList_wbo bo h1; exact a
  | .specialized id p ss, s', h => by
    simp only [Ser.withByteOrder] at h
    obtain ⟨ss', h1, h⟩ := Except.bind_ok' h
    unfold mkCompound at h
    split at h <;> cases h
    exact ⟨fun d hd => List.mem_cons_of_mem _ ((namesList_wbo bo h1).1 d hd), (namesList_wbo bo h1).2⟩
  | .null, s', h | .consuming _, s', h | .terminated .., s', h | .net _, s', h | .unicode .., s', h
  | .tuple .., s', h | .lookback .., s', h | .lookahead .., s', h | .skip _, s', h | .structured .., s', h
  | .selfT _, s', h => by simp only [Ser.withByteOrder] at h; cases h; exact ⟨fun _ h => h, fun h => h⟩
theorem namesList_wbo (bo : ByteOrder) : ∀ {ss ss' : List Ser}, Ser.withByteOrderList bo ss = .ok ss' →
    (∀ d ∈ Ser.namesList ss', d ∈ Ser.namesList ss) ∧ (Ser.hasSelfList ss' = true → Ser.hasSelfList ss = true)
  | [], ss', h => by simp only [Ser.withByteOrderList] at h; cases h; simp [Ser.namesList, Ser.hasSelfList]
  | s :: ss, ss', h => by
    simp only [Ser.withByteOrderList] at h
    obtain ⟨s', h1, h⟩ := Except.bind_ok' h
    obtain ⟨ss'', h2, h⟩ := Except.bind_ok' h
    cases h
    have a := names_wbo bo h1
    have b := namesList_wbo bo h2
    simp only [Ser.namesList, Ser.hasSelfList, List.mem_append, Bool.or_eq_true]
    exact ⟨fun d hd => hd.imp (a.1 d) (b.1 d), fun hd => hd.imp a.2 b.2⟩
end

mutual
theorem ids_wbo (bo : ByteOrder) : ∀ {s s' : Ser}, s.remade = true → s.withByteOrder bo = .ok s' → s'.ids = s.ids.map (bo.num :: ·)
  | .struct st, s', hr, h => by
    simp only [Ser.withByteOrder] at h
    cases h1 : st.withByteOrder bo <;> rw [h1] at h <;> cases h
    simp [Ser.ids]
  | .dynChar id st, s', hr, h => by
    simp only [Ser.withByteOrder] at h
    cases h1 : st.withByteOrder bo <;> rw [h1] at h <;> cases h
    simp [Ser.ids]
  | .array id hdr item sl, s', hr, h => by
    simp only [Ser.withByteOrder] at h
    cases hdr with
    | none =>
      obtain ⟨hdr', _, h⟩ := Except.bind_ok' h
      obtain ⟨item', h2, h⟩ := Except.bind_ok' h
      cases h
      simp [Ser.ids, ids_wbo bo (by simpa [Ser.remade] using hr) h2]
    | some hd =>
      obtain ⟨_, _, h⟩ := Except.bind_ok' h
      obtain ⟨hdr', _, h⟩ := Except.bind_ok' h
      obtain ⟨item', h2, h⟩ := Except.bind_ok' h
      cases h
      simp [Ser.ids, ids_wbo bo (by simpa [Ser.remade] using hr) h2]
  | .staticArr count item ser, s', hr, h => by
    simp only [Ser.withByteOrder] at h
    obtain ⟨item', h1, h⟩ := Except.bind_ok' h
    obtain ⟨ser', h2, h⟩ := Except.bind_ok' h
    cases h
    simp [Ser.ids]
  | .dynArr id cnt item, s', hr, h => by
    simp only [Ser.withByteOrder] at h
    obtain ⟨hdr', h1, h⟩ := Except.bind_ok' h
    obtain ⟨item', h2, h⟩ := Except.bind_ok' h
    cases h
    simp [Ser.ids]
  | .cond ser c defs, s', hr, h => by
    simp only [Ser.withByteOrder] at h
    obtain ⟨ser', h1, h⟩ := Except.bind_ok' h
    split at h <;> cases h
    simp [Ser.ids, ids_wbo bo (by simpa [Ser.remade] using hr) h1]
  | .compound id ss, s', hr, h => by
    simp only [Ser.withByteOrder] at h
    obtain ⟨ss', h1, h⟩ := Except.bind_ok' h
    unfold mkCompound at h
    split at h <;> cases h
    simp [Ser.ids, idsList_wbo bo (by simpa [Ser.remade] using hr) h1]
  | .specialized id p ss, s', hr, h => by
    simp only [Ser.withByteOrder] at h
    obtain ⟨ss', h1, h⟩ := Except.bind_ok' h
    unfold mkCompound at h
    split at h <;> cases h
    simp [Ser.remade] at hr
  | .null, s', hr, h | .consuming _, s', hr, h | .terminated .., s', hr, h | .net _, s', hr, h | .unicode .., s', hr, h
  | .tuple .., s', hr, h | .lookback .., s', hr, h | .lookahead .., s', hr, h | .skip _, s', hr, h | .structured .., s', hr, h
  | .selfT _, s', hr, h => by simp only [Ser.withByteOrder] at h; cases h; first | (simp [Ser.ids]; done) | simp [Ser.remade] at hr
theorem idsList_wbo (bo : ByteOrder) : ∀ {ss ss' : List Ser}, Ser.remadeList ss = true → Ser.withByteOrderList bo ss = .ok ss' →
    Ser.idsList ss' = (Ser.idsList ss).map (bo.num :: ·)
  | [], ss', hr, h => by simp only [Ser.withByteOrderList] at h; cases h; simp [Ser.idsList]
  | s :: ss, ss', hr, h => by
    simp only [Ser.withByteOrderList] at h
    obtain ⟨s', h1, h⟩ := Except.bind_ok' h
    obtain ⟨ss'', h2, h⟩ := Except.bind_ok' h
    cases h
    simp only [Ser.remadeList, Bool.and_eq_true] at hr
    simp [Ser.idsList, ids_wbo bo hr.1 h1, idsList_wbo bo hr.2 h2]
end

end Verif
