import Verif.Proofs.LedgerUnpack
/-
Another byte order changes nothing about which attributes are set before they are read.
-/
namespace Verif

mutual
theorem supplied_wbo (unp : Bool) (bo : ByteOrder) : ∀ {s s' : Ser}, s.withByteOrder bo = .ok s' →
    (s.supplied unp = true → s'.supplied unp = true) ∧ (s.unaided unp = true → s'.unaided unp = true) ∧ s'.canBeLazy = s.canBeLazy
  | .struct st, s', h => by
    simp only [Ser.withByteOrder] at h
    cases h1 : st.withByteOrder bo <;> rw [h1] at h <;> cases h
    exact ⟨fun h => h, fun h => h, rfl⟩
  | .dynChar id st, s', h => by
    simp only [Ser.withByteOrder] at h
    cases h1 : st.withByteOrder bo <;> rw [h1] at h <;> cases h
    exact ⟨fun h => h, fun h => h, rfl⟩
  | .array id hdr item sl, s', h => by
    simp only [Ser.withByteOrder] at h
    cases hdr with
    | none =>
      obtain ⟨hdr', _, h⟩ := Except.bind_ok' h
      obtain ⟨item', h2, h⟩ := Except.bind_ok' h
      cases h
      exact ⟨(supplied_wbo unp bo h2).1, fun h => by simp [Ser.unaided] at h, rfl⟩
    | some hd =>
      obtain ⟨_, _, h⟩ := Except.bind_ok' h
      obtain ⟨hdr', _, h⟩ := Except.bind_ok' h
      obtain ⟨item', h2, h⟩ := Except.bind_ok' h
      cases h
      exact ⟨(supplied_wbo unp bo h2).1, fun h => by simp [Ser.unaided] at h, rfl⟩
  | .staticArr count item ser, s', h => by
    simp only [Ser.withByteOrder] at h
    obtain ⟨item', h1, h⟩ := Except.bind_ok' h
    obtain ⟨ser', h2, h⟩ := Except.bind_ok' h
    cases h
    exact ⟨fun h => h, fun h => h, rfl⟩
  | .dynArr id cnt item, s', h => by
    simp only [Ser.withByteOrder] at h
    obtain ⟨hdr', h1, h⟩ := Except.bind_ok' h
    obtain ⟨item', h2, h⟩ := Except.bind_ok' h
    cases h
    exact ⟨fun h => h, fun h => h, rfl⟩
  | .cond ser c defs, s', h => by
    simp only [Ser.withByteOrder] at h
    obtain ⟨ser', h1, h⟩ := Except.bind_ok' h
    split at h <;> cases h
    have a := supplied_wbo unp bo h1
    exact ⟨a.2.1, fun h => h, a.2.2⟩
  | .compound id ss, s', h => by
    simp only [Ser.withByteOrder] at h
    obtain ⟨ss', h1, h⟩ := Except.bind_ok' h
    unfold mkCompound at h
    split at h <;> cases h
    have a := suppliedList_wbo unp bo h1
    exact ⟨a.1, a.2, rfl⟩
  | .specialized id p ss, s', h => by
    simp only [Ser.withByteOrder] at h
    obtain ⟨ss', h1, h⟩ := Except.bind_ok' h
    unfold mkCompound at h
    split at h <;> cases h
    have a := suppliedList_wbo unp bo h1
    exact ⟨a.1, fun h => by simp [Ser.unaided] at h, rfl⟩
  | .null, s', h | .consuming _, s', h | .terminated .., s', h | .net _, s', h | .unicode .., s', h
  | .tuple .., s', h | .lookback .., s', h | .lookahead .., s', h | .skip _, s', h | .structured .., s', h
  | .selfT _, s', h => by simp only [Ser.withByteOrder] at h; cases h; exact ⟨fun h => h, fun h => h, rfl⟩
theorem suppliedList_wbo (unp : Bool) (bo : ByteOrder) : ∀ {ss ss' : List Ser}, Ser.withByteOrderList bo ss = .ok ss' →
    (Ser.suppliedList unp ss = true → Ser.suppliedList unp ss' = true) ∧ (Ser.unaidedList unp ss = true → Ser.unaidedList unp ss' = true)
  | [], ss', h => by simp only [Ser.withByteOrderList] at h; cases h; exact ⟨id, id⟩
  | s :: ss, ss', h => by
    simp only [Ser.withByteOrderList] at h
    obtain ⟨s', h1, h⟩ := Except.bind_ok' h
    obtain ⟨ss'', h2, h⟩ := Except.bind_ok' h
    cases h
    have a := supplied_wbo unp bo h1
    have b := suppliedList_wbo unp bo h2
    simp only [Ser.suppliedList, Ser.unaidedList, Bool.and_eq_true]
    exact ⟨fun h => ⟨a.1 h.1, b.1 h.2⟩, fun h => ⟨a.2.1 h.1, b.2 h.2⟩⟩
end

end Verif
