import Verif.Proofs.FormatHints
import Verif.Proofs.StringPack
import Verif.Proofs.ArrayBasic
import Verif.Proofs.LastWins
import Verif.Props.History
/-
Lemmas for the documented byte format: the serializers of a format write the bytes of the format.
-/
namespace Verif
open Spec Sem

variable {bo : ByteOrder} {cf : ClassId → Bool}

/-! ### Byte orders -/

theorem intSer_wbo {b0 : ByteOrder} {w : Size} {st : StructSer} (h : (intSer b0 (w.code false)).withByteOrder bo = .ok st) : st = intSer bo (w.code false) := by
  cases w <;> cases b0 <;> cases bo <;> (cases h; rfl)

theorem sized_wbo {b0 : ByteOrder} {w w2 : Size} {h h' : StructSer} (e : (intSer b0 (w.code false)).add (intSer b0 (w2.code false)) = .ok h)
    (hw : h.withByteOrder bo = .ok h') : (intSer bo (w.code false)).add (intSer bo (w2.code false)) = .ok h' := by
  have key : ∀ {h' : StructSer} {bo : ByteOrder}, (do (← (intSer .default (w.code false)).add (intSer .default (w2.code false))).withByteOrder bo) = .ok h' →
      (intSer bo (w.code false)).add (intSer bo (w2.code false)) = .ok h' := by
    intro h' bo e
    cases w <;> cases w2 <;> cases bo <;> exact e
  obtain ⟨h0, e0, f0⟩ : ∃ h0, (intSer .default (w.code false)).add (intSer .default (w2.code false)) = .ok h0 ∧ StructSer.formatOk h0.format = true := by
    cases w <;> cases w2 <;> exact ⟨_, rfl, by decide⟩
  obtain ⟨h1, e1⟩ : ∃ h1, h0.withByteOrder b0 = .ok h1 := by
    cases w <;> cases w2 <;> cases e0 <;> cases b0 <;> exact ⟨_, rfl⟩
  have := key (bo := b0) (h' := h1) (by rw [e0]; exact e1)
  rw [e] at this
  cases this
  rw [struct_last_wins f0 e1] at hw
  exact key (by rw [e0]; exact hw)

theorem item_wbo {b0 : ByteOrder} {t : Tok} {s s' : Ser} (h : IsItem b0 t s) (hw : s.withByteOrder bo = .ok s') : IsItem bo t s' := by
  obtain ⟨st, rfl, h⟩ := h
  simp only [Ser.withByteOrder] at hw
  obtain ⟨st', h1, hw⟩ := Except.bind_ok' hw
  cases hw
  exact ⟨st', rfl, h.wbo h1⟩

theorem array_wbo {id : SerId} {item s' : Ser} {sl : Int} (hw : (Ser.array id none item sl).withByteOrder bo = .ok s') :
    ∃ id' item', s' = .array id' none item' sl ∧ item.withByteOrder bo = .ok item' := by
  cases h : item.withByteOrder bo with
  | error => simp only [Ser.withByteOrder, bind, Except.bind, h] at hw; cases hw
  | ok i => simp only [Ser.withByteOrder, bind, Except.bind, h] at hw; cases hw; exact ⟨_, _, rfl, rfl⟩

theorem array_wbo_hdr {id : SerId} {hd : StructSer} {item s' : Ser} {sl : Int} (hw : (Ser.array id (some hd) item sl).withByteOrder bo = .ok s') :
    ∃ hd' item', hd.withByteOrder bo = .ok hd' ∧ item.withByteOrder bo = .ok item' ∧ s' = .array (bo.num :: id) (some hd') item' sl := by
  cases h1 : hd.withByteOrder bo with
  | error => simp only [Ser.withByteOrder, bind, Except.bind, h1] at hw; cases hw
  | ok hd' =>
    cases h : item.withByteOrder bo with
    | error => simp only [Ser.withByteOrder, bind, Except.bind, h1, h] at hw; cases hw
    | ok i => simp only [Ser.withByteOrder, bind, Except.bind, h1, h] at hw; cases hw; exact ⟨_, _, rfl, rfl, rfl⟩

theorem is_wbo {b0 : ByteOrder} : ∀ (f : Fmt) {s s' : Ser}, f.Is cf b0 s → s.withByteOrder bo = .ok s' → f.Is cf bo s'
  | .int .., _, _, h, hw => item_wbo h hw
  | .bool, _, _, h, hw => item_wbo h hw
  | .half, _, _, h, hw => item_wbo h hw
  | .single, _, _, h, hw => item_wbo h hw
  | .double, _, _, h, hw => item_wbo h hw
  | .pascal _, _, _, h, hw => item_wbo h hw
  | .chars _, _, _, h, hw => item_wbo h hw
  | .via _ f _ _ make, s, s', h, hw => by
    obtain ⟨st, rfl, hd, h⟩ := h
    simp only [Ser.withByteOrder] at hw
    obtain ⟨st', h1, hw⟩ := Except.bind_ok' hw
    cases hw
    obtain ⟨t, ⟨_, e, h2⟩, _⟩ := is_direct hd h
    cases e
    rw [structWbo_eq (s := st.made make) h2.valid.fmt] at h1
    split at h1
    · rename_i hf
      cases h1
      refine ⟨⟨bo.value ++ st.baseFormat, none⟩, rfl, hd, is_wbo f h ?_⟩
      simp only [Ser.withByteOrder]
      rw [structWbo_eq h2.valid.fmt, if_pos (show StructSer.formatOk (bo.value ++ st.baseFormat) = true from hf), h2.acts]
      rfl
    · cases h1
  | .counted w, _, _, h, hw => by
    obtain ⟨id, rfl⟩ := h
    simp only [Ser.withByteOrder] at hw
    obtain ⟨st, h1, hw⟩ := Except.bind_ok' hw
    cases hw
    exact ⟨_, by rw [intSer_wbo h1]⟩
  | .until _, _, _, h, hw => by obtain ⟨id, rfl⟩ := h; cases hw; exact ⟨_, rfl⟩
  | .net, _, _, h, hw => by obtain ⟨id, rfl⟩ := h; cases hw; exact ⟨_, rfl⟩
  | .rest, _, _, h, hw => by obtain ⟨id, rfl⟩ := h; cases hw; exact ⟨_, rfl⟩
  | .text f en de, _, _, h, hw => by obtain ⟨y, rfl, h⟩ := h; cases hw; exact ⟨y, rfl, h⟩
  | .fixed n item, _, _, h, hw => by
    rcases h with ⟨st, ser, rfl, hb, hi, hm⟩ | ⟨id, y, rfl, hnb, hi⟩
    · simp only [Ser.withByteOrder] at hw
      obtain ⟨st', h1, hw⟩ := Except.bind_ok' hw
      obtain ⟨ser', h2, hw⟩ := Except.bind_ok' hw
      cases hw
      refine .inl ⟨st', ser', rfl, hb, is_wbo item hi ?_, h2⟩
      simp only [Ser.withByteOrder, h1]; rfl
    · obtain ⟨_, y', rfl, h1⟩ := array_wbo hw
      exact .inr ⟨_, y', rfl, hnb, is_wbo item hi h1⟩
  | .list w item, _, _, h, hw => by
    obtain ⟨id, y, rfl, hi⟩ := h
    obtain ⟨st', y', h1', h2, rfl⟩ := array_wbo_hdr hw
    exact ⟨_, y', by rw [intSer_wbo h1'], is_wbo item hi h2⟩
  | .sized w w2 item, _, _, h, hw => by
    obtain ⟨id, y, hd, rfl, ha, hi⟩ := h
    obtain ⟨st', y', h1', h2, rfl⟩ := array_wbo_hdr hw
    exact ⟨_, y', st', rfl, sized_wbo ha h1', is_wbo item hi h2⟩
  | .tup items, _, _, h, hw => by obtain ⟨id, id', inner, ss, rfl, h⟩ := h; cases hw; exact ⟨id, id', inner, ss, rfl, h⟩
  | .obj _, _, _, h, hw => by obtain ⟨id, rfl⟩ := h; cases hw; exact ⟨_, rfl⟩
  | .me, _, _, h, hw => by obtain ⟨id, rfl⟩ := h; cases hw; exact ⟨_, rfl⟩
  | .choice .., _, _, h, hw => by
    obtain ⟨os, ds, h1, h2, ⟨h3, rfl⟩ | ⟨a, st, h3, h4, rfl⟩⟩ := h
    · cases hw; exact ⟨os, ds, h1, h2, .inl ⟨h3, rfl⟩⟩
    · cases hw; exact ⟨os, ds, h1, h2, .inr ⟨a, st, h3, h4, rfl⟩⟩

theorem fieldIs_wbo {b0 : ByteOrder} : ∀ (f : Field) {s s' : Ser}, f.Is cf b0 s → s.withByteOrder bo = .ok s' → f.Is cf bo s'
  | .value _ f, _, _, h, hw => is_wbo f h hw
  | .pad .., _, _, h, hw => item_wbo h hw
  | .when _ c f d, _, _, h, hw => by
    obtain ⟨y, rfl, h⟩ := h
    simp only [Ser.withByteOrder] at hw
    obtain ⟨y', h1, hw⟩ := Except.bind_ok' hw
    split at hw
    · cases hw
    · cases hw
      exact ⟨y', rfl, is_wbo f h h1⟩

/-! ### Shape -/

theorem is_fieldOf {f : Fmt} {s : Ser} (h : f.Is cf bo s) : FieldOf bo s ∧ s ≠ .null := by
  have item : ∀ {t : Tok}, IsItem bo t s → FieldOf bo s ∧ s ≠ .null := by
    rintro t ⟨st, rfl, hb⟩
    exact ⟨⟨rfl, fun x hx => by cases hx; exact ⟨hb.valid, hb.order, hb.single⟩⟩, by nofun⟩
  cases f <;> simp only [Fmt.Is] at h
  case int => exact item h
  case bool => exact item h
  case half => exact item h
  case single => exact item h
  case double => exact item h
  case pascal => exact item h
  case chars => exact item h
  case via make =>
    obtain ⟨st, rfl, hd, h⟩ := h
    obtain ⟨t, ⟨_, e, h1⟩, h2⟩ := is_direct hd h
    cases e
    have hb := h1.tok.made h2 make
    exact ⟨⟨rfl, fun x hx => by cases hx; exact ⟨hb.valid, hb.order, hb.single⟩⟩, by nofun⟩
  case counted => obtain ⟨_, rfl⟩ := h; exact ⟨⟨rfl, by nofun⟩, by nofun⟩
  case «until» => obtain ⟨_, rfl⟩ := h; exact ⟨⟨rfl, by nofun⟩, by nofun⟩
  case net => obtain ⟨_, rfl⟩ := h; exact ⟨⟨rfl, by nofun⟩, by nofun⟩
  case rest => obtain ⟨_, rfl⟩ := h; exact ⟨⟨rfl, by nofun⟩, by nofun⟩
  case text => obtain ⟨_, rfl, _⟩ := h; exact ⟨⟨rfl, by nofun⟩, by nofun⟩
  case fixed => rcases h with ⟨_, _, rfl, _⟩ | ⟨_, _, rfl, _⟩ <;> exact ⟨⟨rfl, by nofun⟩, by nofun⟩
  case list => obtain ⟨_, _, rfl, _⟩ := h; exact ⟨⟨rfl, by nofun⟩, by nofun⟩
  case sized => obtain ⟨_, _, _, rfl, _⟩ := h; exact ⟨⟨rfl, by nofun⟩, by nofun⟩
  case tup => obtain ⟨_, _, _, _, rfl, _⟩ := h; exact ⟨⟨rfl, by nofun⟩, by nofun⟩
  case obj => obtain ⟨_, rfl⟩ := h; exact ⟨⟨rfl, by nofun⟩, by nofun⟩
  case me => obtain ⟨_, rfl⟩ := h; exact ⟨⟨rfl, by nofun⟩, by nofun⟩
  case choice => obtain ⟨_, _, _, _, ⟨_, rfl⟩ | ⟨_, _, _, _, _, rfl⟩⟩ := h <;> exact ⟨⟨rfl, by nofun⟩, by nofun⟩

theorem isL_mem : ∀ {fs : List Fmt} {ss : List Ser}, Fmt.IsL cf bo fs ss → ∀ s ∈ ss, ∃ f ∈ fs, f.Is cf bo s
  | [], _, h, s, hs => by cases h; cases hs
  | f :: fs, _, h, s, hs => by
    obtain ⟨x, xs, rfl, h1, h2⟩ := h
    simp only [List.mem_cons] at hs
    rcases hs with rfl | hs
    · exact ⟨f, by simp, h1⟩
    · obtain ⟨g, h3, h4⟩ := isL_mem h2 s hs
      exact ⟨g, by simp [h3], h4⟩

theorem isL_fieldOf {fs : List Fmt} {ss : List Ser} (h : Fmt.IsL cf bo fs ss) : ∀ s ∈ ss, FieldOf bo s ∧ s ≠ .null := by
  intro s hs
  obtain ⟨f, _, h1⟩ := isL_mem h s hs
  exact is_fieldOf h1

theorem field_fieldOf {f : Field} {s : Ser} (h : f.Is cf bo s) : FieldOf bo s ∧ s ≠ .null := by
  cases f with
  | value _ f => exact is_fieldOf (f := f) h
  | pad _ n =>
    obtain ⟨st, rfl, hb⟩ := h
    exact ⟨⟨rfl, fun x hx => by cases hx; exact ⟨hb.valid, hb.order, hb.single⟩⟩, by nofun⟩
  | «when» =>
    obtain ⟨y, rfl, _⟩ := h
    exact ⟨⟨rfl, by nofun⟩, by nofun⟩

theorem fieldsL_fieldOf : ∀ {fs : List Field} {ss : List Ser}, Field.IsL cf bo fs ss → ∀ s ∈ ss, FieldOf bo s ∧ s ≠ .null
  | [], _, h, s, hs => by cases h; cases hs
  | f :: fs, _, h, s, hs => by
    obtain ⟨x, xs, rfl, h1, h2⟩ := h
    simp only [List.mem_cons] at hs
    rcases hs with rfl | hs
    · exact field_fieldOf h1
    · exact fieldsL_fieldOf h2 s hs

end Verif
