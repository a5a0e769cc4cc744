import Verif.Proofs.ByteOrderLemmas
/-
Packing numbers in a fixed byte order does not look at the byte order of the machine.
-/
namespace Verif
open Sem

section
variable {P : Platform} {b : Bool}

theorem little_fixed {bo : ByteOrder} (h : bo.Fixed) : bo.little { P with le := b } = bo.little P := by
  rcases h with rfl | rfl | rfl <;> rfl

theorem asFloat_host (v : Val) : v.asFloat { P with le := b } = v.asFloat P := by
  unfold Val.asFloat; rfl

theorem encodeInt_one (l l' s : Bool) (i : Int) : encodeInt l s 1 i = encodeInt l' s 1 i := by
  unfold encodeInt
  split
  · cases l <;> cases l' <;> simp [orderBytes, leBytes]
  · rfl

theorem packOne_host {bo : ByteOrder} {c : Code} (h : bo.Fixed ∨ c.wide = false) (v : Val) :
    packOne { P with le := b } bo c v = packOne P bo c v := by
  rcases h with h | h
  · unfold packOne
    simp only [little_fixed h, asFloat_host]
  · cases c with
    | int s w =>
      cases w <;> simp [Code.wide] at h
      unfold packOne
      simp only [Width.bytes]
      split
      · exact encodeInt_one _ _ _ _
      · rfl
    | _ => first | rfl | simp [Code.wide] at h

theorem packMany_host {bo : ByteOrder} {c : Code} (h : bo.Fixed ∨ c.wide = false) : ∀ (k : Nat) (vs : List Val),
    packMany { P with le := b } bo c k vs = packMany P bo c k vs
  | 0, _ => rfl
  | _ + 1, [] => rfl
  | k + 1, v :: vs => by
    rw [packMany, packMany, packOne_host h v, packMany_host h k vs]

theorem packTok_host {bo : ByteOrder} {t : Tok} (h : bo.Fixed ∨ t.c.wide = false) (vs : List Val) :
    packTok { P with le := b } bo t vs = packTok P bo t vs := by
  obtain ⟨k, c⟩ := t
  cases c <;> first | rfl | exact packMany_host h _ _

theorem packToks_host {bo : ByteOrder} : ∀ (ts : List Tok), (bo.Fixed ∨ ∀ t ∈ ts, t.c.wide = false) → ∀ (o : Nat) (vs : List Val),
    packToks { P with le := b } bo ts o vs = packToks P bo ts o vs
  | [], _, _, _ => rfl
  | t :: ts, h, o, vs => by
    rw [packToks, packToks, packTok_host (h.imp id fun h => h t (by simp))]
    simp only [packToks_host ts (h.imp id fun h => fun x hx => h x (by simp [hx]))]

/-- Numbers in a fixed byte order, or none of several bytes. -/
def StructSer.HostFree (s : StructSer) : Prop := s.byteOrder.Fixed ∨ s.wide = false

theorem hostFree_of {s : StructSer} (h : ∀ b ∈ s.orders, b.Fixed) : s.HostFree := by
  cases hw : s.wide with
  | false => exact .inr hw
  | true => exact .inl (h _ (structOrders.2 ⟨hw, rfl⟩))

theorem structPack_host {s : StructSer} (h : s.HostFree) (vs : List Val) : s.pack { P with le := b } vs = s.pack P vs := by
  unfold StructSer.pack structPack
  rw [packToks_host _ (h.imp id toks_not_wide)]

end

theorem fixed_byteOrder {bo : ByteOrder} (h : bo.Fixed) (f : List Char) (a : Option (List Action)) :
    (⟨bo.value ++ f, a⟩ : StructSer).byteOrder = bo := by
  rcases h with rfl | rfl | rfl <;> rfl

theorem wide_value {bo : ByteOrder} {f : List Char} {a : Option (List Action)} (h : ∀ ch ∈ f, wideChar ch = false) :
    (⟨bo.value ++ f, a⟩ : StructSer).wide = false := by
  cases hw : (⟨bo.value ++ f, a⟩ : StructSer).wide with
  | false => rfl
  | true =>
    obtain ⟨ch, hc, hw⟩ := StructSer.wide_iff.1 hw
    rcases List.mem_append.1 hc with hc | hc
    · rw [value_not_wide _ _ hc] at hw; cases hw
    · rw [h _ hc] at hw; cases hw

theorem chars_of_not_wide {s : StructSer} (h : s.wide = false) : ∀ ch ∈ s.baseFormat, wideChar ch = false := by
  intro ch hc
  cases hw : wideChar ch with
  | false => rfl
  | true => rw [StructSer.wide_iff.2 ⟨ch, baseFormat_sub hc, hw⟩] at h; cases h

/-- A sum has the byte order of its left operand; it has no number of several bytes if both have none. -/
theorem add_format {a c d : StructSer} (h : a.add c = .ok d) :
    d.format = a.byteOrder.value ++ foldOverlaps false a.baseFormat c.baseFormat ∧
      (a.actions = none → c.actions = none → a.byteOrder = c.byteOrder) := by
  unfold StructSer.add at h
  simp only at h
  have hm : ∀ acts, StructSer.mkActions (foldOverlaps false a.baseFormat c.baseFormat) a.byteOrder acts = .ok d →
      d.format = a.byteOrder.value ++ foldOverlaps false a.baseFormat c.baseFormat := by
    intro acts hh
    unfold StructSer.mkActions at hh
    simp only at hh
    split at hh
    · split at hh <;> cases hh <;> rfl
    · cases hh
  split at h
  · split at h
    · rename_i hb
      unfold StructSer.mkPlain at h
      simp only at h
      split at h
      · cases h; exact ⟨rfl, fun _ _ => hb⟩
      · cases h
    · cases h
  · rename_i h1 h2; exact ⟨hm _ h, fun _ hc => by rw [h2] at hc; cases hc⟩
  · rename_i h1 h2; exact ⟨hm _ h, fun hc _ => by rw [h1] at hc; cases hc⟩
  · rename_i h1 h2; exact ⟨hm _ h, fun hc _ => by rw [h1] at hc; cases hc⟩

theorem fold_not_wide {a c : StructSer} (ha : a.wide = false) (hc : c.wide = false) :
    ∀ ch ∈ foldOverlaps false a.baseFormat c.baseFormat, wideChar ch = false := by
  intro ch h
  rcases fold_chars h with h | h | h
  · exact chars_of_not_wide ha _ h
  · exact chars_of_not_wide hc _ h
  · exact isDigit_not_wide h

theorem add_hostFree {a c d : StructSer} (ha : a.byteOrder.Fixed ∨ a.wide = false ∧ c.wide = false) (h : a.add c = .ok d) : d.HostFree := by
  have hf := (add_format h).1
  rcases ha with ha | ⟨ha, hc⟩
  · refine .inl ?_
    rw [StructSer.byteOrder_congr (t := ⟨_, none⟩) hf, fixed_byteOrder ha]
    exact ha
  · refine .inr ?_
    rw [StructSer.wide_congr (t := ⟨_, none⟩) hf]
    exact wide_value (fold_not_wide ha hc)

theorem matmul_not_wide {n : Int} {c : StructSer} (h : singleChar.matmul n = .ok (some c)) : c.wide = false := by
  unfold StructSer.matmul StructSer.mulImpl at h
  split at h
  · cases h
  · split at h
    · cases h
    · split at h
      · cases h; rfl
      · obtain ⟨t, h3, h4⟩ := Except.bind_ok' h
        cases h4
        rw [StructSer.wide_congr (t := ⟨_, none⟩) (remake_eq h3).1]
        refine wide_value fun ch hc => ?_
        rcases foldl_chars _ _ (fun x hx => .inl hx) hc with hc | hc
        · exact chars_of_not_wide (s := singleChar) (by rfl) _ hc
        · exact isDigit_not_wide hc

theorem dynChar_hostFree {st s : StructSer} {vs vals : List Val} (hs : st.HostFree) (h : dynCharPrep st vs = .ok (s, vals)) : s.HostFree := by
  unfold dynCharPrep at h
  obtain ⟨raw, _, h⟩ := Except.bind_ok' h
  obtain ⟨count, _, h⟩ := Except.bind_ok' h
  obtain ⟨chars, h1, h⟩ := Except.bind_ok' h
  obtain ⟨s', h2, h⟩ := Except.bind_ok' h
  cases h
  cases chars with
  | none => cases h2; exact hs
  | some c => exact add_hostFree (hs.imp id fun h => ⟨h, matmul_not_wide h1⟩) h2

theorem dynArr_hostFree {cnt item s : StructSer} {vs vals : List Val} (h0 : cnt.byteOrder.Fixed ∨ cnt.wide = false ∧ item.wide = false)
    (h : dynArrPrep cnt item vs = .ok (s, vals)) : s.HostFree := by
  unfold dynArrPrep at h
  obtain ⟨v, _, h⟩ := Except.bind_ok' h
  obtain ⟨count, _, h⟩ := Except.bind_ok' h
  split at h
  · obtain ⟨s', h1, h⟩ := Except.bind_ok' h
    obtain ⟨items, _, h⟩ := Except.bind_ok' h
    cases h
    have hf : s.format = cnt.format := by
      unfold StructSer.mkPlain at h1
      simp only at h1
      split at h1 <;> cases h1
      rfl
    exact h0.imp (fun h => by rw [StructSer.byteOrder_congr hf]; exact h) fun h => by rw [StructSer.wide_congr hf]; exact h.1
  · obtain ⟨m, h1, h⟩ := Except.bind_ok' h
    obtain ⟨s', h2, h⟩ := Except.bind_ok' h
    obtain ⟨items, _, h⟩ := Except.bind_ok' h
    cases h
    cases m with
    | none => cases h2; exact h0.imp id fun h => h.1
    | some c => exact add_hostFree (h0.imp id fun h => ⟨h.1, (mul_facts h1).1 h.2⟩) h2

/-! ### Serializers -/

theorem Except.bind_congr' {x : Except Err α} {f g : α → Except Err β} (h : ∀ a, x = .ok a → f a = g a) : (x >>= f) = x >>= g := by
  cases x with
  | ok a => exact h a rfl
  | error e => rfl

theorem condPick_portable {s s' : Ser} {d : List Val} {r : Val} (h : condPick s d r = .ok s') (hp : s.Portable) : s'.Portable := by
  rcases condPick_cases h with rfl | rfl
  · exact hp
  · intro b hb; simp [Ser.orders] at hb

theorem PortableNodes.mono {env : Env} {as bs} (h : PortableNodes env bs) (hs : ∀ x, x ∈ as → x ∈ bs) : PortableNodes env as :=
  fun c bo attrs ci ser hm ho => h c bo attrs ci ser (hs _ hm) ho

end Verif
