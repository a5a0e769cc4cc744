import Verif.Spec.Choices
import Verif.Proofs.RefineInto
/-
Running unions: the map lookup, and the equations of the packing methods.
-/
namespace Verif
open Spec Samples

variable {env : Env} {n : Nat} {id : SerId} {dec : Decider} {keys : List Val} {opts : List Ser} {d o o' : Ser} {p : PObj}
  {r : Val} {st s1 s2 : St}

theorem find_zip {q : Val → Bool} : ∀ {keys : List Val} {opts : List Ser} {i : Nat} {k : Val} {s : Ser}, keys[i]? = some k →
    opts[i]? = some s → q k = true → (∀ j k', j < i → keys[j]? = some k' → q k' = false) →
    (keys.zip opts).find? (fun x => q x.1) = some (k, s)
  | [], _, i, k, s, h, _, _, _ => by simp at h
  | _ :: _, [], i, k, s, _, h, _, _ => by simp at h
  | k0 :: ks, s0 :: ss, 0, k, s, h1, h2, h3, _ => by
    simp at h1 h2
    subst h1; subst h2
    simp [h3]
  | k0 :: ks, s0 :: ss, i + 1, k, s, h1, h2, h3, h4 => by
    have h0 : q k0 = false := h4 0 k0 (by omega) rfl
    simp only [List.zip_cons_cons, List.find?_cons, h0]
    exact find_zip (i := i) (by simpa using h1) (by simpa using h2) h3
      (fun j k' hj hk => h4 (j + 1) k' (by omega) (by simpa using hk))

theorem find_zip_none {q : Val → Bool} {keys : List Val} {opts : List Ser} (h : ∀ k ∈ keys, q k = false) :
    (keys.zip opts).find? (fun x => q x.1) = none := by
  rw [List.find?_eq_none]
  intro x hx
  simp [h x.1 (List.of_mem_zip hx).1]

/-- The map lookup of the code is `Chosen`. -/
theorem unionPick_chosen (hr : r.hashable = true) (hc : Chosen keys opts d r o) : unionPick keys opts d r = .ok o := by
  unfold unionPick
  rw [if_neg (by simp [hr])]
  unfold lookupOpt
  cases hc with
  | mapped i k s h1 h2 h3 h4 => rw [find_zip (q := fun k => k.keyEq r) h1 h2 h3 h4]; rfl
  | default h1 h2 =>
    rw [find_zip_none (q := fun k => k.keyEq r) h1]
    cases d <;> first | exact absurd rfl h2 | rfl

theorem unionPick_none (hr : r.hashable = true) (hk : ∀ k ∈ keys, k.keyEq r = false) :
    unionPick keys opts .null r = .error .valueError := by
  unfold unionPick
  rw [if_neg (by simp [hr])]
  unfold lookupOpt
  rw [find_zip_none (q := fun k => k.keyEq r) hk]
  rfl

theorem getPart_withPart : getPart id (st.withPart id p) = .ok p (st.withPart id p) := by
  simp [getPart, St.withPart]

theorem getSerializer_pack (hr : r.hashable = true) (hc : Chosen keys opts d r o) :
    getSerializer true id keys opts d r (st.withPart id p) = o.prepack p (st.withPart id p) := by
  unfold getSerializer
  rw [unionPick_chosen hr hc]
  show (getPart id >>= _) _ = _
  rw [M.bind_eq getPart_withPart]
  rfl

theorem getSerializer_unpack (hr : r.hashable = true) (hc : Chosen keys opts d r o) :
    getSerializer false id keys opts d r (st.withPart id p) = o.preunpack p (st.withPart id p) := by
  unfold getSerializer
  rw [unionPick_chosen hr hc]
  show (getPart id >>= _) _ = _
  rw [M.bind_eq getPart_withPart]
  rfl

/-! ### Packing -/

variable {u : Ser}

theorem union_pack_eq (hu : IsUnion id dec keys opts d u) (hd : dec p = .ok r) (hr : r.hashable = true)
    (hc : Chosen keys opts d r o) (vs : List Val) :
    packGiven env (n + 1) u p vs st =
      (o.prepack p >>= fun s => pack env n s vs >>= fun b => s.readSize >>= fun z => setSize id z >>= fun _ => pure b)
        (st.withPart id p) := by
  cases hu <;> (
    show (getPart id >>= _) (st.withPart id p) = _
    rw [M.bind_eq getPart_withPart, hd]
    show (getSerializer true id keys opts d r >>= _) (st.withPart id p) = _
    simp only [bind, M.bind, getSerializer_pack hr hc])

theorem union_packInto_eq (hu : IsUnion id dec keys opts d u) (hd : dec p = .ok r) (hr : r.hashable = true)
    (hc : Chosen keys opts d r o) (off : Nat) (vs : List Val) :
    packIntoGiven env (n + 1) u p off vs st =
      (o.prepack p >>= fun s => packInto env n s off vs >>= fun _ => s.readSize >>= fun z => setSize id z)
        (st.withPart id p) := by
  cases hu <;> (
    show (getPart id >>= _) (st.withPart id p) = _
    rw [M.bind_eq getPart_withPart, hd]
    show (getSerializer true id keys opts d r >>= _) (st.withPart id p) = _
    simp only [bind, M.bind, getSerializer_pack hr hc])

theorem union_packWrite_eq (hu : IsUnion id dec keys opts d u) (hd : dec p = .ok r) (hr : r.hashable = true)
    (hc : Chosen keys opts d r o) (vs : List Val) :
    packWriteGiven env (n + 1) u p vs st =
      (o.prepack p >>= fun s => packWrite env n s vs >>= fun _ => s.readSize >>= fun z => setSize id z)
        (st.withPart id p) := by
  cases hu <;> (
    show (getPart id >>= _) (st.withPart id p) = _
    rw [M.bind_eq getPart_withPart, hd]
    show (getSerializer true id keys opts d r >>= _) (st.withPart id p) = _
    simp only [bind, M.bind, getSerializer_pack hr hc])

theorem unionUnpack_eq {s : Ser} {src : Src} (hl : s.isCompound = false) :
    unionUnpack (unpack env n noUpd) id s src =
      (unpack env n noUpd s src >>= fun vs => s.readSize >>= fun z => setSize id z >>= fun _ => pure vs) := by
  unfold unionUnpack
  rw [if_neg (by simp [Ser.isLazy, hl])]

theorem lookback_unpack_eq (hd : dec p = .ok r) (hr : r.hashable = true) (hc : Chosen keys opts d r o) (src : Src) :
    unpackGiven env (n + 1) (.lookback id dec keys opts d) p src st =
      (o.preunpack p >>= fun s => unionUnpack (unpack env n noUpd) id s src) (st.withPart id p) := by
  show (getPart id >>= _) (st.withPart id p) = _
  rw [M.bind_eq getPart_withPart, hd]
  show (getSerializer false id keys opts d r >>= _) (st.withPart id p) = _
  simp only [bind, M.bind, getSerializer_unpack hr hc]

theorem readSize_hasSize : ∀ {s : Ser}, HasSize s → ∀ st : St, ∃ z, s.readSize st = .ok z st
  | .null, _, _ => ⟨_, rfl⟩
  | .struct _, _, _ => ⟨_, rfl⟩
  | .dynChar .., _, _ => ⟨_, rfl⟩
  | .consuming _, _, _ => ⟨_, rfl⟩
  | .terminated .., _, _ => ⟨_, rfl⟩
  | .net _, _, _ => ⟨_, rfl⟩
  | .unicode i .., h, st => by
    simp only [HasSize] at h
    exact readSize_hasSize h st
  | .array .., _, _ => ⟨_, rfl⟩
  | .staticArr .., _, _ => ⟨_, rfl⟩
  | .dynArr .., _, _ => ⟨_, rfl⟩
  | .tuple _ i, h, st => by
    simp only [HasSize] at h
    exact readSize_hasSize h st
  | .lookback .., _, _ => ⟨_, rfl⟩
  | .lookahead .., _, _ => ⟨_, rfl⟩
  | .cond .., h, _ => by simp [HasSize] at h
  | .skip _, _, _ => ⟨_, rfl⟩
  | .structured .., _, _ => ⟨_, rfl⟩
  | .selfT _, h, _ => by simp [HasSize] at h
  | .compound .., _, _ => ⟨_, rfl⟩
  | .specialized .., _, _ => ⟨_, rfl⟩

/-- Reading a `size` and storing it on the union changes neither the result nor the buffer nor the stream. -/
theorem then_size {α : Type} {m : Ser → M α} {st : St} (pre : M Ser) (hs : ∀ o' s1, pre st = .ok o' s1 → HasSize o') :
    SameOutcome ((pre >>= fun s => m s >>= fun b => s.readSize >>= fun z => setSize id z >>= fun _ => pure b) st)
      ((pre >>= m) st) := by
  simp only [bind, M.bind]
  cases h1 : pre st with
  | err e s1 => exact ⟨rfl, rfl, rfl⟩
  | ok o' s1 =>
    simp only
    cases h2 : m o' s1 with
    | err e s2 => exact ⟨rfl, rfl, rfl⟩
    | ok b s2 =>
      obtain ⟨z, hz⟩ := readSize_hasSize (hs o' s1 h1) s2
      simp only [hz]
      exact ⟨rfl, rfl, rfl⟩

end Verif
