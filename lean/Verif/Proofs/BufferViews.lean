import Verif.Spec.Buffers
import Verif.Proofs.Frames
/-
`pack_into` a view against `pack_into` a `bytearray` (C46).
-/
namespace Verif
open Buf

/-- The buffer keeps its length. -/
def Keep (st st' : St) : Prop := st'.buf.length = st.buf.length

theorem keep_frame : CellFrame Keep :=
  ⟨fun h1 h2 => Eq.trans h2 h1, fun h => by unfold Keep; rw [h.1]⟩

/-- The first does what the second does, except that it raises `ValueError` where the second grows the buffer. -/
structure ViewOf (x y : M α) : Prop where
  run : ∀ st, (x st = y st ∧ (y st).final.buf.length = st.buf.length) ∨
    (∃ st', x st = .err .valueError st' ∧ st'.buf.length = st.buf.length ∧ st.buf.length < (y st).final.buf.length)

theorem ViewOf.of_safe {x : M α} (h : Safe Keep x) : ViewOf x x := by
  constructor; intro st
  have := h.run st
  refine .inl ⟨rfl, ?_⟩
  cases hx : x st <;> rw [hx] at this <;> exact this

theorem ViewOf.bind {x y : M α} {f g : α → M β} (h : ViewOf x y) (k : ∀ a, ViewOf (f a) (g a)) :
    ViewOf (x >>= f) (y >>= g) := by
  constructor; intro st
  show (M.bind x f st = M.bind y g st ∧ _) ∨ ∃ st', M.bind x f st = _ ∧ _
  show (M.bind x f st = M.bind y g st ∧ (M.bind y g st).final.buf.length = _) ∨
    ∃ st', M.bind x f st = _ ∧ _ ∧ _ < (M.bind y g st).final.buf.length
  unfold M.bind
  rcases h.run st with ⟨h1, h2⟩ | ⟨st', h1, h2, h3⟩
  · rw [h1]
    cases hy : y st with
    | err e st1 => rw [hy] at h2; exact .inl ⟨rfl, h2⟩
    | ok a st1 =>
      rw [hy] at h2
      have h2 : st1.buf.length = st.buf.length := h2
      rcases (k a).run st1 with ⟨k1, k2⟩ | ⟨st2, k1, k2, k3⟩
      · exact .inl ⟨k1, k2.trans h2⟩
      · exact .inr ⟨st2, k1, k2.trans h2, h2 ▸ k3⟩
  · rw [h1]
    refine .inr ⟨st', rfl, h2, ?_⟩
    cases hy : y st with
    | err e st1 => rw [hy] at h3; exact h3
    | ok a st1 =>
      rw [hy] at h3
      have h3 : st.buf.length < st1.buf.length := h3
      show st.buf.length < (g a st1).final.buf.length
      rcases (k a).run st1 with ⟨_, k2⟩ | ⟨_, _, _, k3⟩
      · rw [k2]; exact h3
      · exact Nat.lt_trans h3 k3

theorem splice_length_fit {b : Bytes} {off : Nat} {d : Bytes} (h : off ≤ b.length ∧ d.length ≤ b.length - off) :
    (splice b off d).length = b.length := by
  simp only [splice, List.length_append, List.length_take, List.length_drop]
  omega

theorem structPackInto_keep (env : Env) (s : StructSer) (off : Nat) (vs : List Val) :
    Safe Keep (structPackIntoM env s off vs) := by
  constructor; intro st
  simp only [structPackIntoM, StructSer.packInto, structPackInto]
  by_cases h1 : vs.length = numVals s.toks
  · by_cases h2 : off ≤ st.buf.length ∧ sizeToks s.byteOrder.isNative s.toks ≤ st.buf.length - off
    · simp only [h1, h2, and_self, ↓reduceIte]
      cases hp : packToks env.plat s.byteOrder s.toks 0 vs with
      | error e => exact splice_length_fit ⟨h2.1, by rw [fitTo_length]; exact h2.2⟩
      | ok d =>
        have := packToks_length hp
        refine splice_length_fit ⟨h2.1, ?_⟩
        rw [Nat.zero_add] at this
        rw [this]
        exact h2.2
    · simp only [h1, h2, ↓reduceIte]; exact rfl
  · simp only [h1, ↓reduceIte]; exact rfl

theorem assignView_of (off : Nat) (d : Bytes) :
    ViewOf (assignView off d) (M.modify fun st => { st with buf := splice st.buf off d }) := by
  constructor; intro st
  unfold assignView
  have hl : (splice st.buf off d).length = min off st.buf.length + d.length + (st.buf.length - (off + d.length)) := by
    simp [splice, Nat.add_assoc]
  by_cases hc : min (off + d.length) st.buf.length - min off st.buf.length = d.length
  · rw [if_pos hc]
    refine .inl ⟨rfl, ?_⟩
    show (splice st.buf off d).length = st.buf.length
    omega
  · rw [if_neg hc]
    refine .inr ⟨st, rfl, rfl, ?_⟩
    show st.buf.length < (splice st.buf off d).length
    omega

theorem packIntoOpt_keep (env : Env) (s : Option StructSer) (off : Nat) (vs : List Val) :
    Safe Keep (packIntoOpt env s off vs) := by
  cases s with
  | none => exact Safe.pure keep_frame _
  | some s => exact structPackInto_keep env s off vs

theorem packIntoLoop_view {f g : Ser → Nat → List Val → M Unit} (hN : ∀ s off vs, ViewOf (f s off vs) (g s off vs))
    (off : Nat) {pre : Ser → M Ser} (hp : ∀ s, Safe Keep (pre s)) :
    ∀ ss size vals, ViewOf (packIntoLoop f pre off size ss vals) (packIntoLoop g pre off size ss vals) := by
  intro ss
  induction ss with
  | nil => intro size vals; exact ViewOf.of_safe (Safe.pure keep_frame _)
  | cons s ss ih =>
    intro size vals
    exact ViewOf.bind (ViewOf.of_safe (hp s)) fun s' => ViewOf.bind (hN _ _ _) fun b =>
      ViewOf.bind (ViewOf.of_safe (Safe.readSize keep_frame _)) fun sz => ih _ _

theorem packIntoItems_view {f g : Ser → Nat → List Val → M Unit} (hN : ∀ s off vs, ViewOf (f s off vs) (g s off vs))
    (off : Nat) (item : Ser) :
    ∀ vals size, ViewOf (packIntoItems f item off size vals) (packIntoItems g item off size vals) := by
  intro vals
  induction vals with
  | nil => intro size; exact ViewOf.of_safe (Safe.pure keep_frame _)
  | cons v vs ih =>
    intro size
    exact ViewOf.bind (hN _ _ _) fun b => ViewOf.bind (ViewOf.of_safe (Safe.readSize keep_frame _)) fun sz => ih _

theorem objPackInto_view (env : Env) {f g : Ser → Nat → List Val → M Unit} (off : Nat)
    (hN : ∀ s off vs, ViewOf (f s off vs) (g s off vs)) (v : Val) :
    ViewOf (objPackInto env f off v) (objPackInto env g off v) := by
  have F := keep_frame
  cases v with
  | obj cls bo attrs =>
    exact ViewOf.bind (ViewOf.of_safe (Safe.lift F _)) fun _ => ViewOf.bind (ViewOf.of_safe (Safe.prepack F _ _)) fun _ =>
      ViewOf.bind (ViewOf.of_safe (Safe.lift F _)) fun _ => ViewOf.bind (hN _ _ _) fun _ =>
      ViewOf.of_safe (Safe.pure F _)
  | _ => exact ViewOf.of_safe (Safe.throw F _)

theorem packIntoView_of (env : Env) :
    ∀ n s off vs, ViewOf (Buf.packIntoView env n s off vs) (Verif.packInto env n s off vs) := by
  intro n
  induction n with
  | zero => intro s off vs; exact ViewOf.of_safe (Safe.throw keep_frame _)
  | succ n ih =>
    intro s off vs
    have F := keep_frame
    cases s with
    | null => exact ViewOf.of_safe (Safe.pure F _)
    | struct s => exact ViewOf.of_safe (structPackInto_keep env s off vs)
    | dynChar i s =>
      refine ViewOf.of_safe ?_
      simp only [Buf.packIntoView]
      safe F
      exact structPackInto_keep env _ _ _
    | consuming i =>
      exact ViewOf.bind (ViewOf.of_safe (Safe.lift F _)) fun _ => ViewOf.bind (ViewOf.of_safe (Safe.setSize F _ _)) fun _ =>
        assignView_of _ _
    | terminated i t =>
      refine ViewOf.of_safe ?_
      simp only [Buf.packIntoView]
      safe F
      exact packIntoOpt_keep env _ _ _
    | net i =>
      refine ViewOf.of_safe ?_
      simp only [Buf.packIntoView]
      safe F
      exact structPackInto_keep env _ _ _
    | unicode inner enc dec => exact ViewOf.bind (ViewOf.of_safe (Safe.lift F _)) fun _ => ih _ _ _
    | array i hdr item sl =>
      exact ViewOf.bind (ViewOf.of_safe (Safe.lift F _)) fun _ => ViewOf.bind (ViewOf.of_safe (Safe.getPart F _)) fun _ =>
        ViewOf.bind (ViewOf.of_safe (Safe.prepack F _ _)) fun _ => ViewOf.bind (ViewOf.of_safe (Safe.lift F _)) fun _ =>
        ViewOf.bind (packIntoItems_view ih _ _ _ _) fun _ => ViewOf.bind (ViewOf.of_safe (Safe.lift F _)) fun _ =>
        ViewOf.bind (ViewOf.of_safe (Safe.setSize F _ _)) fun _ => ViewOf.of_safe (packIntoOpt_keep env _ _ _)
    | staticArr c k ser =>
      exact ViewOf.bind (ViewOf.of_safe (Safe.lift F _)) fun _ => ViewOf.of_safe (packIntoOpt_keep env _ _ _)
    | dynArr i cnt item =>
      refine ViewOf.of_safe ?_
      simp only [Buf.packIntoView]
      safe F
      exact structPackInto_keep env _ _ _
    | tuple i inner =>
      rcases vs with _ | ⟨v, _ | ⟨w, ws⟩⟩
      · exact ViewOf.of_safe (Safe.throw F _)
      · exact ViewOf.bind (ViewOf.of_safe (Safe.getPart F _)) fun _ =>
          ViewOf.bind (ViewOf.of_safe (Safe.prepack F _ _)) fun _ =>
          ViewOf.bind (ViewOf.of_safe (Safe.lift F _)) fun _ => ih _ _ _
      · exact ViewOf.of_safe (Safe.throw F _)
    | lookback i dec keys opts dflt =>
      exact ViewOf.bind (ViewOf.of_safe (Safe.getPart F _)) fun _ => ViewOf.bind (ViewOf.of_safe (Safe.lift F _)) fun _ =>
        ViewOf.bind (ViewOf.of_safe (Safe.getSerializer F _ _ _ _ _ _)) fun _ => ViewOf.bind (ih _ _ _) fun _ =>
        ViewOf.bind (ViewOf.of_safe (Safe.readSize F _)) fun _ => ViewOf.of_safe (Safe.setSize F _ _)
    | lookahead i ra dec keys opts dflt =>
      exact ViewOf.bind (ViewOf.of_safe (Safe.getPart F _)) fun _ => ViewOf.bind (ViewOf.of_safe (Safe.lift F _)) fun _ =>
        ViewOf.bind (ViewOf.of_safe (Safe.getSerializer F _ _ _ _ _ _)) fun _ => ViewOf.bind (ih _ _ _) fun _ =>
        ViewOf.bind (ViewOf.of_safe (Safe.readSize F _)) fun _ => ViewOf.of_safe (Safe.setSize F _ _)
    | cond s c d => exact ViewOf.of_safe (Safe.throw F _)
    | skip vals => exact ViewOf.of_safe (Safe.pure F _)
    | structured i cls =>
      rcases vs with _ | ⟨v, _ | ⟨w, ws⟩⟩
      · exact ViewOf.of_safe (Safe.throw F _)
      · exact ViewOf.bind (objPackInto_view env _ ih _) fun _ =>
          ViewOf.bind (ViewOf.of_safe (Safe.readSize F _)) fun _ => ViewOf.of_safe (Safe.setSize F _ _)
      · exact ViewOf.of_safe (Safe.throw F _)
    | selfT i => exact ViewOf.of_safe (Safe.throw F _)
    | compound i ss =>
      exact ViewOf.bind (packIntoLoop_view ih _ (fun _ => Safe.pure F _) _ _ _) fun _ =>
        ViewOf.of_safe (Safe.setSize F _ _)
    | specialized i p ss =>
      exact ViewOf.bind (packIntoLoop_view ih _ (fun _ => Safe.prepack F _ _) _ _ _) fun _ =>
        ViewOf.of_safe (Safe.setSize F _ _)

end Verif
