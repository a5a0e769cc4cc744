import Verif.Spec.ArrayHints
import Verif.Props.Arrays
import Verif.Props.Generics
/-
C20: the size in the header, from the type hint on.
-/
namespace Verif
open Spec Samples

variable {ctx : HintCtx} {N m : Nat} {i : SerId}

theorem sizeType_is {h : Hint} {st : StructSer} (hh : IsSizeType h st) : sizeType? h = some st := by
  obtain ⟨ch, hc, rfl, rfl⟩ := hh
  simp only [List.mem_cons, List.not_mem_nil, or_false] at hc
  rcases hc with rfl | rfl | rfl | rfl <;> rfl

theorem sizeType_not_tvar {h : Hint} {st : StructSer} (hh : IsSizeType h st) : h.isTvar = false := by
  obtain ⟨ch, hc, rfl, rfl⟩ := hh
  rfl

theorem sizeType_one {h : Hint} {st : StructSer} (hh : IsSizeType h st) : st.numValues = 1 := by
  obtain ⟨ch, hc, rfl, rfl⟩ := hh
  simp only [List.mem_cons, List.not_mem_nil, or_false] at hc
  rcases hc with rfl | rfl | rfl | rfl <;> rfl

theorem sizeType_add {h h' : Hint} {c d : StructSer} (hc : IsSizeType h c) (hd : IsSizeType h' d) :
    ∃ cd, c.add d = .ok cd ∧ cd.numValues = 2 := by
  obtain ⟨x, hx, rfl, rfl⟩ := hc
  obtain ⟨y, hy, rfl, rfl⟩ := hd
  simp only [List.mem_cons, List.not_mem_nil, or_false] at hx hy
  rcases hx with rfl | rfl | rfl | rfl <;> rcases hy with rfl | rfl | rfl | rfl <;> exact ⟨_, rfl, rfl⟩

theorem array_transform (s : Ser) (hs : s.isUnion = false) :
    transformTypehint ctx (m + 1) i (.annot (.plain "list") [.ser s]) = .ok (some s) := by
  show (do .ok (← transform ctx (m + 1) i (.annot (.plain "list") [.ser s])).ser? : Except Err (Option Ser)) = _
  have : unionStep (transform ctx m) i (.plain "list") (.ser s) = .ok (.plain "list") := by
    simp only [unionStep, hs]
    rfl
  have e : transform ctx (m + 1) i (.annot (.plain "list") [.ser s]) = .ok (.ser s) := by
    show ((unionStep (transform ctx m) i (.plain "list") (.ser s) >>= fun b => selfStep i b >>= fun b => structuredStep ctx i b >>=
      fun b => indexingStep b (.ser s) >>= fun b => finalStep b (.ser s)) >>= fun b => .ok b) = _
    rw [this]
    rfl
  rw [e]
  rfl

theorem solid_of_transform {id : SerId} {item : Hint} {s : Ser} (h : transform ctx N id item = .ok (.ser s)) : item.isTvar = false := by
  cases N with
  | zero => cases h
  | succ n => cases item <;> first | rfl | cases h

/-- What `array[header, item]` is made of. -/
theorem mkArray_parts {count : Count} {size : Option StructSer} {item h : Hint} (hv : item.isTvar = false)
    (e : mkArray ctx N (.header count size) item = .ok h) : ∃ s, ItemSer ctx N item s ∧ s.isFinal ctx.clsFinal = false ∧
      (¬ IsBasic s → ∃ id s', mkArraySer id count size s = .ok s' ∧ h = .annot (.plain "list") [.ser s']) ∧
      (∀ st, s = .struct st → st.numValues = 1 → (∃ k s', count = .static k ∧ mkStaticArr k st = .ok s' ∧ h = .annot (.plain "list") [.ser s']) ∨
        ∃ c id, count = .dyn c ∧ h = .annot (.plain "list") [.ser (.dynArr id c st)]) := by
  unfold mkArray at e
  simp only at e
  rw [if_neg (by simp [hv, Hint.isAlias])] at e
  obtain ⟨x, h1, e⟩ := Except.bind_ok' e
  cases x <;> try (cases e; done)
  rename_i s
  simp only at e
  split at e
  · cases e
  · rename_i hf
    refine ⟨s, ⟨_, h1⟩, by simpa using hf, ?_⟩
    cases s with
    | struct st =>
      simp only at e
      by_cases h2 : st.numValues = 1
      · rw [if_pos h2] at e
        refine ⟨fun hb => absurd ⟨st, rfl, h2⟩ hb, fun st' hst _ => ?_⟩
        cases hst
        cases count with
        | static k =>
          obtain ⟨s', h3, e⟩ := Except.bind_ok' e
          cases e
          exact .inl ⟨k, s', rfl, h3, rfl⟩
        | dyn c =>
          cases e
          exact .inr ⟨c, _, rfl, rfl⟩
      · rw [if_neg h2] at e
        obtain ⟨s', h3, e⟩ := Except.bind_ok' e
        cases e
        exact ⟨fun _ => ⟨_, s', h3, rfl⟩, fun st' hst h4 => by cases hst; exact absurd h4 h2⟩
    | _ =>
      obtain ⟨s', h3, e⟩ := Except.bind_ok' e
      cases e
      exact ⟨fun _ => ⟨_, s', h3, rfl⟩, fun st' hst => by cases hst⟩

theorem header_counted {length size hd : Hint} {c d : StructSer} (hl : IsSizeType length c) (hs : IsSizeType size d)
    (h : mkHeader length size = .ok hd) : hd = .header (.dyn c) (some d) := by
  unfold mkHeader at h
  rw [if_neg (by simp [sizeType_not_tvar hl, sizeType_not_tvar hs])] at h
  simp only [sizeType_is hl, sizeType_is hs] at h
  cases h; rfl

theorem header_fixed {size hd : Hint} {k : Int} {d : StructSer} (hs : IsSizeType size d)
    (h : mkHeader (.int k) size = .ok hd) : hd = .header (.static k) (some d) ∧ 0 ≤ k := by
  unfold mkHeader at h
  rw [if_neg (by rw [sizeType_not_tvar hs]; simp [Hint.isTvar])] at h
  simp only [sizeType_is hs] at h
  have : sizeType? (.int k) = none := rfl
  rw [this] at h
  simp only at h
  split at h
  · cases h
  · cases h
    exact ⟨rfl, by omega⟩

/-- **C20** (counted, type hints).  The type hint `array[Header[uintN, uintM], item]` makes an array whose header holds a count and a size,
unless the items are of a basic type; then the size is silently left out. -/
theorem C20_hint_counted {length size item h : Hint} {c d : StructSer} (hl : IsSizeType length c) (hs : IsSizeType size d)
    (hi : item.isTvar = false) (hh : IsArrayHint ctx N length size item h) : ∃ s, ItemSer ctx N item s ∧
      (¬ IsBasic s → ∃ id hdr, c.add d = .ok hdr ∧ hdr.numValues = 2 ∧
        transformTypehint ctx (m + 1) i h = .ok (some (.array id (some hdr) s (-1)))) ∧
      (∀ st, s = .struct st → st.numValues = 1 → ∃ id, transformTypehint ctx (m + 1) i h = .ok (some (.dynArr id c st))) := by
  obtain ⟨hd, h1, h2⟩ := hh
  cases header_counted hl hs h1
  obtain ⟨s, h3, _, h4, h5⟩ := mkArray_parts hi h2
  refine ⟨s, h3, fun hb => ?_, fun st e1 e2 => ?_⟩
  · obtain ⟨id, s', h6, rfl⟩ := h4 hb
    obtain ⟨cd, h7, h8⟩ := sizeType_add hl hs
    simp only [mkArraySer, h7, okBind, Except.ok.injEq] at h6
    subst h6
    exact ⟨id, cd, h7, h8, array_transform _ rfl⟩
  · rcases h5 st e1 e2 with ⟨k, s', e3, _⟩ | ⟨c', id, e3, rfl⟩
    · cases e3
    · cases e3
      exact ⟨id, array_transform _ rfl⟩

/-- **C20** (fixed length, type hints).  The type hint `array[Header[k, uintM], item]` makes an array whose header holds a size, unless the
items are of a basic type; then the size is silently left out. -/
theorem C20_hint_fixed {size item h : Hint} {k : Int} {d : StructSer} (hs : IsSizeType size d) (hi : item.isTvar = false)
    (hh : IsArrayHint ctx N (.int k) size item h) : ∃ s, ItemSer ctx N item s ∧
      (¬ IsBasic s → ∃ id, d.numValues = 1 ∧ 0 ≤ k ∧ transformTypehint ctx (m + 1) i h = .ok (some (.array id (some d) s k))) ∧
      (∀ st, s = .struct st → st.numValues = 1 → ∃ s', mkStaticArr k st = .ok s' ∧ transformTypehint ctx (m + 1) i h = .ok (some s')) := by
  obtain ⟨hd, h1, h2⟩ := hh
  obtain ⟨e0, h0⟩ := header_fixed hs h1
  cases e0
  obtain ⟨s, h3, _, h4, h5⟩ := mkArray_parts hi h2
  refine ⟨s, h3, fun hb => ?_, fun st e1 e2 => ?_⟩
  · obtain ⟨id, s', h6, rfl⟩ := h4 hb
    simp only [mkArraySer, Except.ok.injEq] at h6
    subst h6
    exact ⟨id, sizeType_one hs, h0, array_transform _ rfl⟩
  · rcases h5 st e1 e2 with ⟨k', s', e3, e4, rfl⟩ | ⟨c', id, e3, _⟩
    · cases e3
      refine ⟨s', e4, array_transform _ ?_⟩
      unfold mkStaticArr at e4
      obtain ⟨_, _, e4⟩ := Except.bind_ok' e4
      cases e4
      rfl
    · cases e3

/-- `array[Header[uint8, uint16], char[b'\0']]` and `array[Header[2, uint16], char[b'\0']]` have a size, -/
example : IsSizeType uint8H ⟨['B'], none⟩ ∧ IsSizeType uint16H ⟨['H'], none⟩ ∧
    ∃ it h h', mkChar hctx (.bytes [0]) = .ok it ∧ IsArrayHint hctx 3 uint8H uint16H it h ∧ IsArrayHint hctx 3 (.int 2) uint16H it h' ∧
    transformTypehint hctx 3 [] h = .ok (some (.array [9] (some ⟨"BH".toList, none⟩) (.terminated [9] 0) (-1))) ∧
    transformTypehint hctx 3 [] h' = .ok (some (.array [9] (some ⟨"H".toList, none⟩) (.terminated [9] 0) 2)) :=
  ⟨⟨_, by simp, rfl, rfl⟩, ⟨_, by simp, rfl, rfl⟩, _, _, _, rfl, ⟨_, rfl, rfl⟩, ⟨_, rfl, rfl⟩, rfl, rfl⟩

/-- **C20 is false in full** (basic items).  `array[Header[2, uint16], uint8]` is packed without a size and read without checking one: the
class makes `[1, 2]` two bytes and reads it back from them. -/
theorem C20_basic_is_false : ∃ h o, IsArrayHint hctx 3 (.int 2) uint16H uint8H h ∧
    createClass hctx 3 [40] world0 { bases := [.structured], anns := [("a", h)] } = .ok o ∧
    (∀ st, result (Obj.pack ⟨plat, fun c => if c = 40 then some o.info else none⟩ 3 (.obj 40 none [("a", .list [.int 1, .int 2])]) st) =
      .ok [1, 2]) :=
  ⟨_, _, ⟨_, rfl, rfl⟩, rfl, fun st => by rfl⟩

end Verif
