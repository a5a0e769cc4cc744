import Verif.Proofs.ClassSum
import Verif.Props.Classes
import Verif.Spec.Layout
/-
C34 and C27: the layout of a class.
-/
namespace Verif
open Spec Samples

variable {ctx : HintCtx} {n : Nat} {id : SerId} {w : World} {d : ClassDecl} {o : ClassObj}

theorem Laid.refl : ∀ xs : List Ser, Laid xs xs
  | [] => .nil
  | _ :: xs => .one (Laid.refl xs)

theorem map_struct_append {ts : List StructSer} {as bs : List Ser} (h : ts.map Ser.struct = as ++ bs) :
    ∃ t1 t2, ts = t1 ++ t2 ∧ as = t1.map Ser.struct ∧ bs = t2.map Ser.struct := by
  obtain ⟨t1, t2, h1, h2, h3⟩ := List.map_eq_append_iff.1 h
  exact ⟨t1, t2, h1, h2.symm, h3.symm⟩

/-- Splitting a field in two. -/
theorem laid_split {x y z : StructSer} (hz : ToksAgree z.toks (x.toks ++ y.toks)) (hx : x.byteOrder = z.byteOrder) (hy : y.byteOrder = z.byteOrder)
    {xs ys : List Ser} (h : Laid xs ys) : ∀ {as bs : List Ser}, xs = as ++ .struct z :: bs → Laid (as ++ .struct x :: .struct y :: bs) ys := by
  induction h with
  | nil => intro as bs h; simp at h
  | @one s xs ys hl ih =>
    intro as bs h
    cases as with
    | nil =>
      simp only [List.nil_append, List.cons.injEq] at h
      obtain ⟨rfl, rfl⟩ := h
      refine Laid.group (ts := [x, y]) ?_ ?_ hl
      · simpa using hz
      · intro t ht
        simp only [List.mem_cons, List.not_mem_nil, or_false] at ht
        rcases ht with rfl | rfl
        · exact hx
        · exact hy
    | cons a as =>
      simp only [List.cons_append, List.cons.injEq] at h
      obtain ⟨rfl, h⟩ := h
      exact .one (ih h)
  | @group ts w xs ys ht hb hl ih =>
    intro as bs h
    rcases List.append_eq_append_iff.1 h with ⟨c, rfl, hc⟩ | ⟨c, h1, h2⟩
    · rw [List.append_assoc]
      exact .group ht hb (ih hc)
    · cases c with
      | nil =>
        simp only [List.append_nil, List.nil_append] at h1 h2
        subst h1
        exact .group ht hb (ih (as := []) h2.symm)
      | cons c cs =>
        simp only [List.cons_append, List.cons.injEq] at h2
        obtain ⟨rfl, rfl⟩ := h2
        obtain ⟨t1, t2, rfl, rfl, h3⟩ := map_struct_append h1
        cases t2 with
        | nil => cases h3
        | cons t t2 =>
          simp only [List.map_cons, List.cons.injEq, Ser.struct.injEq] at h3
          obtain ⟨rfl, rfl⟩ := h3
          have hzw : z.byteOrder = w.byteOrder := hb z (by simp)
          have := Laid.group (ts := t1 ++ x :: y :: t2) (z := w) (xs := xs) (ys := ys) ?_ ?_ hl
          · simpa using this
          · refine ht.trans ?_
            simp only [List.flatMap_append, List.flatMap_cons]
            refine (ToksAgree.refl _).append ?_
            rw [← List.append_assoc]
            exact hz.append (.refl _)
          · intro t ht
            simp only [List.mem_append, List.mem_cons] at ht
            rcases ht with h | rfl | rfl | h
            · exact hb t (by simp [h])
            · exact hx.trans hzw
            · exact hy.trans hzw
            · exact hb t (by simp [h])

theorem merge_laid {bo : ByteOrder} {xs ys : List Ser} (h : Merge (SumIn bo) xs ys) (hn : ∀ y ∈ ys, y.isNull = false) :
    Laid (xs.filter fun x => !x.isNull) ys := by
  induction h with
  | refl xs =>
    rw [List.filter_eq_self.2]
    · exact Laid.refl _
    · intro x hx; simp [hn x hx]
  | null _ ih =>
    have := ih hn
    simpa [List.filter_append, Ser.isNull] using this
  | @join pre post ys x y z hj _ ih =>
    have hf := sum_facts hj.xok hj.yok (hj.xbo.trans hj.ybo.symm) (.inl hj.single) hj.sum
    have := ih hn
    rw [List.filter_append, List.filter_cons_of_pos (by simp [Ser.isNull])] at this
    rw [List.filter_append, List.filter_cons_of_pos (by simp [Ser.isNull]), List.filter_cons_of_pos (by simp [Ser.isNull])]
    exact laid_split hf.toks hf.byteOrder.symm (hj.ybo.trans (hj.xbo.symm.trans hf.byteOrder.symm)) this rfl

theorem wboList_mem {bo : ByteOrder} : ∀ {fs : List (Name × Ser)} {ss : List Ser}, Ser.withByteOrderList bo (fs.map (·.2)) = .ok ss →
    ∃ gs : List (Name × Ser), gs.map (·.1) = fs.map (·.1) ∧ gs.map (·.2) = ss ∧
      ∀ g ∈ gs, ∃ f ∈ fs, f.1 = g.1 ∧ f.2.withByteOrder bo = .ok g.2
  | [], ss, h => by cases h; exact ⟨[], rfl, rfl, by simp⟩
  | f :: fs, ss, h => by
    simp only [List.map_cons, Ser.withByteOrderList] at h
    obtain ⟨s', h1, h⟩ := Except.bind_ok' h
    obtain ⟨r, h2, h⟩ := Except.bind_ok' h
    cases h
    obtain ⟨gs, g1, g2, g3⟩ := wboList_mem h2
    refine ⟨(f.1, s') :: gs, by simp [g1], by simp [g2], ?_⟩
    intro g hg
    rcases List.mem_cons.1 hg with rfl | hg
    · exact ⟨f, by simp, rfl, h1⟩
    · obtain ⟨f', m, e⟩ := g3 g hg
      exact ⟨f', by simp [m], e⟩

theorem parts_notNull {cf : ClassId → Bool} {bo bo' : ByteOrder} {s s' : Ser} (hs : SumState cf bo s) (h : s.withByteOrder bo' = .ok s') :
    ∀ y ∈ parts s', y.isNull = false := by
  have hw := wbo_parts hs.flat h
  suffices ∀ (as bs : List Ser), (∀ a ∈ as, a ≠ .null) → Ser.withByteOrderList bo' as = .ok bs → ∀ y ∈ bs, y.isNull = false from
    this _ _ hs.notNull hw
  intro as
  induction as with
  | nil => intro bs _ h; cases h; simp
  | cons a as ih =>
    intro bs hn h
    simp only [Ser.withByteOrderList] at h
    obtain ⟨a', h1, h⟩ := Except.bind_ok' h
    obtain ⟨r, h2, h⟩ := Except.bind_ok' h
    cases h
    intro y hy
    rcases List.mem_cons.1 hy with rfl | hy
    · have ha := hn a (by simp)
      cases hh : y.isNull with
      | false => rfl
      | true =>
        exfalso
        cases y <;> first | cases hh | skip
        have := withByteOrder_null h1
        exact ha this
    · exact ih r (fun x hx => hn x (by simp [hx])) h2 y hy

theorem class_fields (h : createClass ctx n id w d = .ok o) (hb : BasicFields ctx o) :
    ∃ fields, FieldsOf ctx n o d.byteOrder fields ∧ Merge (SumIn d.byteOrder) (fields.map (·.2)) (parts o.info.serializer) ∧
      ∀ y ∈ parts o.info.serializer, y.isNull = false := by
  obtain ⟨fs, s0, ⟨p, hp, h1⟩, h2, h3, h4⟩ := C27_serializer h
  have hf : ∀ x ∈ fs.map (·.2), FieldOf .default x := by
    intro x hx
    obtain ⟨f, hf, rfl⟩ := List.mem_map.1 hx
    obtain ⟨i, e⟩ := h2 f hf
    refine hb f.1 n i f.2 ?_ e
    have : f.1 ∈ fs.map (·.1) := List.mem_map.2 ⟨f, hf, rfl⟩
    rw [h1] at this
    exact (mem_firsts _ _).1 (List.mem_filter.1 this).1
  obtain ⟨m, hst⟩ := fields_sumIn hf h3
  obtain ⟨xs', e1, m'⟩ := merge_wbo m (wbo_parts hst.flat h4)
  obtain ⟨gs, g1, g2, g3⟩ := wboList_mem e1
  refine ⟨gs, ⟨⟨p, hp, g1.trans h1⟩, ?_⟩, ?_, parts_notNull hst h4⟩
  · intro g hg
    obtain ⟨f, hf, e, hw⟩ := g3 g hg
    obtain ⟨i, ht⟩ := h2 f hf
    exact ⟨i, f.2, by rw [← e]; exact ht, hw⟩
  · rw [g2]
    exact m'

/-- **C34** (classes).  The serializer of a class consists of the serializers of its fields, in the byte order of the class, in
their order; neighbouring basic fields may be packed as one.  This holds in every byte order. -/
theorem C34_class (h : createClass ctx n id w d = .ok o) (hb : BasicFields ctx o) :
    ∃ fields, FieldsOf ctx n o d.byteOrder fields ∧
      Laid ((fields.map (·.2)).filter fun s => !s.isNull) (parts o.info.serializer) := by
  obtain ⟨fields, h1, h2, h3⟩ := class_fields h hb
  exact ⟨fields, h1, merge_laid h2 h3⟩

/-- **C34** (classes, without alignment).  In a byte order other than the default and native ones the fields are cleanly
added, so that `C34_pack_partial` and the other behaviour theorems apply. -/
theorem C34_class_clean (h : createClass ctx n id w d = .ok o) (hb : BasicFields ctx o) (hbo : d.byteOrder.isNative = false) :
    ∃ fields, FieldsOf ctx n o d.byteOrder fields ∧ Merge CleanSum (fields.map (·.2)) (parts o.info.serializer) := by
  obtain ⟨fields, h1, h2, _⟩ := class_fields h hb
  exact ⟨fields, h1, merge_mono (fun x y z hh => hh.clean hbo) h2⟩

theorem fieldOf_anon {bo : ByteOrder} {s t : Ser} (h : s.anon = t.anon) (ht : FieldOf bo t) : FieldOf bo s := by
  refine ⟨?_, ?_⟩
  · show s.isCompound = false
    rw [← isCompound_anon, h, isCompound_anon]
    exact ht.1
  · rintro x rfl
    exact ht.2 x (anon_struct h.symm)

/-- It is enough to look at one transformation of each declaration. -/
theorem basicFields_of (h : ∀ a ∈ o.decls.map (·.1), ∃ m i r, transformTypehint ctx m i (evalHint (lastDecl o.decls a)) = .ok r ∧
    ∀ s, r = some s → FieldOf .default s) : BasicFields ctx o := by
  intro a m i s ha hs
  obtain ⟨m', i', r, hr, hf⟩ := h a ha
  have := transformTypehint_same hs hr
  cases r with
  | none => cases this
  | some t => exact fieldOf_anon (Option.some.inj this) (hf t rfl)

end Verif

namespace Verif.Samples
open Spec

/-- `class Padded(Structured, byte_order=LITTLE_ENDIAN): a: uint8; _: pad[3]; b: uint16; c: char[uint8]; x: int; _: pad[1]` -/
def paddedDecl : ClassDecl :=
  { bases := [.structured], byteOrder := .le, padStart := 4
    anns := [("a", uint8H), ("_", .annot (.plain "NoneType") [.ser (.struct ⟨"3x".toList, none⟩)]), ("b", uint16H),
      ("c", .annot (.plain "bytes") [.ser (.dynChar [9] ⟨['B'], none⟩)]), ("x", .plain "int"),
      ("_", .annot (.plain "NoneType") [.ser (.struct ⟨['x'], none⟩)])] }

theorem fieldOf_sample {ds : List Char} {ch : Char} (hd : ds.all Char.isDigit = true) (hc : isStructChar ch = true)
    (hv : StructSer.Valid ⟨ds ++ [ch], none⟩) (hb : (StructSer.mk (ds ++ [ch]) none).byteOrder = .default)
    (hf : (StructSer.mk (ds ++ [ch]) none).baseFormat = ds ++ [ch]) : FieldOf .default (.struct ⟨ds ++ [ch], none⟩) :=
  ⟨rfl, fun x hx => by cases hx; exact ⟨hv, hb, ds, ch, hf, by simpa using hd, hc⟩⟩

/-- The class made by `paddedDecl`. -/
def padded : ClassObj :=
  match createClass hctx 3 [10] world0 paddedDecl with
  | .ok o => o
  | .error _ => ⟨[], [], [], ⟨[], .null, .default, .ok⟩⟩

theorem padded_made : createClass hctx 3 [10] world0 paddedDecl = .ok padded := by rfl

theorem padded_basic : BasicFields hctx padded := by
  apply basicFields_of
  intro a ha
  have : padded.decls.map (·.1) = ["serializer", "attrs", "_attrgetter", "byte_order", "a", "4_pad_", "b", "c", "x", "5_pad_"] := by rfl
  rw [this] at ha
  simp only [List.mem_cons, List.not_mem_nil, or_false] at ha
  have key : ∀ {ds : List Char} {ch : Char}, ds.all Char.isDigit = true → isStructChar ch = true →
    StructSer.Valid ⟨ds ++ [ch], none⟩ → (StructSer.mk (ds ++ [ch]) none).byteOrder = .default →
    (StructSer.mk (ds ++ [ch]) none).baseFormat = ds ++ [ch] → ∀ s, some (Ser.struct ⟨ds ++ [ch], none⟩) = some s → FieldOf .default s := by
    intro ds ch h1 h2 h3 h4 h5 s hs
    cases hs
    exact fieldOf_sample h1 h2 h3 h4 h5
  rcases ha with rfl | rfl | rfl | rfl | rfl | rfl | rfl | rfl | rfl | rfl
  · exact ⟨3, [], none, rfl, fun s hs => by cases hs⟩
  · exact ⟨3, [], none, rfl, fun s hs => by cases hs⟩
  · exact ⟨3, [], none, rfl, fun s hs => by cases hs⟩
  · exact ⟨3, [], none, rfl, fun s hs => by cases hs⟩
  · exact ⟨3, [], _, rfl, key (ds := []) (ch := 'B') rfl rfl ⟨by decide, by simp⟩ rfl rfl⟩
  · exact ⟨3, [], _, rfl, key (ds := ['3']) (ch := 'x') rfl rfl ⟨by decide, by simp⟩ rfl rfl⟩
  · exact ⟨3, [], _, rfl, key (ds := []) (ch := 'H') rfl rfl ⟨by decide, by simp⟩ rfl rfl⟩
  · exact ⟨3, [], some (.dynChar [9] ⟨['B'], none⟩), rfl, fun s hs => by cases hs; exact ⟨rfl, fun x hx => by cases hx⟩⟩
  · exact ⟨3, [], none, rfl, fun s hs => by cases hs⟩
  · exact ⟨3, [], _, rfl, key (ds := []) (ch := 'x') rfl rfl ⟨by decide, by simp⟩ rfl rfl⟩

end Verif.Samples

namespace Verif
open Spec Samples

/-- `C34_class` and `C34_class_clean` apply to `Padded`, which has two merged fields and two that are not. -/
example : createClass hctx 3 [10] world0 paddedDecl = .ok padded ∧ BasicFields hctx padded ∧ paddedDecl.byteOrder.isNative = false ∧
    padded.info.serializer = .compound [1, 10] [.struct ⟨"<B3xH".toList, none⟩, .dynChar [1, 9] ⟨"<B".toList, none⟩, .struct ⟨"<x".toList, none⟩] ∧
    padded.info.attrs = ["a", "b", "c"] := ⟨padded_made, padded_basic, rfl, by rfl, by rfl⟩

end Verif
