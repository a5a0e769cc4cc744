import Verif.Spec.Format
import Verif.Props.Layout
import Verif.Proofs.RoundTripLeaf
import Verif.Proofs.PadLemmas
import Verif.Props.ArrayHints
import Verif.Props.Scalars
/-
Lemmas for the documented byte format: from what one writes in a class statement to serializers.
-/
namespace Verif
open Spec

variable {ctx : HintCtx} {N : Nat} {bo : ByteOrder}

/-- `st` is the serializer of one item `t`, in byte order `bo`. -/
structure BasicSer (bo : ByteOrder) (t : Tok) (st : StructSer) : Prop where
  valid : st.Valid
  order : st.byteOrder = bo
  single : SingleItem st.baseFormat
  toks : st.toks = [t]
  acts : st.actions = none
  std : parse false st.baseFormat = some st.toks

/-- The same, whatever its actions. -/
structure OneTok (bo : ByteOrder) (t : Tok) (st : StructSer) : Prop where
  valid : st.Valid
  order : st.byteOrder = bo
  single : SingleItem st.baseFormat
  toks : st.toks = [t]

theorem BasicSer.tok {t : Tok} {st : StructSer} (h : BasicSer bo t st) : OneTok bo t st := ⟨h.valid, h.order, h.single, h.toks⟩

theorem OneTok.numValues {t : Tok} {st : StructSer} (h : OneTok bo t st) (ht : t.numVals = 1) : st.numValues = 1 := by
  simp [StructSer.numValues, h.toks, numVals, ht]

/-- With a factory. -/
def StructSer.made (st : StructSer) (make : Val → Val) : StructSer := ⟨st.format, some [fun v => .ok (make v)]⟩

theorem OneTok.made {t : Tok} {st : StructSer} (h : OneTok bo t st) (ht : t.numVals = 1) (make : Val → Val) : OneTok bo t (st.made make) := by
  refine ⟨⟨h.valid.fmt, ?_⟩, h.order, h.single, h.toks⟩
  intro as e
  cases e
  show 1 = st.numValues
  simp [StructSer.numValues, h.toks, numVals, ht]

theorem BasicSer.wbo {b0 : ByteOrder} {t : Tok} {st st' : StructSer} (h : BasicSer b0 t st) (hw : st.withByteOrder bo = .ok st') : BasicSer bo t st' := by
  obtain ⟨h1, _, h3, h4, h5⟩ := structWbo h.valid.fmt hw
  obtain ⟨_, h6, _⟩ := toks_wbo h.valid.fmt h.std hw
  refine ⟨⟨h3, ?_⟩, h1, by rw [h4]; exact h.single, h6.trans h.toks, h5.trans h.acts, by rw [h4, h6]; exact h.std⟩
  intro as ha
  rw [h5, h.acts] at ha
  cases ha

/-- The width in the `struct` module. -/
def Spec.Size.wd : Size → Width
  | .one => .one
  | .two => .two
  | .four => .four
  | .eight => .eight

theorem Spec.Size.mem (s : Bool) (w : Size) : (w.code s, s, w.bytes) ∈ intTypes := by cases s <;> cases w <;> decide

theorem BasicSer.numValues {t : Tok} {st : StructSer} (h : BasicSer bo t st) (ht : t.numVals = 1) : st.numValues = 1 := by
  simp [StructSer.numValues, h.toks, numVals, ht]

theorem basic_int (s : Bool) (w : Size) : BasicSer .default ⟨1, .int s w.wd⟩ ⟨[w.code s], none⟩ := by
  cases s <;> cases w <;>
    exact ⟨⟨by decide, by simp⟩, by rfl, ⟨[], _, by rfl, by simp, by decide⟩, by rfl, rfl, by rfl⟩

theorem basic_bool : BasicSer .default ⟨1, .bool⟩ ⟨['?'], none⟩ :=
  ⟨⟨by decide, by simp⟩, by rfl, ⟨[], _, by rfl, by simp, by decide⟩, by rfl, rfl, by rfl⟩

theorem basic_double : BasicSer .default ⟨1, .double⟩ ⟨['d'], none⟩ :=
  ⟨⟨by decide, by simp⟩, by rfl, ⟨[], _, by rfl, by simp, by decide⟩, by rfl, rfl, by rfl⟩

theorem basic_half : BasicSer .default ⟨1, .half⟩ ⟨['e'], none⟩ :=
  ⟨⟨by decide, by simp⟩, by rfl, ⟨[], _, by rfl, by simp, by decide⟩, by rfl, rfl, by rfl⟩

theorem basic_single : BasicSer .default ⟨1, .single⟩ ⟨['f'], none⟩ :=
  ⟨⟨by decide, by simp⟩, by rfl, ⟨[], _, by rfl, by simp, by decide⟩, by rfl, rfl, by rfl⟩

theorem basic_chars (n : Nat) (hn : 0 < n) : ∃ st, singleChar.matmul n = .ok (some st) ∧ BasicSer .default ⟨n, .str⟩ st := by
  obtain ⟨m, rfl⟩ : ∃ m, n = m + 1 := ⟨n - 1, by omega⟩
  by_cases h1 : m = 0
  · subst h1
    exact ⟨⟨['s'], none⟩, by rfl, ⟨⟨by decide, by simp⟩, by rfl, ⟨[], _, by rfl, by simp, by decide⟩, by rfl, rfl, by rfl⟩⟩
  · have hpos : ¬ ((m + 1 : Nat) : Int) = 0 ∧ ¬ ((m + 1 : Nat) : Int) < 0 ∧
        ¬ ((m + 1 : Nat) : Int) = 1 := by omega
    have hto : ((m + 1 : Nat) : Int).toNat = m + 1 := by omega
    obtain ⟨f, hf, hsi, hp⟩ := fold_repeat_single (nat := false) (cs := true) (ds := []) (ch := 's') (c := .str)
      (by simp) (by rfl) (by simp [Code.nativeOnly]) (.inl rfl) m
    have hpt : parse true f = some [⟨(m + 1) * countVal [], .str⟩] := parseAux_mode hp
    obtain ⟨g1, g2, g3, g4⟩ := StructSer.of_parse (bo := .default) (a := none) hpt
    refine ⟨⟨ByteOrder.default.value ++ f, none⟩, ?_, ⟨g1, by simp⟩, g2, by rw [g3]; exact hsi, by rw [g4]; simp [countVal], rfl, ?_⟩
    · have e1 : (StructSer.mk ['s'] none).baseFormat = ['s'] := by decide
      have e2 : (StructSer.mk ['s'] none).byteOrder = .default := by decide
      simp only [List.nil_append] at hf
      simp only [singleChar, StructSer.matmul, StructSer.mulImpl, hpos, ↓reduceIte, hto, e1, e2, StructSer.remake,
        bind, Except.bind, Nat.add_sub_cancel, hf]
      rw [StructSer.mkPlain_ok (bo := .default) hpt]
    · rw [g3, g4]; exact hp

theorem basic_pascal (n : Nat) (hn : 0 < n) : ∃ st, StructSer.matmul ⟨['p'], none⟩ n = .ok (some st) ∧ BasicSer .default ⟨n, .pas⟩ st := by
  obtain ⟨m, rfl⟩ : ∃ m, n = m + 1 := ⟨n - 1, by omega⟩
  by_cases h1 : m = 0
  · subst h1
    exact ⟨⟨['p'], none⟩, by rfl, ⟨⟨by decide, by simp⟩, by rfl, ⟨[], _, by rfl, by simp, by decide⟩, by rfl, rfl, by rfl⟩⟩
  · have hpos : ¬ ((m + 1 : Nat) : Int) = 0 ∧ ¬ ((m + 1 : Nat) : Int) < 0 ∧
        ¬ ((m + 1 : Nat) : Int) = 1 := by omega
    have hto : ((m + 1 : Nat) : Int).toNat = m + 1 := by omega
    obtain ⟨f, hf, hsi, hp⟩ := fold_repeat_single (nat := false) (cs := true) (ds := []) (ch := 'p') (c := .pas)
      (by simp) (by rfl) (by simp [Code.nativeOnly]) (.inl rfl) m
    have hpt : parse true f = some [⟨(m + 1) * countVal [], .pas⟩] := parseAux_mode hp
    obtain ⟨g1, g2, g3, g4⟩ := StructSer.of_parse (bo := .default) (a := none) hpt
    refine ⟨⟨ByteOrder.default.value ++ f, none⟩, ?_, ⟨g1, by simp⟩, g2, by rw [g3]; exact hsi, by rw [g4]; simp [countVal], rfl, ?_⟩
    · have e1 : (StructSer.mk ['p'] none).baseFormat = ['p'] := by decide
      have e2 : (StructSer.mk ['p'] none).byteOrder = .default := by decide
      simp only [List.nil_append] at hf
      simp only [StructSer.matmul, StructSer.mulImpl, hpos, ↓reduceIte, hto, e1, e2, StructSer.remake,
        bind, Except.bind, Nat.add_sub_cancel, hf]
      rw [StructSer.mkPlain_ok (bo := .default) hpt]
    · rw [g3, g4]; exact hp

/-- The serializer of a basic type. -/
def IsItem (bo : ByteOrder) (t : Tok) (x : Ser) : Prop := ∃ st, x = .struct st ∧ BasicSer bo t st

/-- The item of a type that a union looks ahead for. -/
def Spec.Ahead.tok : Ahead → Tok
  | .int s w => ⟨1, .int s w.wd⟩
  | .chars n => ⟨n, .str⟩

mutual
/-- `x` is a serializer of the format in byte order `bo`. -/
def Spec.Fmt.Is (cf : ClassId → Bool) (bo : ByteOrder) : Fmt → Ser → Prop
  | .int s w, x => IsItem bo ⟨1, .int s w.wd⟩ x
  | .bool, x => IsItem bo ⟨1, .bool⟩ x
  | .half, x => IsItem bo ⟨1, .half⟩ x
  | .single, x => IsItem bo ⟨1, .single⟩ x
  | .double, x => IsItem bo ⟨1, .double⟩ x
  | .chars n, x => IsItem bo ⟨n, .str⟩ x
  | .pascal n, x => IsItem bo ⟨n, .pas⟩ x
  | .via _ f _ _ make, x => ∃ st, x = .struct (st.made make) ∧ f.direct = true ∧ f.Is cf bo (.struct st)
  | .counted w, x => ∃ id, x = .dynChar id (intSer bo (w.code false))
  | .until t, x => ∃ id, x = .terminated id t
  | .rest, x => ∃ id, x = .consuming id
  | .net, x => ∃ id, x = .net id
  | .text f en de, x => ∃ y, x = .unicode y en de ∧ f.Is cf .default y
  | .fixed n item, x => (∃ st ser, x = .staticArr n st ser ∧ item.basic.isSome ∧ item.Is cf bo (.struct st) ∧ st.mul n = .ok ser) ∨
      ∃ id y, x = .array id none y n ∧ item.basic = none ∧ item.Is cf bo y
  | .list w item, x => ∃ id y, x = .array id (some (intSer bo (w.code false))) y (-1) ∧ item.Is cf bo y
  | .sized w w2 item, x => ∃ id y h, x = .array id (some h) y (-1) ∧ (intSer bo (w.code false)).add (intSer bo (w2.code false)) = .ok h ∧
      item.Is cf bo y
  | .tup items, x => ∃ id id' inner ss, x = .tuple id inner ∧ Fmt.IsL cf .default items ss ∧ sumSers cf id' ss = .ok inner
  | .obj c, x => ∃ id, x = .structured id c
  | .me, x => ∃ id, x = .selfT id
  | .choice id _ ahead decider keys opts other, x => ∃ os ds, Fmt.IsL cf .default opts os ∧ Fmt.IsL cf .default other ds ∧
      ((ahead = none ∧ x = .lookback id decider keys os (ds.headD .null)) ∨ ∃ a st, ahead = some a ∧
        BasicSer .default a.tok st ∧ x = .lookahead id (.struct st) decider keys os (ds.headD .null))
def Spec.Fmt.IsL (cf : ClassId → Bool) (bo : ByteOrder) : List Fmt → List Ser → Prop
  | [], ss => ss = []
  | f :: fs, ss => ∃ x xs, ss = x :: xs ∧ f.Is cf bo x ∧ Fmt.IsL cf bo fs xs
end

/-- `x` is a serializer of the field in byte order `bo`. -/
def Spec.Field.Is (cf : ClassId → Bool) (bo : ByteOrder) : Field → Ser → Prop
  | .value _ f, x => f.Is cf bo x
  | .pad _ n, x => IsItem bo ⟨n, .pad⟩ x
  | .when _ c f d, x => ∃ y, x = .cond y c [d] ∧ f.Is cf bo y

def Spec.Field.IsL (cf : ClassId → Bool) (bo : ByteOrder) : List Field → List Ser → Prop
  | [], ss => ss = []
  | f :: fs, ss => ∃ x xs, ss = x :: xs ∧ f.Is cf bo x ∧ Field.IsL cf bo fs xs

theorem ser_transform {n : Nat} {id : SerId} {nm : String} {s : Ser} {r : Hint} (hs : s.isUnion = false)
    (h : transform ctx n id (.annot (.plain nm) [.ser s]) = .ok r) : r = .ser s := by
  cases n with
  | zero => cases h
  | succ m =>
    have : unionStep (transform ctx m) id (.plain nm) (.ser s) = .ok (.plain nm) := by
      simp only [unionStep, hs]
      rfl
    have e : transform ctx (m + 1) id (.annot (.plain nm) [.ser s]) = .ok (.ser s) := by
      show ((unionStep (transform ctx m) id (.plain nm) (.ser s) >>= fun b => selfStep id b >>= fun b => structuredStep ctx id b >>=
        fun b => indexingStep b (.ser s) >>= fun b => finalStep b (.ser s)) >>= fun b => .ok b) = _
      rw [this]
      rfl
    rw [e] at h
    cases h; rfl

theorem isItem_transform {n : Nat} {id : SerId} {nm : String} {t : Tok} {st : StructSer} {r : Hint} (hb : BasicSer .default t st)
    (h : transform ctx n id (.annot (.plain nm) [.ser (.struct st)]) = .ok r) : ∃ s, r = .ser s ∧ IsItem .default t s :=
  ⟨_, ser_transform rfl h, st, rfl, hb⟩

theorem Spec.Size.isSizeType (w : Size) : IsSizeType (basicHint "int" (w.code false)) ⟨[w.code false], none⟩ :=
  ⟨w.code false, by cases w <;> decide, rfl, rfl⟩

theorem header_list {w : Size} {hd : Hint} (h : mkHeader (basicHint "int" (w.code false)) .noneT = .ok hd) :
    hd = .header (.dyn ⟨[w.code false], none⟩) none := by
  unfold mkHeader at h
  rw [if_neg (by rw [sizeType_not_tvar w.isSizeType]; simp [Hint.isTvar])] at h
  simp only [sizeType_is w.isSizeType] at h
  cases h; rfl

theorem header_static {n : Nat} {hd : Hint} (h : mkHeader (.int n) .noneT = .ok hd) : hd = .header (.static n) none := by
  unfold mkHeader at h
  rw [if_neg (by simp [Hint.isTvar])] at h
  have : sizeType? (.int n) = none := rfl
  rw [this] at h
  simp only at h
  rw [if_neg (by omega)] at h
  cases h; rfl

/-- What is written is neither a type variable nor an alias. -/
def Hint.written : Hint → Bool
  | .annot (.plain _) _ | .annot (.union _) _ | .tup .. | .cls _ | .selfT => true
  | _ => false

theorem written_flatten {h : Hint} (hw : h.written = true) : h.flatten ≠ [] := by
  cases h <;> try (cases hw; done)
  case annot b ms => cases b <;> first | (cases hw; done) | (intro h; cases h)
  all_goals (intro h; cases h)

theorem mkArray_written {count : Count} {size : Option StructSer} {item h : Hint} (hv : item.isTvar = false)
    (e : mkArray ctx N (.header count size) item = .ok h) : h.written = true := by
  obtain ⟨s, _, _, h4, h5⟩ := mkArray_parts hv e
  by_cases hb : IsBasic s
  · obtain ⟨st, rfl, h1⟩ := hb
    rcases h5 st rfl h1 with ⟨_, _, _, _, rfl⟩ | ⟨_, _, _, rfl⟩ <;> rfl
  · obtain ⟨_, _, _, rfl⟩ := h4 hb
    rfl

theorem written_tvar {h : Hint} (hs : h.written = true) : h.isTvar = false ∧ h.isAlias = false := by
  cases h <;> first | exact ⟨rfl, rfl⟩ | cases hs

theorem mkChar_annot {b h : Hint} {f : Fmt} (hb : f.bracket = some b) (e : mkChar ctx b = .ok h) : ∃ s, h = .annot (.plain "bytes") [.ser s] := by
  cases f <;> simp only [Fmt.bracket] at hb <;> cases hb
  · obtain ⟨x, _, e⟩ := Except.bind_ok' e
    cases e; exact ⟨_, rfl⟩
  · rename_i w
    cases w <;> (cases e; exact ⟨_, rfl⟩)
  · cases e; exact ⟨_, rfl⟩
  · cases e; exact ⟨_, rfl⟩
  · cases e; exact ⟨_, rfl⟩

theorem hint_written : ∀ (f : Fmt) {h : Hint}, f.hint ctx N = .ok h → h.written = true
  | .int .., _, e => by cases e; rfl
  | .bool, _, e => by cases e; rfl
  | .half, _, e => by cases e; rfl
  | .single, _, e => by cases e; rfl
  | .double, _, e => by cases e; rfl
  | .pascal _, _, e => by
    obtain ⟨_, _, e⟩ := Except.bind_ok' e
    cases e; rfl
  | .chars _, _, e => by obtain ⟨s, rfl⟩ := mkChar_annot (f := .chars _) rfl e; rfl
  | .via _ _ _ _ _, _, e => by
    simp only [Fmt.hint] at e
    obtain ⟨_, _, e⟩ := Except.bind_ok' e
    obtain ⟨_, _, e⟩ := Except.bind_ok' e
    split at e
    · cases e; rfl
    · obtain ⟨_, _, e⟩ := Except.bind_ok' e
      cases e; rfl
  | .counted _, _, e => by obtain ⟨s, rfl⟩ := mkChar_annot (f := .counted _) rfl e; rfl
  | .until _, _, e => by obtain ⟨s, rfl⟩ := mkChar_annot (f := .until _) rfl e; rfl
  | .net, _, e => by obtain ⟨s, rfl⟩ := mkChar_annot (f := .net) rfl e; rfl
  | .rest, _, e => by obtain ⟨s, rfl⟩ := mkChar_annot (f := .rest) rfl e; rfl
  | .text f en de, h, e => by
    simp only [Fmt.hint] at e
    cases hb : f.bracket with
    | none => rw [hb] at e; cases e
    | some b =>
      rw [hb] at e
      have : b.isTvar = false := by cases f <;> simp only [Fmt.bracket] at hb <;> cases hb <;> rfl
      simp only [mkUnicode, this] at e
      obtain ⟨c, _, e⟩ := Except.bind_ok' e
      obtain ⟨t, _, e⟩ := Except.bind_ok' e
      cases t <;> cases e
      rfl
  | .fixed n item, h, e => by
    simp only [Fmt.hint] at e
    obtain ⟨hd, h1, e⟩ := Except.bind_ok' e
    obtain ⟨hi, h2, e⟩ := Except.bind_ok' e
    cases header_static h1
    exact mkArray_written (written_tvar (hint_written item h2)).1 e
  | .list w item, h, e => by
    simp only [Fmt.hint] at e
    obtain ⟨hd, h1, e⟩ := Except.bind_ok' e
    obtain ⟨hi, h2, e⟩ := Except.bind_ok' e
    cases header_list h1
    exact mkArray_written (written_tvar (hint_written item h2)).1 e
  | .sized w w2 item, h, e => by
    simp only [Fmt.hint] at e
    obtain ⟨hd, h1, e⟩ := Except.bind_ok' e
    obtain ⟨hi, h2, e⟩ := Except.bind_ok' e
    cases header_counted w.isSizeType w2.isSizeType h1
    exact mkArray_written (written_tvar (hint_written item h2)).1 e
  | .tup items, _, e => by
    simp only [Fmt.hint] at e
    obtain ⟨hs, _, e⟩ := Except.bind_ok' e
    cases e; rfl
  | .obj _, _, e => by cases e; rfl
  | .me, _, e => by cases e; rfl
  | .choice _ _ ahead _ _ _ _, _, e => by
    simp only [Fmt.hint] at e
    obtain ⟨os, _, e⟩ := Except.bind_ok' e
    obtain ⟨d, _, e⟩ := Except.bind_ok' e
    cases ahead with
    | none => obtain ⟨x, _, e⟩ := Except.bind_ok' e; cases e; rfl
    | some a =>
      obtain ⟨_, _, e⟩ := Except.bind_ok' e
      obtain ⟨x, _, e⟩ := Except.bind_ok' e
      cases e; rfl

theorem union_transform {n : Nat} {id : SerId} {args : List Hint} {s : Ser} {r : Hint}
    (h : transform ctx n id (.annot (.union args) [.ser s]) = .ok r) : r = .ser s := by
  cases n with
  | zero => cases h
  | succ m =>
    have e : transform ctx (m + 1) id (.annot (.union args) [.ser s]) =
      (unionStep (transform ctx m) id (.union args) (.ser s) >>= fun b => selfStep id b >>= fun b => structuredStep ctx id b >>=
        fun b => indexingStep b (.ser s) >>= fun b => finalStep b (.ser s)) >>= fun b => .ok b := rfl
    rw [e] at h
    obtain ⟨b, h1, h⟩ := Except.bind_ok' h
    obtain ⟨b2, h2, h3⟩ := Except.bind_ok' h1
    obtain ⟨b3, h4, h5⟩ := Except.bind_ok' h3
    obtain ⟨b4, h6, h7⟩ := Except.bind_ok' h5
    obtain ⟨b5, h8, h9⟩ := Except.bind_ok' h7
    cases h9
    cases h; rfl

/-- The default of a union. -/
def dfltOf (ctx : HintCtx) (N : Nat) (id : SerId) : Option Hint → Except Err Ser
  | none => .ok .null
  | some h => validateSerializer ctx N (6 :: id) h

theorem lookback_ok {id : SerId} {dec : Decider} {keys : List Val} {os : List Hint} {dflt : Option Hint} {x : Hint}
    (h : mkLookback ctx N id dec keys os dflt = .ok x) : ∃ d ss, dfltOf ctx N id dflt = .ok d ∧
      validateList ctx N id 0 os = .ok ss ∧ x = .ser (.lookback id dec keys ss d) := by
  have : mkLookback ctx N id dec keys os dflt = (do
    let d ← dfltOf ctx N id dflt
    let os ← validateList ctx N id 0 os
    .ok (.ser (.lookback id dec keys os d))) := by cases dflt <;> rfl
  rw [this] at h
  obtain ⟨d, h1, h⟩ := Except.bind_ok' h
  obtain ⟨ss, h2, h⟩ := Except.bind_ok' h
  cases h
  exact ⟨d, ss, h1, h2, rfl⟩

theorem lookahead_ok {id : SerId} {ra : Hint} {dec : Decider} {keys : List Val} {os : List Hint} {dflt : Option Hint} {x : Hint}
    (h : mkLookahead ctx N id ra dec keys os dflt = .ok x) : ∃ d ss s, dfltOf ctx N id dflt = .ok d ∧
      validateList ctx N id 0 os = .ok ss ∧ transform ctx N (5 :: id) ra = .ok (.ser s) ∧ x = .ser (.lookahead id s dec keys ss d) := by
  have : mkLookahead ctx N id ra dec keys os dflt = (do
    let d ← dfltOf ctx N id dflt
    let os ← validateList ctx N id 0 os
    match ← transform ctx N (5 :: id) ra with
    | .ser r => .ok (.ser (.lookahead id r dec keys os d))
    | _ => .error .typeError) := by cases dflt <;> rfl
  rw [this] at h
  obtain ⟨d, h1, h⟩ := Except.bind_ok' h
  obtain ⟨ss, h2, h⟩ := Except.bind_ok' h
  obtain ⟨s, h3, h⟩ := Except.bind_ok' h
  split at h
  · cases h
    exact ⟨d, ss, _, h1, h2, h3, rfl⟩
  · cases h

theorem sersq_map (ss : List Ser) : Hint.sers? (ss.map .ser) = some ss := by
  induction ss with
  | nil => rfl
  | cons s ss ih => simp only [List.map_cons, Hint.sers?, Hint.ser?, ih]

theorem direct_basic {f : Fmt} (h : f.direct = true) : f.basic.isSome = true := by
  cases f <;> first | exact h | cases h

theorem is_direct {cf : ClassId → Bool} {f : Fmt} {x : Ser} (hd : f.direct = true) (h : f.Is cf bo x) : ∃ t, IsItem bo t x ∧ t.numVals = 1 := by
  cases f <;> first | (cases hd; done) | exact ⟨_, h, rfl⟩

/-- Only the basic types have a struct serializer. -/
theorem is_struct {cf : ClassId → Bool} {f : Fmt} {st : StructSer} (h : f.Is cf bo (.struct st)) : f.basic.isSome = true := by
  cases f <;> simp only [Fmt.Is] at h <;> first
    | rfl
    | (obtain ⟨_, _, hd, _⟩ := h; rw [Fmt.basic]; exact direct_basic hd)
    | (obtain ⟨_, h⟩ := h; cases h; done)
    | (obtain ⟨_, h, _⟩ := h; cases h; done)
    | (obtain ⟨_, _, h, _⟩ := h; cases h; done)
    | (obtain ⟨_, _, _, h, _⟩ := h; cases h; done)
    | (obtain ⟨_, _, _, _, h, _⟩ := h; cases h; done)
    | (rcases h with ⟨_, _, h, _⟩ | ⟨_, _, h, _⟩ <;> cases h; done)
    | (obtain ⟨_, _, _, _, ⟨_, h⟩ | ⟨_, _, _, _, _, h⟩⟩ := h <;> cases h)

theorem is_basic {cf : ClassId → Bool} {f : Fmt} {s : Ser} (hb : f.basic.isSome = true) (h : f.Is cf bo s) : IsBasic s := by
  cases f <;> simp only [Fmt.Is] at h <;> first
    | (cases hb; done)
    | (obtain ⟨st, rfl, h⟩ := h; exact ⟨st, rfl, h.numValues rfl⟩)
    | (obtain ⟨st, rfl, hd, h⟩ := h
       obtain ⟨t, ⟨st', e, h1⟩, h2⟩ := is_direct hd h
       cases e
       exact ⟨_, rfl, h1.numValues h2⟩)

theorem ahead_is {a : Ahead} {n : Nat} {id : SerId} {h r : Hint} (hg : Ahead.good (some a) = true) (e : a.hint ctx = .ok h)
    (ht : transform ctx n id h = .ok r) : ∃ s, r = .ser s ∧ IsItem .default a.tok s := by
  cases a with
  | int s w => cases e; exact isItem_transform (basic_int s w) ht
  | chars k =>
    simp only [Ahead.good, decide_eq_true_eq] at hg
    obtain ⟨st, h1, h2⟩ := basic_chars k hg
    have : mkChar ctx (.int k) = (do .ok (.annot (.plain "bytes") [.ser (optSer (← singleChar.matmul k))])) := rfl
    simp only [Ahead.hint, this, h1] at e
    cases e
    exact isItem_transform h2 ht

/-- The types that are named make of a value what they should. -/
def Calls (ctx : HintCtx) (ps : List (String × (Val → Val))) : Prop := ∀ p ∈ ps, ctx.call p.1 = fun v => .ok (p.2 v)

theorem Calls.mem {ps qs : List (String × (Val → Val))} (h : Calls ctx ps) (hs : ∀ p, p ∈ qs → p ∈ ps) : Calls ctx qs := fun p hp => h p (hs p hp)

mutual
/-- What is written for a format is turned into a serializer of the format. -/
theorem hint_is : ∀ (f : Fmt) {bo : ByteOrder} {n : Nat} {id : SerId} {h r : Hint}, f.good bo = true → Calls ctx f.calls → f.hint ctx N = .ok h →
    transform ctx n id h = .ok r → ∃ s, r = .ser s ∧ f.Is ctx.clsFinal .default s
  | .int s w, _, n, id, h, r, _, hc, e, ht => by cases e; exact isItem_transform (basic_int s w) ht
  | .bool, _, n, id, h, r, _, hc, e, ht => by cases e; exact isItem_transform basic_bool ht
  | .half, _, n, id, h, r, _, hc, e, ht => by cases e; exact isItem_transform basic_half ht
  | .single, _, n, id, h, r, _, hc, e, ht => by cases e; exact isItem_transform basic_single ht
  | .double, _, n, id, h, r, _, hc, e, ht => by cases e; exact isItem_transform basic_double ht
  | .pascal k, _, n, id, h, r, hg, hc, e, ht => by
    simp only [Fmt.good, decide_eq_true_eq] at hg
    obtain ⟨st, h1, h2⟩ := basic_pascal k hg
    simp only [Fmt.hint, mkPascal, h1] at e
    cases e
    exact isItem_transform h2 ht
  | .chars k, _, n, id, h, r, hg, hc, e, ht => by
    simp only [Fmt.good, decide_eq_true_eq] at hg
    obtain ⟨st, h1, h2⟩ := basic_chars k hg
    have : mkChar ctx (.int k) = (do .ok (.annot (.plain "bytes") [.ser (optSer (← singleChar.matmul k))])) := rfl
    simp only [Fmt.hint, this, h1] at e
    cases e
    exact isItem_transform h2 ht
  | .via vid f nm own make, _, n, id, h, r, hg, hc, e, ht => by
    simp only [Fmt.good, Bool.and_eq_true] at hg
    simp only [Fmt.hint] at e
    obtain ⟨hf, h1, e⟩ := Except.bind_ok' e
    obtain ⟨sa, h2, e⟩ := Except.bind_ok' e
    obtain ⟨t, h4, h2⟩ := Except.bind_ok' h2
    obtain ⟨s, rfl, h5⟩ := hint_is f hg.2 (hc.mem fun p hp => by simp [Fmt.calls, hp]) h1 h4
    obtain ⟨tk, ⟨st, rfl, h6⟩, h7⟩ := is_direct hg.1 h5
    simp only [h6.numValues h7, ne_eq, not_true_eq_false, if_false] at h2
    cases h2
    have hm : StructSer.mkActions st.format .default [fun v => .ok (make v)] = .ok (st.made make) := by
      have := h6.numValues h7
      have hn : StructSer.numValues ⟨st.format, Option.none⟩ = 1 := this
      simp only [StructSer.mkActions, ByteOrder.value, List.nil_append, h6.valid.fmt, if_true, hn, List.length_singleton, Nat.lt_irrefl, if_false]
      rfl
    cases own with
    | false =>
      simp only [Bool.false_eq_true, if_false] at e
      obtain ⟨wf, h3, e⟩ := Except.bind_ok' e
      cases e
      simp only [withFactory, hm] at h3
      cases h3
      refine ⟨_, ?_, st, rfl, hg.1, h5⟩
      cases n with
      | zero => cases ht
      | succ m => cases ht; rfl
    | true =>
      simp only [if_true] at e
      cases e
      refine ⟨.struct (st.made make), ?_, st, rfl, hg.1, h5⟩
      have hn : ctx.call nm = fun v => .ok (make v) := hc (nm, make) (by simp [Fmt.calls])
      have hs : serAsStep ctx (.plain nm) (.serAs st) = .ok (.ser (.struct (st.made make))) := by
        simp only [serAsStep, h6.acts, Hint.asAction, hn, hm]
        rfl
      cases n with
      | zero => cases ht
      | succ m =>
        have ht' : ((serAsStep ctx (.plain nm) (.serAs st) >>= fun b => condStep b (.serAs st) >>= fun b => unionStep (transform ctx m) id b (.serAs st) >>=
            fun b => selfStep id b >>= fun b => structuredStep ctx id b >>= fun b => indexingStep b (.serAs st) >>= fun b =>
            finalStep b (.serAs st)) >>= fun b => .ok b) = .ok r := ht
        rw [hs] at ht'
        cases ht'
        rfl
  | .counted w, _, n, id, h, r, _, hc, e, ht => by
    simp only [Fmt.hint, mkChar, sizeType_is w.isSizeType] at e
    cases e
    exact ⟨_, ser_transform rfl ht, _, rfl⟩
  | .until t, _, n, id, h, r, _, hc, e, ht => by
    cases e
    exact ⟨_, ser_transform rfl ht, _, rfl⟩
  | .net, _, n, id, h, r, _, hc, e, ht => by
    cases e
    exact ⟨_, ser_transform rfl ht, _, rfl⟩
  | .rest, _, n, id, h, r, _, hc, e, ht => by
    cases e
    exact ⟨_, ser_transform rfl ht, _, rfl⟩
  | .text f en de, bo, n, id, h, r, hg, hc, e, ht => by
    simp only [Fmt.good, Bool.and_eq_true] at hg
    simp only [Fmt.hint] at e
    cases hb : f.bracket with
    | none => rw [hb] at e; cases e
    | some b =>
      rw [hb] at e
      have hv : b.isTvar = false := by cases f <;> simp only [Fmt.bracket] at hb <;> cases hb <;> rfl
      have hh : f.hint ctx N = mkChar ctx b := by cases f <;> simp only [Fmt.bracket] at hb <;> cases hb <;> rfl
      simp only [mkUnicode, hv] at e
      obtain ⟨c, h1, e⟩ := Except.bind_ok' e
      obtain ⟨t, h2, e⟩ := Except.bind_ok' e
      obtain ⟨s, rfl, h3⟩ := hint_is f hg.2 (by simpa only [Fmt.calls] using hc) (hh.trans h1) h2
      cases e
      exact ⟨_, ser_transform rfl ht, s, rfl, h3⟩
  | .fixed k item, bo, n, id, h, r, hg, hc, e, ht => by
    simp only [Fmt.good] at hg
    simp only [Fmt.hint] at e
    obtain ⟨hd, h1, e⟩ := Except.bind_ok' e
    obtain ⟨hi, h2, e⟩ := Except.bind_ok' e
    cases header_static h1
    obtain ⟨s, ⟨i, h3⟩, _, h4, h5⟩ := mkArray_parts (written_tvar (hint_written item h2)).1 e
    obtain ⟨s', h6, h7⟩ := hint_is item hg (by simpa only [Fmt.calls] using hc) h2 h3
    cases h6
    by_cases hb : IsBasic s
    · obtain ⟨st, rfl, h8⟩ := hb
      rcases h5 st rfl h8 with ⟨j, s', e1, e2, rfl⟩ | ⟨_, _, e1, _⟩
      · cases e1
        obtain ⟨ser, h9, e2⟩ := Except.bind_ok' e2
        cases e2
        exact ⟨_, ser_transform rfl ht, .inl ⟨st, ser, rfl, is_struct h7, h7, h9⟩⟩
      · cases e1
    · obtain ⟨j, s', e1, rfl⟩ := h4 hb
      cases e1
      refine ⟨_, ser_transform rfl ht, .inr ⟨_, s, rfl, ?_, h7⟩⟩
      cases hb' : item.basic with
      | none => rfl
      | some wa =>
        exact absurd (is_basic (by rw [hb']; rfl) h7) hb
  | .list w item, bo, n, id, h, r, hg, hc, e, ht => by
    simp only [Fmt.good, Bool.and_eq_true] at hg
    simp only [Fmt.hint] at e
    obtain ⟨hd, h1, e⟩ := Except.bind_ok' e
    obtain ⟨hi, h2, e⟩ := Except.bind_ok' e
    cases header_list h1
    obtain ⟨s, ⟨i, h3⟩, _, h4, h5⟩ := mkArray_parts (written_tvar (hint_written item h2)).1 e
    obtain ⟨s', h6, h7⟩ := hint_is item hg.1 (by simpa only [Fmt.calls] using hc) h2 h3
    cases h6
    have hb : ¬ IsBasic s := by
      rintro ⟨st, rfl, _⟩
      have := is_struct h7
      simp [Option.isNone_iff_eq_none.1 hg.2] at this
    obtain ⟨j, s', e1, rfl⟩ := h4 hb
    cases e1
    exact ⟨_, ser_transform rfl ht, _, s, rfl, h7⟩
  | .sized w w2 item, bo, n, id, h, r, hg, hc, e, ht => by
    simp only [Fmt.good, Bool.and_eq_true] at hg
    simp only [Fmt.hint] at e
    obtain ⟨hd, h1, e⟩ := Except.bind_ok' e
    obtain ⟨hi, h2, e⟩ := Except.bind_ok' e
    cases header_counted w.isSizeType w2.isSizeType h1
    obtain ⟨s, ⟨i, h3⟩, _, h4, h5⟩ := mkArray_parts (written_tvar (hint_written item h2)).1 e
    obtain ⟨s', h6, h7⟩ := hint_is item hg.1 (by simpa only [Fmt.calls] using hc) h2 h3
    cases h6
    have hb : ¬ IsBasic s := by
      rintro ⟨st, rfl, _⟩
      have := is_struct h7
      simp [Option.isNone_iff_eq_none.1 hg.2] at this
    obtain ⟨j, s', e1, rfl⟩ := h4 hb
    obtain ⟨hdr, e2, e1⟩ := Except.bind_ok' e1
    cases e1
    exact ⟨_, ser_transform rfl ht, _, s, hdr, rfl, e2, h7⟩
  | .tup items, bo, n, id, h, r, hg, hc, e, ht => by
    simp only [Fmt.good, Bool.and_eq_true] at hg
    simp only [Fmt.hint] at e
    obtain ⟨hs, h1, e⟩ := Except.bind_ok' e
    cases e
    cases n with
    | zero => cases ht
    | succ m =>
      rw [transform_eq rfl] at ht
      obtain ⟨t, h2, h3⟩ := Except.bind_ok' ht
      cases h3
      obtain ⟨b, h3, h4⟩ := Except.bind_ok' h2
      obtain ⟨g1, g2⟩ := hints_written items h1
      have hne : hs.isEmpty = false := by
        cases items with
        | nil => simp at hg
        | cons => cases hs with
          | nil => simp at g2
          | cons => rfl
      have hany : (hs.any fun a => a.isTvar || a.isAlias) = false := by
        rw [List.any_eq_false]
        intro x hx
        obtain ⟨e1, e2⟩ := written_tvar (g1 x hx)
        simp [e1, e2]
      simp only [tupleStep, Hint.base, hne, hany] at h3
      obtain ⟨ts, h5, h3⟩ := Except.bind_ok' h3
      obtain ⟨ss, rfl, h6⟩ := hints_is items hg.1.1.2 (by simpa only [Fmt.calls] using hc) h1 h5
      rw [sersq_map] at h3
      obtain ⟨inner, h7, h3⟩ := Except.bind_ok' h3
      cases h3
      cases h4
      exact ⟨_, rfl, id, _, inner, ss, rfl, h6, h7⟩
  | .obj c, _, n, id, h, r, _, hc, e, ht => by
    cases e
    cases n with
    | zero => cases ht
    | succ m => cases ht; exact ⟨_, rfl, id, rfl⟩
  | .me, _, n, id, h, r, _, hc, e, ht => by
    cases e
    cases n with
    | zero => cases ht
    | succ m => cases ht; exact ⟨_, rfl, id, rfl⟩
  | .choice cid args ahead dec keys opts other, bo, n, id, h, r, hg, hc, e, ht => by
    simp only [Fmt.good, Bool.and_eq_true, decide_eq_true_eq] at hg
    obtain ⟨⟨⟨⟨_, hg1⟩, hg2⟩, _⟩, hg3, hg4⟩ := hg
    simp only [Fmt.hint] at e
    obtain ⟨os, h1, e⟩ := Except.bind_ok' e
    obtain ⟨ds, h2, e⟩ := Except.bind_ok' e
    have dflt : ∀ {d : Ser}, dfltOf ctx N cid ds.head? = .ok d → ∃ ds', Fmt.IsL ctx.clsFinal .default other ds' ∧ d = ds'.headD .null := by
      intro d hd
      have hc2 : Calls ctx (Fmt.allCalls other) := hc.mem fun p hp => by simp [Fmt.calls, hp]
      match other, hg2, hg3, h2, hc2 with
      | [], _, _, h2, _ => cases h2; cases hd; exact ⟨[], rfl, rfl⟩
      | [g], hg2, _, h2, hc2 =>
        simp only [Fmt.hints] at h2
        obtain ⟨hh, k1, h2⟩ := Except.bind_ok' h2
        cases h2
        simp only [List.head?_cons, dfltOf, validateSerializer] at hd
        obtain ⟨t, k2, hd⟩ := Except.bind_ok' hd
        simp only [Fmt.goods, Bool.and_true] at hg2
        obtain ⟨s, rfl, k3⟩ := hint_is g hg2 (hc2.mem fun p hp => by simp [Fmt.allCalls, hp]) k1 k2
        simp only at hd
        split at hd
        · cases hd
        · cases hd; exact ⟨[d], ⟨d, [], rfl, k3, rfl⟩, rfl⟩
    cases ahead with
    | none =>
      obtain ⟨x, h3, e⟩ := Except.bind_ok' e
      cases e
      obtain ⟨d, ss, h4, h5, h3⟩ := lookback_ok h3
      cases h3
      cases union_transform ht
      obtain ⟨ds', k1, rfl⟩ := dflt h4
      exact ⟨_, rfl, ss, ds', valids_is opts hg1 (hc.mem fun p hp => by simp [Fmt.calls, hp]) h1 h5, k1, .inl ⟨rfl, rfl⟩⟩
    | some a =>
      obtain ⟨ha, h8, e⟩ := Except.bind_ok' e
      obtain ⟨x, h3, e⟩ := Except.bind_ok' e
      cases e
      obtain ⟨d, ss, ra, h4, h5, h6, h3⟩ := lookahead_ok h3
      obtain ⟨s, e, st, rfl, h7⟩ := ahead_is hg4 h8 h6
      cases e
      cases h3
      cases union_transform ht
      obtain ⟨ds', k1, rfl⟩ := dflt h4
      exact ⟨_, rfl, ss, ds', valids_is opts hg1 (hc.mem fun p hp => by simp [Fmt.calls, hp]) h1 h5, k1, .inr ⟨a, st, rfl, h7, rfl⟩⟩
theorem valids_is : ∀ (fs : List Fmt) {bo : ByteOrder} {n j : Nat} {id : SerId} {hs : List Hint} {ss : List Ser}, Fmt.goods bo fs = true → Calls ctx (Fmt.allCalls fs) →
    Fmt.hints ctx N fs = .ok hs → validateList ctx n id j hs = .ok ss → Fmt.IsL ctx.clsFinal .default fs ss
  | [], _, n, j, id, _, _, _, _, e, ht => by cases e; cases ht; rfl
  | f :: fs, bo, n, j, id, _, _, hg, hc, e, ht => by
    simp only [Fmt.goods, Bool.and_eq_true] at hg
    simp only [Fmt.hints] at e
    obtain ⟨h, h1, e⟩ := Except.bind_ok' e
    obtain ⟨hs, h2, e⟩ := Except.bind_ok' e
    cases e
    simp only [validateList] at ht
    obtain ⟨s, h3, ht⟩ := Except.bind_ok' ht
    obtain ⟨ss, h4, ht⟩ := Except.bind_ok' ht
    cases ht
    obtain ⟨t, h5, h3⟩ := Except.bind_ok' h3
    obtain ⟨s', rfl, h6⟩ := hint_is f hg.1 (hc.mem fun p hp => by simp [Fmt.allCalls, hp]) h1 h5
    simp only at h3
    split at h3
    · cases h3
    · cases h3
      exact ⟨s, ss, rfl, h6, valids_is fs hg.2 (hc.mem fun p hp => by simp [Fmt.allCalls, hp]) h2 h4⟩
theorem hints_written : ∀ (fs : List Fmt) {hs : List Hint}, Fmt.hints ctx N fs = .ok hs → (∀ h ∈ hs, h.written = true) ∧ hs.length = fs.length
  | [], _, e => by cases e; simp
  | f :: fs, _, e => by
    simp only [Fmt.hints] at e
    obtain ⟨h, h1, e⟩ := Except.bind_ok' e
    obtain ⟨hs, h2, e⟩ := Except.bind_ok' e
    cases e
    obtain ⟨g1, g2⟩ := hints_written fs h2
    refine ⟨?_, by simp [g2]⟩
    intro x hx
    simp only [List.mem_cons] at hx
    rcases hx with rfl | hx
    · exact hint_written f h1
    · exact g1 x hx
theorem hints_is : ∀ (fs : List Fmt) {bo : ByteOrder} {n j : Nat} {id : SerId} {hs rs : List Hint}, Fmt.goods bo fs = true → Calls ctx (Fmt.allCalls fs) →
    Fmt.hints ctx N fs = .ok hs → subList (transform ctx n) id j hs = .ok rs →
    ∃ ss, rs = ss.map .ser ∧ Fmt.IsL ctx.clsFinal .default fs ss
  | [], _, n, j, id, _, _, _, _, e, ht => by cases e; cases ht; exact ⟨[], rfl, rfl⟩
  | f :: fs, bo, n, j, id, _, _, hg, hc, e, ht => by
    simp only [Fmt.goods, Bool.and_eq_true] at hg
    simp only [Fmt.hints] at e
    obtain ⟨h, h1, e⟩ := Except.bind_ok' e
    obtain ⟨hs, h2, e⟩ := Except.bind_ok' e
    cases e
    simp only [subList] at ht
    obtain ⟨r, h3, ht⟩ := Except.bind_ok' ht
    obtain ⟨rs, h4, ht⟩ := Except.bind_ok' ht
    cases ht
    obtain ⟨s, rfl, h5⟩ := hint_is f hg.1 (hc.mem fun p hp => by simp [Fmt.allCalls, hp]) h1 h3
    obtain ⟨ss, rfl, h6⟩ := hints_is fs hg.2 (hc.mem fun p hp => by simp [Fmt.allCalls, hp]) h2 h4
    exact ⟨s :: ss, rfl, s, ss, rfl, h5, h6⟩
end

theorem flatMetas_snoc (c : Decider) (ds : List Val) : ∀ ms : List Hint, Hint.flatMetas (ms ++ [.cond c ds]) = Hint.flatMetas ms ++ [.cond c ds]
  | [] => rfl
  | m :: ms => by simp only [List.cons_append, Hint.flatMetas, flatMetas_snoc c ds ms, List.append_assoc]

theorem flatten_annotate (h : Hint) (c : Decider) (ds : List Val) : (annotate h [.cond c ds]).flatten = h.flatten ++ [.cond c ds] := by
  cases h <;> simp only [annotate, Hint.flatten, Hint.flatMeta, Hint.flatMetas, List.append_nil]
  rw [flatMetas_snoc, List.append_assoc]

theorem steps_snoc {f : Hint → Hint → Except Err Hint} {a : Hint} : ∀ (as : List Hint) (b r : Hint), steps f b (as ++ [a]) = .ok r →
    ∃ b', steps f b as = .ok b' ∧ f b' a = .ok r
  | [], b, r, h => by
    obtain ⟨b', h1, h2⟩ := Except.bind_ok' h
    cases h2
    exact ⟨b, rfl, h1⟩
  | x :: as, b, r, h => by
    obtain ⟨b', h1, h2⟩ := Except.bind_ok' h
    obtain ⟨b2, h3, h4⟩ := steps_snoc as b' r h2
    refine ⟨b2, ?_, h4⟩
    show (f b x >>= fun y => steps f y as) = _
    rw [h1]
    exact h3

theorem cond_transform {n : Nat} {id : SerId} {h r : Hint} {c : Decider} {d : Val} (ht : transform ctx n id (annotate h [.cond c [d]]) = .ok r)
    (hw : h.written = true) (hs : ∀ t, transform ctx n id h = .ok t → ∃ s, t = .ser s) : ∃ s, transform ctx n id h = .ok (.ser s) ∧ r = .ser (.cond s c [d]) := by
  cases n with
  | zero => cases ht
  | succ m =>
    simp only [transform, flatten_annotate] at ht hs ⊢
    cases hf : h.flatten with
    | nil => exact absurd hf (written_flatten hw)
    | cons b as =>
      rw [hf] at ht hs
      simp only [List.cons_append] at ht
      simp only at hs ⊢
      rw [show Hint.noneT :: (as ++ [.cond c [d]]) = (Hint.noneT :: as) ++ [.cond c [d]] from rfl] at ht
      obtain ⟨b', h1, h2⟩ := steps_snoc _ _ _ ht
      obtain ⟨s, rfl⟩ := hs b' h1
      refine ⟨s, h1, ?_⟩
      have e : step ctx (transform ctx m) id (.ser s) (.cond c [d]) = (condStep (.ser s) (.cond c [d]) >>= fun b =>
        unionStep (transform ctx m) id b (.cond c [d]) >>= fun b => selfStep id b >>= fun b => structuredStep ctx id b >>=
        fun b => indexingStep b (.cond c [d]) >>= fun b => finalStep b (.cond c [d])) := rfl
      rw [e] at h2
      obtain ⟨b2, h3, h4⟩ := Except.bind_ok' h2
      simp only [condStep] at h3
      split at h3
      · cases h3
      · cases h3; cases h4; rfl

/-- What is written for a field is turned into a serializer of the field. -/
theorem field_is {f : Field} {bo : ByteOrder} {n : Nat} {id : SerId} {h r : Hint} (hg : f.good bo = true) (hc : Calls ctx f.calls)
    (e : f.hint ctx N = .ok h)
    (ht : transform ctx n id h = .ok r) : ∃ s, r = .ser s ∧ f.Is ctx.clsFinal .default s ∧ (f.isPad = true → s.isPad = true) := by
  cases f with
  | value a f =>
    obtain ⟨s, h1, h2⟩ := hint_is f hg hc e ht
    exact ⟨s, h1, h2, by nofun⟩
  | pad a k =>
    simp only [Field.good, decide_eq_true_eq] at hg
    obtain ⟨s, h1, h2, h3, h4, h5, h6, h7⟩ := padChar_matmul k hg
    simp only [Field.hint, mkPad, h1, bind, Except.bind] at e
    cases e
    refine ⟨_, ser_transform rfl ht, ⟨s, rfl, ⟨h6, h2, h5, h3, ?_, ?_⟩⟩, fun _ => h7⟩
    · exact h4
    · obtain ⟨ds, ch, hf, hd, hc⟩ := h5
      obtain ⟨c, hc⟩ := Option.isSome_iff_exists.1 hc
      have hp := StructSer.parse_base h6.fmt
      rw [h2, h3, hf, parse_item _ ds hd ch c hc []] at hp
      simp only [parse, parseAux] at hp
      rw [h3, hf, parse_item false ds hd ch c hc []]
      have hx : c = .pad := by
        simp at hp
        exact hp.2.2
      subst hx
      simpa [parse, parseAux, Code.nativeOnly] using hp
  | «when» a c f d =>
    simp only [Field.good, Bool.and_eq_true] at hg
    simp only [Field.hint] at e
    obtain ⟨h', h1, e⟩ := Except.bind_ok' e
    cases e
    obtain ⟨s, h2, rfl⟩ := cond_transform ht (hint_written f h1) (fun t k => by
      obtain ⟨s, rfl, _⟩ := hint_is f hg.1 hc h1 k
      exact ⟨s, rfl⟩)
    obtain ⟨s', k1, k2⟩ := hint_is f hg.1 hc h1 h2
    cases k1
    exact ⟨_, rfl, ⟨s, rfl, k2⟩, by nofun⟩

end Verif
