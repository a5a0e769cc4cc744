import Verif.Proofs.HintLemmas
import Verif.Samples
/-
C39: what becomes of a type hint.
-/
namespace Verif.Samples

/-- Nothing is final, no generic class can be specialized, every type accepts every value. -/
def hctx : HintCtx := ⟨fun c => c == 3, fun _ _ => .error .typeError, fun id _ _ => id, fun _ _ => [9], fun _ => .ok⟩

def int8H : Hint := basicHint "int" 'b'
def uint8H : Hint := basicHint "int" 'B'
def uint16H : Hint := basicHint "int" 'H'

end Verif.Samples

namespace Verif
open Spec Samples

variable {ctx : HintCtx} {id : SerId}

theorem layered_proper {h : Hint} (hp : proper h = true) (layers : List (List Hint)) : proper (layered h layers) = true := by
  induction layers generalizing h with
  | nil => exact hp
  | cons l ls ih => exact ih (proper_annotate hp l)

/-- **C39** (nesting).  Any number of `Annotated` layers around a hint, with metadata the library takes no interest in,
changes nothing: not the serializer, not whether there is one, not the exception. -/
theorem C39_layers {h : Hint} {layers : List (List Hint)} (hp : proper h = true) (hl : ∀ l ∈ layers, inertAll l = true)
    (n : Nat) (id : SerId) : transform ctx n id (layered h layers) = transform ctx n id h := by
  cases n with
  | zero => rfl
  | succ n =>
    induction layers generalizing h with
    | nil => rfl
    | cons l ls ih =>
      have h1 := ih (proper_annotate hp l) (fun x hx => hl x (by simp [hx]))
      show transform ctx (n + 1) id (layered (annotate h l) ls) = _
      rw [h1, transform_annotate hp]
      cases ht : transform ctx (n + 1) id h with
      | error e => rfl
      | ok r => exact steps_settled (fun a ha => transform_settled hp ht ha) (hl l (by simp))

/-- `Annotated[Annotated[int, int8, 'doc'], Annotated[str, 5], Point]` has the serializer of `int8`. -/
example : (∀ l ∈ [[Hint.plain "doc"], [.annot (.plain "str") [.int 5], .cls 0]], inertAll l = true) ∧ proper int8H = true ∧
    transform hctx 1 [1] (layered int8H [[.plain "doc"], [.annot (.plain "str") [.int 5], .cls 0]]) =
      .ok (.ser (.struct ⟨['b'], none⟩)) := ⟨by decide, rfl, by rfl⟩

/-- **C39** (serializers in metadata).  A serializer in the metadata, at any depth of nested `Annotated`s, is what the
hint stands for: `Annotated[int, int8]` is `int8`, whatever the first argument is. -/
theorem C39_innermost {n : Nat} {h b : Hint} {ms pre post : List Hint} {s : Ser} (hp : proper h = true)
    (ht : transform ctx (n + 1) id h = .ok b) (hm : Hint.flatMetas ms = pre ++ .ser s :: post) (h1 : pre.all inert = true)
    (h2 : post.all inert = true) (hs : s.isUnion = false) : transform ctx (n + 1) id (annotate h ms) = .ok (.ser s) := by
  rw [transform_annotate hp, ht, hm]
  show steps (step ctx (transform ctx n) id) b (pre ++ .ser s :: post) = _
  rw [steps_append, steps_settled (fun a ha => transform_settled hp ht ha) h1]
  show steps (step ctx (transform ctx n) id) b (.ser s :: post) = _
  rw [steps]
  have key : step ctx (transform ctx n) id b (.ser s) = .ok (.ser s) := by
    have hn : step ctx (transform ctx n) id b .noneT = .ok b := transform_settled hp ht rfl
    unfold step at hn ⊢
    obtain ⟨b1, e1, hn⟩ := Except.bind_ok' hn
    obtain ⟨b2, e2, hn⟩ := Except.bind_ok' hn
    cases e2
    obtain ⟨b3, e3, hn⟩ := Except.bind_ok' hn
    cases e3
    obtain ⟨b4, e4, hn⟩ := Except.bind_ok' hn
    cases e4
    obtain ⟨b5, e5, hn⟩ := Except.bind_ok' hn
    obtain ⟨b6, e6, hn⟩ := Except.bind_ok' hn
    obtain ⟨b7, e7, hn⟩ := Except.bind_ok' hn
    have e7' : indexingStep b6 (.ser s) = .ok b7 := by
      cases b6 <;> first | exact e7 | cases e7
    have e4' : unionStep (transform ctx n) id b1 (.ser s) = .ok b1 := by
      unfold unionStep
      simp only [hs]
      rfl
    rw [e1]
    show (unionStep (transform ctx n) id b1 (.ser s) >>= fun b => _) = _
    rw [e4']
    show (selfStep id b1 >>= fun b => _) = _
    rw [e5]
    show (structuredStep ctx id b5 >>= fun b => _) = _
    rw [e6]
    show (indexingStep b6 (.ser s) >>= fun b => _) = _
    rw [e7']
    rfl
  rw [key]
  exact steps_settled (fun a ha => step_ser_inert ha) h2

/-- `Annotated[bytes, Annotated[list, 3, Annotated[int, int8]], None]` -/
example : Hint.flatMetas [.annot (.plain "list") [.int 3, .annot (.plain "int") [int8H]], .noneT] =
      [.int 3] ++ .ser (.struct ⟨['b'], none⟩) :: [.noneT] ∧
    transform hctx 1 [1] (annotate (.plain "bytes") [.annot (.plain "list") [.int 3, .annot (.plain "int") [int8H]], .noneT]) =
      .ok (.ser (.struct ⟨['b'], none⟩)) := ⟨rfl, by rfl⟩

theorem steps_one {f : Hint → Hint → Except Err Hint} (b a : Hint) : steps f b [a] = f b a := by
  rw [steps]
  cases f b a <;> rfl

/-- **C39** (`Condition`).  A `Condition` applies to the hint it is attached to: the serializer of that hint is made
conditional.  Without a serializer there, or with the wrong number of defaults, the class cannot be made. -/
theorem C39_condition {n : Nat} {h : Hint} (hp : proper h = true) (c : Decider) (defaults : List Val) :
    transform ctx (n + 1) id (annotate h [.cond c defaults]) =
      (match transform ctx (n + 1) id h with
      | .error e => .error e
      | .ok (.ser s) => if s.numValues = defaults.length then .ok (.ser (.cond s c defaults)) else .error .valueError
      | .ok _ => .error .typeError) := by
  rw [transform_annotate hp]
  cases ht : transform ctx (n + 1) id h with
  | error e => rfl
  | ok b =>
    show steps (step ctx (transform ctx n) id) b [.cond c defaults] = _
    rw [steps_one]
    have hn : step ctx (transform ctx n) id b .noneT = .ok b := transform_settled hp ht rfl
    unfold step at hn ⊢
    obtain ⟨b1, e1, hn⟩ := Except.bind_ok' hn
    rw [e1]
    show (condStep b1 (.cond c defaults) >>= fun b => _) = _
    have hb : b1 = b := by
      rcases step_cases (transform_settled hp ht (a := .noneT) rfl) with ⟨s, rfl⟩ | ⟨h1, _⟩
      · cases e1; rfl
      · rw [h1] at e1; cases e1; rfl
    rw [hb]
    cases b with
    | ser s =>
      simp only [condStep]
      by_cases hl : s.numValues = defaults.length
      · rw [if_neg (by simp [hl])]; simp only [hl]; rfl
      · rw [if_pos hl]; simp only [hl]; rfl
    | _ => rfl

/-- A `Condition` on `uint8`, with one default, with none, and on a type without serializer. -/
example : transform hctx 1 [1] (annotate uint8H [.cond kindOf [.int 7]]) =
      .ok (.ser (.cond (.struct ⟨['B'], none⟩) kindOf [.int 7])) ∧
    transform hctx 1 [1] (annotate uint8H [.cond kindOf []]) = .error .valueError ∧
    transform hctx 1 [1] (annotate (.plain "int") [.cond kindOf [.int 7]]) = .error .typeError := ⟨by rfl, by rfl, by rfl⟩

/-- **C39** (`SerializeAs`).  A type annotated with `SerializeAs(...)` gets the struct serializer named there, and values
are made by calling the type the annotation is attached to; with a factory, by calling the factory. -/
theorem C39_serialize_as {n : Nat} {name : String} {layers : List (List Hint)} (hl : ∀ l ∈ layers, inertAll l = true)
    (st : StructSer) :
    transform ctx (n + 1) id (annotate (layered (.plain name) layers) [.serAs st]) =
      (match st.actions with
      | none => (StructSer.mkActions st.format .default [ctx.call name]).map fun s => .ser (.struct s)
      | some _ => .ok (.ser (.struct st))) := by
  rw [transform_annotate (layered_proper rfl layers), C39_layers rfl hl]
  show steps (step ctx (transform ctx n) id) (.plain name) [.serAs st] = _
  rw [steps_one]
  cases ha : st.actions with
  | none =>
    unfold step
    show (serAsStep ctx (.plain name) (.serAs st) >>= fun b => _) = _
    unfold serAsStep
    simp only [ha]
    show ((StructSer.mkActions st.format .default [ctx.call name] >>= fun s => Except.ok (Hint.ser (.struct s))) >>= _) = _
    cases StructSer.mkActions st.format .default [ctx.call name] <;> rfl
  | some as =>
    unfold step
    show (serAsStep ctx (.plain name) (.serAs st) >>= fun b => _) = _
    unfold serAsStep
    simp only [ha]
    rfl

example : transform hctx 1 [1] (annotate (.annot (.plain "Flags") [.plain "doc"]) [.serAs ⟨['I'], none⟩]) =
    .ok (.ser (.struct ⟨['I'], some [.ok]⟩)) := by rfl

/-- **C39** (unions).  A decider belongs to a union; on anything else, and on a union without members, it is a `TypeError`. -/
theorem C39_union {n : Nat} {h b : Hint} {s : Ser} (hp : proper h = true) (ht : transform ctx (n + 1) id h = .ok b)
    (hu : (∃ i c keys os d, s = .lookback i c keys os d) ∨ ∃ i a c keys os d, s = .lookahead i a c keys os d) :
    ((∀ args, args ≠ [] → b ≠ .union args) → transform ctx (n + 1) id (annotate h [.ser s]) = .error .typeError) ∧
    (∀ args ts, b = .union args → args ≠ [] → subList (transform ctx n) id 0 args = .ok ts →
      transform ctx (n + 1) id (annotate h [.ser s]) = .ok (.ser s)) := by
  have hs : s.isUnion = true := by rcases hu with ⟨_, _, _, _, _, rfl⟩ | ⟨_, _, _, _, _, _, rfl⟩ <;> rfl
  have hb : ∀ b1, tupleStep ctx (transform ctx n) id b = .ok b1 → b1 = b := by
    intro b1 e1
    rcases step_cases (transform_settled hp ht (a := .noneT) rfl) with ⟨s, rfl⟩ | ⟨h1, _⟩
    · cases e1; rfl
    · rw [h1] at e1; cases e1; rfl
  have hn : step ctx (transform ctx n) id b .noneT = .ok b := transform_settled hp ht rfl
  unfold step at hn
  obtain ⟨b1, e1, hn⟩ := Except.bind_ok' hn
  cases hb b1 e1
  have start : transform ctx (n + 1) id (annotate h [.ser s]) = (unionStep (transform ctx n) id b (.ser s) >>= fun b => do
      let b ← selfStep id b
      let b ← structuredStep ctx id b
      let b ← indexingStep b (.ser s)
      finalStep b (.ser s)) := by
    rw [transform_annotate hp, ht]
    show steps (step ctx (transform ctx n) id) b [.ser s] = _
    rw [steps_one]
    unfold step
    rw [e1]
    rfl
  rw [start]
  constructor
  · intro hne
    have : unionStep (transform ctx n) id b (.ser s) = .error .typeError := by
      unfold unionStep
      simp only [hs, if_true]
      clear hn e1 start hb ht hp
      split
      · rename_i args
        by_cases h0 : args = []
        · rw [h0]; rfl
        · exact absurd rfl (hne args h0)
      · rfl
    rw [this]; rfl
  · rintro args ts rfl h0 hts
    have hem : args.isEmpty = false := by cases args <;> first | exact absurd rfl h0 | rfl
    have : unionStep (transform ctx n) id (.union args) (.ser s) = .ok (.ser s) ∨
        unionStep (transform ctx n) id (.union args) (.ser s) = .ok (.union args) := by
      unfold unionStep
      simp only [hs, hem, hts, bind, Except.bind]
      cases hq : Hint.sers? ts with
      | some _ => left; simp
      | none => right; simp
    rcases this with h | h <;> rw [h] <;> rfl

/-- `Annotated[uint8 | Point, LookbackDecider(...)]`, and the same decider on `uint8`. -/
example : transform hctx 2 [1] (annotate (.union [uint8H, .cls 0]) [.ser (.lookback [5] kindOf [.int 0] [.struct u8] .null)]) =
      .ok (.ser (.lookback [5] kindOf [.int 0] [.struct u8] .null)) ∧
    transform hctx 2 [1] (annotate uint8H [.ser (.lookback [5] kindOf [.int 0] [.struct u8] .null)]) = .error .typeError :=
  ⟨by rfl, by rfl⟩

/-! ### What is not a field -/

theorem step_uninteresting {sub : SerId → Hint → Except Err Hint} {b a r : Hint} (hb : serializableType b = false)
    (ha : serializing a = false) (h : step ctx sub id b a = .ok r) : r = b := by
  have e1 : tupleStep ctx sub id b = .ok b := by
    unfold tupleStep
    split
    · cases hb
    · rfl
  unfold step at h
  rw [e1] at h
  cases a with
  | ser _ => cases ha
  | serAs _ => cases ha
  | cond c ds => cases b <;> first | cases h | cases hb
  | unindexed x => cases b <;> first | cases h | cases hb
  | _ => cases b <;> first | cases hb; done | (cases h; rfl) | cases h

/-- **C39** (fields).  An annotation is a field only if its type is a `Structured` class, `Self`, a tuple of fixed length
or a serializer, or something in its metadata (at any depth) is a serializer or a `SerializeAs`.  All others (`int`,
`list[int]`, unions without decider, variables, `ClassVar`s of anything) are left alone. -/
theorem C39_not_a_field {n : Nat} {h : Hint} {s : Ser} (hp : proper h = true)
    (ht : transformTypehint ctx n id h = .ok (some s)) :
    (∀ x, h ≠ .classVar x) ∧ (serializableType h.base = true ∨ ∃ m ∈ Hint.flatMetas h.metas, serializing m = true) := by
  refine ⟨fun x hx => (by rw [hx] at ht; cases ht), ?_⟩
  have ht' : transform ctx n id h = .ok (.ser s) := by
    have e : transformTypehint ctx n id h = (do .ok (← transform ctx n id h).ser?) := by
      cases h <;> first | rfl | cases ht
    rw [e] at ht
    obtain ⟨r, h1, h2⟩ := Except.bind_ok' ht
    rw [h1]
    cases r <;> first | (cases h2; rfl) | cases h2
  cases n with
  | zero => cases ht'
  | succ n =>
    by_cases hb : serializableType h.base = true
    · exact .inl hb
    right
    rw [transform_eq hp] at ht'
    have hb' : serializableType h.base = false := by simpa using hb
    apply Classical.byContradiction
    intro hno
    have hno' : ∀ m ∈ (.noneT :: Hint.flatMetas h.metas), serializing m = false := by
      intro m hm
      rcases List.mem_cons.1 hm with rfl | hm
      · rfl
      · cases hs : serializing m with
        | false => rfl
        | true => exact absurd ⟨m, hm, hs⟩ hno
    have key : ∀ (as : List Hint) (r : Hint), (∀ m ∈ as, serializing m = false) →
        steps (step ctx (transform ctx n) id) h.base as = .ok r → r = h.base := by
      intro as
      induction as with
      | nil => intro r _ hr; cases hr; rfl
      | cons a as ih =>
        intro r hs hr
        rw [steps] at hr
        obtain ⟨c, h1, h2⟩ := Except.bind_ok' hr
        cases step_uninteresting hb' (hs a (by simp)) h1
        exact ih r (fun m hm => hs m (by simp [hm])) h2
    have := key _ _ hno' ht'
    rw [← this] at hb'
    cases hb'

/-- `int`, `tuple[uint8, ...]`, `ClassVar[uint8]` and `uint8 | Point` are not fields, `tuple[uint8, Point]` is one. -/
example : transformTypehint hctx 3 [1] (.plain "int") = .ok none ∧
    transformTypehint hctx 3 [1] (.tup [uint8H] true) = .ok none ∧
    transformTypehint hctx 3 [1] (.classVar uint8H) = .ok none ∧
    transformTypehint hctx 3 [1] (.union [uint8H, .cls 0]) = .ok none ∧
    transformTypehint hctx 3 [1] (.tup [uint8H, .cls 0] false) =
      .ok (some (.tuple [1] (.compound [6, 1] [.struct u8, .structured [8, 1] 0]))) :=
  ⟨by rfl, by rfl, by rfl, by rfl, by rfl⟩

theorem step_unindexed {sub : SerId → Hint → Except Err Hint} {b r : Hint} {x : String} :
    step ctx sub id b (.unindexed x) ≠ .ok r := by
  intro h
  unfold step at h
  obtain ⟨b1, _, h⟩ := Except.bind_ok' h
  obtain ⟨b2, _, h⟩ := Except.bind_ok' h
  obtain ⟨b3, _, h⟩ := Except.bind_ok' h
  obtain ⟨b4, _, h⟩ := Except.bind_ok' h
  obtain ⟨b5, _, h⟩ := Except.bind_ok' h
  obtain ⟨b6, _, h⟩ := Except.bind_ok' h
  obtain ⟨b7, h7, h⟩ := Except.bind_ok' h
  cases b6 <;> cases h7

/-- **C39** (unindexed types).  `char`, `unicode`, `array`, `pad`, `pascal` without brackets: a `TypeError`; the same as
metadata of a hint that is in order, and never accepted anywhere in the metadata. -/
theorem C39_unindexed {n : Nat} {h : Hint} {x : String} (hp : proper h = true) :
    (h.base = .unindexed x → transform ctx (n + 1) id h = .error .typeError) ∧
    (∀ b, transform ctx (n + 1) id h = .ok b → transform ctx (n + 1) id (annotate h [.unindexed x]) = .error .typeError) ∧
    (.unindexed x ∈ Hint.flatMetas h.metas → ∃ e, transform ctx (n + 1) id h = .error e) := by
  refine ⟨fun hb => ?_, fun b ht => ?_, fun hm => ?_⟩
  · rw [transform_eq hp, hb]; rfl
  · rw [transform_annotate hp, ht]
    show steps (step ctx (transform ctx n) id) b [.unindexed x] = _
    rw [steps_one]
    have hn : step ctx (transform ctx n) id b .noneT = .ok b := transform_settled hp ht rfl
    unfold step at hn ⊢
    obtain ⟨b1, e1, hn⟩ := Except.bind_ok' hn
    rw [e1]
    show (selfStep id b1 >>= fun b => _) = _
    obtain ⟨b2, e2, hn⟩ := Except.bind_ok' hn
    cases e2
    obtain ⟨b3, e3, hn⟩ := Except.bind_ok' hn
    cases e3
    obtain ⟨b4, e4, hn⟩ := Except.bind_ok' hn
    cases e4
    obtain ⟨b5, e5, hn⟩ := Except.bind_ok' hn
    obtain ⟨b6, e6, hn⟩ := Except.bind_ok' hn
    rw [e5]
    show (structuredStep ctx id b5 >>= fun b => _) = _
    rw [e6]
    cases b6 <;> rfl
  · cases ht : transform ctx (n + 1) id h with
    | error e => exact ⟨e, rfl⟩
    | ok r =>
      exfalso
      rw [transform_eq hp] at ht
      have hm' : .unindexed x ∈ (.noneT :: Hint.flatMetas h.metas) := by simp [hm]
      obtain ⟨pre, post, he⟩ := List.append_of_mem hm'
      rw [he, steps_append] at ht
      obtain ⟨c, _, h2⟩ := Except.bind_ok' ht
      rw [steps] at h2
      obtain ⟨d, h3, _⟩ := Except.bind_ok' h2
      exact step_unindexed h3

example : transform hctx 1 [1] (.unindexed "array") = .error .typeError ∧
    transform hctx 1 [1] (annotate int8H [.annot (.plain "x") [.unindexed "char"]]) = .error .typeError := ⟨by rfl, by rfl⟩

/-! ### C21: making a union -/

theorem validate_ok {n : Nat} {h : Hint} {s : Ser} (hv : validateSerializer ctx n id h = .ok s) :
    transform ctx n id h = .ok (.ser s) ∧ s.numValues = 1 := by
  unfold validateSerializer at hv
  obtain ⟨r, h1, h2⟩ := Except.bind_ok' hv
  cases r with
  | ser x =>
    simp only at h2
    by_cases hx : x.numValues = 1
    · rw [if_neg (by simp [hx])] at h2
      cases h2
      exact ⟨h1, hx⟩
    · rw [if_pos hx] at h2
      cases h2
  | _ => cases h2

theorem validateList_ok {n : Nat} : ∀ {hs : List Hint} {j : Nat} {ss : List Ser}, validateList ctx n id j hs = .ok ss →
    ss.length = hs.length ∧ ∀ i (hi : i < hs.length) (hi' : i < ss.length),
      transform ctx n ((j + i + 7) :: id) hs[i] = .ok (.ser ss[i]) ∧ ss[i].numValues = 1
  | [], _, ss, h => by
    cases h
    exact ⟨rfl, fun i hi => absurd hi (Nat.not_lt_zero i)⟩
  | h :: hs, j, ss, hv => by
    unfold validateList at hv
    obtain ⟨s, h1, hv⟩ := Except.bind_ok' hv
    obtain ⟨ss', h2, hv⟩ := Except.bind_ok' hv
    cases hv
    obtain ⟨hl, hr⟩ := validateList_ok h2
    refine ⟨by simp [hl], fun i hi hi' => ?_⟩
    cases i with
    | zero => exact validate_ok h1
    | succ i =>
      have := hr i (by simpa using hi) (by simpa using hi')
      rw [show j + 1 + i + 7 = j + (i + 1) + 7 by omega] at this
      exact this

theorem default_ok {n : Nat} {dflt : Option Hint} {d : Ser}
    (h : (match dflt with | none => Except.ok Ser.null | some h => validateSerializer ctx n id h) = .ok d) :
    (dflt = none → d = .null) ∧ ∀ x, dflt = some x → transform ctx n id x = .ok (.ser d) ∧ d.numValues = 1 := by
  cases dflt with
  | none => cases h; exact ⟨fun _ => rfl, fun _ hx => by cases hx⟩
  | some y =>
    refine ⟨fun hx => (by cases hx), fun x hx => ?_⟩
    cases hx
    exact validate_ok h

/-- **C21** (making the decider).  The options of a decider are the serializers of the types in the map, in order, and each
of them holds exactly one value; so does the default, if there is one.  Anything else is refused. -/
theorem C21_construction {n : Nat} {dec : Decider} {keys : List Val} {opts : List Hint} {dflt : Option Hint} {r : Hint} :
    (mkLookback ctx n id dec keys opts dflt = .ok r → ∃ os d, r = .ser (.lookback id dec keys os d) ∧
      os.length = opts.length ∧
      (∀ i (hi : i < opts.length) (hi' : i < os.length),
        transform ctx n ((i + 7) :: id) opts[i] = .ok (.ser os[i]) ∧ os[i].numValues = 1) ∧
      (dflt = none → d = .null) ∧
      ∀ x, dflt = some x → transform ctx n (6 :: id) x = .ok (.ser d) ∧ d.numValues = 1) ∧
    (∀ ra, mkLookahead ctx n id ra dec keys opts dflt = .ok r → ∃ os d s, r = .ser (.lookahead id s dec keys os d) ∧
      transform ctx n (5 :: id) ra = .ok (.ser s) ∧ os.length = opts.length ∧
      (∀ i (hi : i < opts.length) (hi' : i < os.length),
        transform ctx n ((i + 7) :: id) opts[i] = .ok (.ser os[i]) ∧ os[i].numValues = 1) ∧
      (dflt = none → d = .null) ∧
      ∀ x, dflt = some x → transform ctx n (6 :: id) x = .ok (.ser d) ∧ d.numValues = 1) := by
  have fix : ∀ {os : List Ser}, validateList ctx n id 0 opts = .ok os → os.length = opts.length ∧
      ∀ i (hi : i < opts.length) (hi' : i < os.length),
        transform ctx n ((i + 7) :: id) opts[i] = .ok (.ser os[i]) ∧ os[i].numValues = 1 := by
    intro os h
    obtain ⟨h1, h2⟩ := validateList_ok h
    refine ⟨h1, fun i hi hi' => ?_⟩
    have := h2 i hi hi'
    rwa [Nat.zero_add] at this
  constructor
  · intro h
    replace h : ((match dflt with | none => Except.ok Ser.null | some h => validateSerializer ctx n (6 :: id) h) >>= fun d =>
        validateList ctx n id 0 opts >>= fun os => .ok (.ser (.lookback id dec keys os d))) = .ok r := by
      rw [← h]; cases dflt <;> rfl
    obtain ⟨d, h1, h⟩ := Except.bind_ok' h
    obtain ⟨os, h2, h⟩ := Except.bind_ok' h
    cases h
    obtain ⟨h3, h4⟩ := fix h2
    obtain ⟨h5, h6⟩ := default_ok h1
    exact ⟨os, d, rfl, h3, h4, h5, h6⟩
  · intro ra h
    replace h : ((match dflt with | none => Except.ok Ser.null | some h => validateSerializer ctx n (6 :: id) h) >>= fun d =>
        validateList ctx n id 0 opts >>= fun os => transform ctx n (5 :: id) ra >>= fun t => match t with
          | .ser s => .ok (.ser (.lookahead id s dec keys os d))
          | _ => .error .typeError) = .ok r := by
      rw [← h]; cases dflt <;> rfl
    obtain ⟨d, h1, h⟩ := Except.bind_ok' h
    obtain ⟨os, h2, h⟩ := Except.bind_ok' h
    obtain ⟨t, h0, h⟩ := Except.bind_ok' h
    obtain ⟨h3, h4⟩ := fix h2
    obtain ⟨h5, h6⟩ := default_ok h1
    cases t with
    | ser s => cases h; exact ⟨os, d, s, rfl, h0, h3, h4, h5, h6⟩
    | _ => cases h

/-- `{0: uint8, 1: char[2]}` with default `uint16`; a pad holds no value, a plain `int` has no serializer. -/
example : ((mkChar hctx (.int 2)) >>= fun c => mkLookback hctx 2 [1] kindOf [.int 0, .int 1] [uint8H, c] (some uint16H)) =
      .ok (.ser (.lookback [1] kindOf [.int 0, .int 1] [.struct u8, .struct ⟨"2s".toList, none⟩] (.struct ⟨['H'], none⟩))) ∧
    ((mkPad 2) >>= fun c => mkLookback hctx 2 [1] kindOf [.int 0, .int 1] [uint8H, c] none) = .error .valueError ∧
    mkLookback hctx 2 [1] kindOf [.int 0] [.plain "int"] none = .error .typeError ∧
    mkLookahead hctx 2 [1] (.plain "int") kindOf [.int 0] [uint8H] none = .error .typeError :=
  ⟨by rfl, by rfl, by rfl, by rfl⟩

/-- **C39** (metadata that is itself annotated).  An `Annotated` among the metadata counts as its own metadata, at any depth; its type does not. -/
theorem C39_annotated_metadata (n : Nat) (b y : Hint) (pre ms post : List Hint) :
    transform ctx n id (.annot b (pre ++ .annot y ms :: post)) = transform ctx n id (.annot b (pre ++ ms ++ post)) := by
  have app : ∀ xs ys : List Hint, Hint.flatMetas (xs ++ ys) = Hint.flatMetas xs ++ Hint.flatMetas ys := by
    intro xs ys
    induction xs with
    | nil => rfl
    | cons x xs ih => simp only [List.cons_append, Hint.flatMetas, ih, List.append_assoc]
  cases n with
  | zero => rfl
  | succ n =>
    have e : (Hint.annot b (pre ++ .annot y ms :: post)).flatten = (Hint.annot b (pre ++ ms ++ post)).flatten := by
      simp only [Hint.flatten, app, Hint.flatMetas, Hint.flatMeta, List.append_assoc]
    simp only [transform, e]

example : transform hctx 2 [1] (.annot (.plain "int") [.annot (.unindexed "char") [.ser (.struct ⟨['H'], none⟩)]]) = .ok (.ser (.struct ⟨['H'], none⟩)) := rfl

end Verif
