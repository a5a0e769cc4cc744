import Verif.Spec.Grows
import Verif.Proofs.Places
/-
Lemmas on later versions of a program.
-/
namespace Verif.Grow
open Spec Places

variable {α β : Type}

theorem keeps_refl (r : Parsed α) : Remains r r := fun _ h => h

theorem keeps_err {e : Err} {r : Parsed α} : Remains (.err e) r := nofun
theorem keeps_odd {r : Parsed α} : Remains .odd r := nofun
theorem keeps_deep {r : Parsed α} : Remains .deep r := nofun

theorem keeps_bind {r r' : Parsed α} (h : Remains r r') {f f' : α → Parsed β} (hf : ∀ a, Remains (f a) (f' a)) : Remains (r >>= f) (r' >>= f') := by
  intro b hb
  cases r with
  | ok a => rw [h a rfl]; exact hf a b hb
  | err | deep | odd => cases hb

theorem keyAt_more {keys more : List Val} {r : Val} {k : Nat} (h : keyAt keys r = some k) : keyAt (keys ++ more) r = some k := by
  unfold keyAt at h ⊢
  split at h
  · rw [if_pos (by assumption), List.findIdx?_append, h]; rfl
  · cases h

theorem basic_grows : ∀ {f g : Fmt}, f.Grows g → g.basic = f.basic
  | .int .., _, h | .bool, _, h | .half, _, h | .single, _, h | .double, _, h | .chars _, _, h | .pascal _, _, h | .via .., _, h | .counted _, _, h
  | .until _, _, h | .rest, _, h | .net, _, h | .text .., _, h | .obj _, _, h | .me, _, h => by simp only [Fmt.Grows] at h; rw [h]
  | .fixed .., _, h | .list .., _, h | .sized .., _, h => by
    simp only [Fmt.Grows] at h
    obtain ⟨_, rfl, _⟩ := h
    rfl
  | .tup _, _, h => by
    simp only [Fmt.Grows] at h
    obtain ⟨_, rfl, _⟩ := h
    rfl
  | .choice .., _, h => by
    simp only [Fmt.Grows] at h
    obtain ⟨_, _, _, _, _, rfl, _⟩ := h
    rfl

theorem all_basic : ∀ {fs gs : List Fmt}, gs.length = fs.length → Fmt.AllGrow fs gs → gs.all (·.basic.isSome) = fs.all (·.basic.isSome)
  | [], gs, hl, _ => by rw [List.length_eq_zero_iff.1 hl]
  | f :: fs, _, hl, h => by
    simp only [Fmt.AllGrow] at h
    obtain ⟨g, gs, rfl, h1, h2⟩ := h
    simp only [List.all_cons, basic_grows h1, all_basic (Nat.succ.inj hl) h2]

theorem front_grows : ∀ {fs gs : List Fmt}, gs.length = fs.length → Fmt.AllGrow fs gs → front gs = front fs
  | [], gs, hl, _ => by rw [List.length_eq_zero_iff.1 hl]
  | f :: fs, _, hl, h => by
    simp only [Fmt.AllGrow] at h
    obtain ⟨g, gs, rfl, h1, h2⟩ := h
    simp only [front, basic_grows h1, front_grows (Nat.succ.inj hl) h2]

theorem readMany_keeps {f f' : Bytes → Parsed (Val × Nat)} (h : ∀ b, Remains (f b) (f' b)) : ∀ n b, Remains (readMany f n b) (readMany f' n b)
  | 0, _ => keeps_refl _
  | n + 1, b => keeps_bind (h b) fun _ => keeps_bind (readMany_keeps h n _) fun _ => keeps_refl _

theorem putAll_keeps {f f' : Val → Parsed Bytes} (h : ∀ b, Remains (f b) (f' b)) : ∀ vs, Remains (putAll f vs) (putAll f' vs)
  | [] => keeps_refl _
  | v :: vs => keeps_bind (h v) fun _ => keeps_bind (putAll_keeps h vs) fun _ => keeps_refl _

section read
variable {P : Platform} {bo : ByteOrder} {cls cls' : ClassId → Bytes → Parsed (Val × Nat)}

mutual
theorem read_keeps (hc : ∀ c b, Remains (cls c b) (cls' c b)) (o : PObj) : ∀ {f g : Fmt}, f.Grows g → ∀ b, Remains (f.read P bo cls o b) (g.read P bo cls' o b)
  | .int .., _, h, b | .bool, _, h, b | .half, _, h, b | .single, _, h, b | .double, _, h, b | .chars _, _, h, b | .pascal _, _, h, b | .counted _, _, h, b
  | .until _, _, h, b | .rest, _, h, b | .net, _, h, b => by
    simp only [Fmt.Grows] at h
    subst h
    simp only [Fmt.read]
    exact keeps_refl _
  | .via id f name own make, _, h, b => by
    simp only [Fmt.Grows] at h
    subst h
    simp only [Fmt.read]
    exact keeps_bind (same_keeps hc o f b) fun _ => keeps_refl _
  | .text f _ _, _, h, b => by
    simp only [Fmt.Grows] at h
    subst h
    simp only [Fmt.read]
    exact keeps_bind (same_keeps hc o f b) fun _ => keeps_refl _
  | .obj _, _, h, b | .me, _, h, b => by
    simp only [Fmt.Grows] at h
    subst h
    simp only [Fmt.read]
    exact hc _ _
  | .fixed n f, _, h, b => by
    simp only [Fmt.Grows] at h
    obtain ⟨f', rfl, h⟩ := h
    simp only [Fmt.read]
    exact keeps_bind (readMany_keeps (read_keeps hc o h) _ _) fun _ => keeps_refl _
  | .list w f, _, h, b => by
    simp only [Fmt.Grows] at h
    obtain ⟨f', rfl, h⟩ := h
    simp only [Fmt.read]
    split
    · exact keeps_bind (readMany_keeps (read_keeps hc o h) _ _) fun _ => keeps_refl _
    · exact keeps_refl _
  | .sized w w2 f, _, h, b => by
    simp only [Fmt.Grows] at h
    obtain ⟨f', rfl, h⟩ := h
    simp only [Fmt.read]
    split
    · exact keeps_bind (readMany_keeps (read_keeps hc o h) _ _) fun _ => keeps_refl _
    · exact keeps_refl _
  | .tup fs, _, h, b => by
    simp only [Fmt.Grows] at h
    obtain ⟨f', rfl, hl, h⟩ := h
    simp only [Fmt.read, all_basic hl h, hl]
    split
    · exact keeps_bind (reads_keeps hc o hl h _ _) fun _ => keeps_refl _
    · exact keeps_refl _
  | .choice id args ahead decider keys opts other, _, h, b => by
    simp only [Fmt.Grows] at h
    obtain ⟨id', args', more, opts', other', rfl, h, h'⟩ := h
    simp only [Fmt.read]
    have key : ∀ r : Val, Remains (if ¬ r.hashable then .err .typeError else match keyAt keys r with
          | some k => Fmt.readAt P bo cls o opts k b
          | none => Fmt.readAt P bo cls o other 0 b)
        (if ¬ r.hashable then .err .typeError else match keyAt (keys ++ more) r with
          | some k => Fmt.readAt P bo cls' o opts' k b
          | none => Fmt.readAt P bo cls' o other' 0 b) := by
      intro r
      split
      · exact keeps_refl _
      · cases hk : keyAt keys r with
        | some k => rw [keyAt_more hk]; exact readAt_keeps hc o h k b
        | none =>
          rcases h' with rfl | ⟨rfl, h'⟩
          · simp only [Fmt.readAt]; exact keeps_err
          · rw [List.append_nil, hk]; exact readAt_keeps hc o h' 0 b
    split
    · exact keeps_bind (keeps_refl _) key
    · split
      · exact keeps_bind (keeps_refl _) key
      · exact keeps_bind (keeps_refl _) key
theorem same_keeps (hc : ∀ c b, Remains (cls c b) (cls' c b)) (o : PObj) : ∀ (f : Fmt) (b : Bytes), Remains (f.read P bo cls o b) (f.read P bo cls' o b)
  | .int .., b | .bool, b | .half, b | .single, b | .double, b | .chars _, b | .pascal _, b | .counted _, b
  | .until _, b | .rest, b | .net, b => by
    simp only [Fmt.read]
    exact keeps_refl _
  | .via id f name own make, b => by
    simp only [Fmt.read]
    exact keeps_bind (same_keeps hc o f b) fun _ => keeps_refl _
  | .text f _ _, b => by
    simp only [Fmt.read]
    exact keeps_bind (same_keeps hc o f b) fun _ => keeps_refl _
  | .obj _, b | .me, b => by
    simp only [Fmt.read]
    exact hc _ _
  | .fixed n f, b => by
    simp only [Fmt.read]
    exact keeps_bind (readMany_keeps (same_keeps hc o f) _ _) fun _ => keeps_refl _
  | .list w f, b => by
    simp only [Fmt.read]
    split
    · exact keeps_bind (readMany_keeps (same_keeps hc o f) _ _) fun _ => keeps_refl _
    · exact keeps_refl _
  | .sized w w2 f, b => by
    simp only [Fmt.read]
    split
    · exact keeps_bind (readMany_keeps (same_keeps hc o f) _ _) fun _ => keeps_refl _
    · exact keeps_refl _
  | .tup fs, b => by
    simp only [Fmt.read]
    split
    · exact keeps_bind (sames_keeps hc o fs _ _) fun _ => keeps_refl _
    · exact keeps_refl _
  | .choice id args ahead decider keys opts other, b => by
    simp only [Fmt.read]
    have key : ∀ r : Val, Remains (if ¬ r.hashable then .err .typeError else match keyAt keys r with
          | some k => Fmt.readAt P bo cls o opts k b
          | none => Fmt.readAt P bo cls o other 0 b)
        (if ¬ r.hashable then .err .typeError else match keyAt keys r with
          | some k => Fmt.readAt P bo cls' o opts k b
          | none => Fmt.readAt P bo cls' o other 0 b) := by
      intro r
      split
      · exact keeps_refl _
      · split
        · exact sameAt_keeps hc o opts _ b
        · exact sameAt_keeps hc o other _ b
    split
    · exact keeps_bind (keeps_refl _) key
    · split
      · exact keeps_bind (keeps_refl _) key
      · exact keeps_bind (keeps_refl _) key
theorem reads_keeps (hc : ∀ c b, Remains (cls c b) (cls' c b)) (o : PObj) : ∀ {fs gs : List Fmt}, gs.length = fs.length → Fmt.AllGrow fs gs →
    ∀ k b, Remains (Fmt.reads P bo cls o k fs b) (Fmt.reads P bo cls' o k gs b)
  | [], gs, hl, _, k, b => by rw [List.length_eq_zero_iff.1 hl]; simp only [Fmt.reads]; exact keeps_refl _
  | f :: fs, _, hl, h, k, b => by
    simp only [Fmt.AllGrow] at h
    obtain ⟨g, gs, rfl, h1, h2⟩ := h
    simp only [Fmt.reads, basic_grows h1]
    exact keeps_bind (read_keeps hc o h1 _) fun _ => keeps_bind (reads_keeps hc o (Nat.succ.inj hl) h2 _ _) fun _ => keeps_refl _
theorem sames_keeps (hc : ∀ c b, Remains (cls c b) (cls' c b)) (o : PObj) : ∀ (fs : List Fmt) (k : Nat) (b : Bytes),
    Remains (Fmt.reads P bo cls o k fs b) (Fmt.reads P bo cls' o k fs b)
  | [], k, b => by simp only [Fmt.reads]; exact keeps_refl _
  | f :: fs, k, b => by
    simp only [Fmt.reads]
    exact keeps_bind (same_keeps hc o f _) fun _ => keeps_bind (sames_keeps hc o fs _ _) fun _ => keeps_refl _
theorem readAt_keeps (hc : ∀ c b, Remains (cls c b) (cls' c b)) (o : PObj) : ∀ {fs gs : List Fmt}, Fmt.AllGrow fs gs →
    ∀ k b, Remains (Fmt.readAt P bo cls o fs k b) (Fmt.readAt P bo cls' o gs k b)
  | [], gs, _, k, b => by simp only [Fmt.readAt]; exact keeps_err
  | f :: fs, _, h, 0, b => by
    simp only [Fmt.AllGrow] at h
    obtain ⟨g, gs, rfl, h1, h2⟩ := h
    simp only [Fmt.readAt]
    exact read_keeps hc o h1 b
  | f :: fs, _, h, k + 1, b => by
    simp only [Fmt.AllGrow] at h
    obtain ⟨g, gs, rfl, h1, h2⟩ := h
    simp only [Fmt.readAt]
    exact readAt_keeps hc o h2 k b
theorem sameAt_keeps (hc : ∀ c b, Remains (cls c b) (cls' c b)) (o : PObj) : ∀ (fs : List Fmt) (k : Nat) (b : Bytes),
    Remains (Fmt.readAt P bo cls o fs k b) (Fmt.readAt P bo cls' o fs k b)
  | [], k, b => by simp only [Fmt.readAt]; exact keeps_err
  | f :: fs, 0, b => by
    simp only [Fmt.readAt]
    exact same_keeps hc o f b
  | f :: fs, k + 1, b => by
    simp only [Fmt.readAt]
    exact sameAt_keeps hc o fs k b
end

theorem readFields_keeps (hc : ∀ c b, Remains (cls c b) (cls' c b)) : ∀ {fs gs : List Field}, Field.AllGrow fs gs →
    ∀ o k b, Remains (readFields P bo cls o k fs b) (readFields P bo cls' o k gs b)
  | [], gs, h, o, k, b => by
    simp only [Field.AllGrow] at h
    subst h
    simp only [readFields]; exact keeps_refl _
  | .value a f :: fs, _, h, o, k, b => by
    simp only [Field.AllGrow, Field.Grows] at h
    obtain ⟨_, gs, rfl, ⟨g, rfl, h1⟩, h2⟩ := h
    simp only [readFields, basic_grows h1]
    exact keeps_bind (read_keeps hc o h1 _) fun _ => keeps_bind (readFields_keeps hc h2 _ _ _) fun _ => keeps_refl _
  | .pad a n :: fs, _, h, o, k, b => by
    simp only [Field.AllGrow, Field.Grows] at h
    obtain ⟨_, gs, rfl, rfl, h2⟩ := h
    simp only [readFields]
    split
    · exact keeps_bind (readFields_keeps hc h2 _ _ _) fun _ => keeps_refl _
    · exact keeps_refl _
  | .when a c f d :: fs, _, h, o, k, b => by
    simp only [Field.AllGrow, Field.Grows] at h
    obtain ⟨_, gs, rfl, ⟨g, rfl, h1⟩, h2⟩ := h
    simp only [readFields]
    refine keeps_bind (keeps_refl _) fun r => ?_
    split
    · exact keeps_refl _
    · split
      · exact keeps_bind (read_keeps hc o h1 _) fun _ => keeps_bind (readFields_keeps hc h2 _ _ _) fun _ => keeps_refl _
      · exact keeps_bind (readFields_keeps hc h2 _ _ _) fun _ => keeps_refl _
      · exact keeps_refl _
end read

theorem grows_names : ∀ {fs gs : List Field}, Field.AllGrow fs gs → (gs.filter (!·.isPad)).map Field.name = (fs.filter (!·.isPad)).map Field.name
  | [], gs, h => by simp only [Field.AllGrow] at h; rw [h]
  | .value a f :: fs, _, h => by
    simp only [Field.AllGrow, Field.Grows] at h
    obtain ⟨_, gs, rfl, ⟨g, rfl, h1⟩, h2⟩ := h
    have := grows_names h2
    simp_all [List.filter, Field.isPad, Field.name]
  | .pad a n :: fs, _, h => by
    simp only [Field.AllGrow, Field.Grows] at h
    obtain ⟨_, gs, rfl, rfl, h2⟩ := h
    have := grows_names h2
    simp_all [List.filter, Field.isPad, Field.name]
  | .when a c f d :: fs, _, h => by
    simp only [Field.AllGrow, Field.Grows] at h
    obtain ⟨_, gs, rfl, ⟨g, rfl, h1⟩, h2⟩ := h
    have := grows_names h2
    simp_all [List.filter, Field.isPad, Field.name]

theorem grows_attrs {d d' : ClassDoc} (h : d.Grows d') : d'.attrs = d.attrs := grows_names h.fields

theorem readObj_keeps {P : Platform} {docs docs' : ClassId → Option ClassDoc} (h : DocsGrow docs docs') :
    ∀ k c b, Remains (readObj P docs k c b) (readObj P docs' k c b)
  | 0, c, b => keeps_refl _
  | k + 1, c, b => by
    simp only [readObj]
    cases hd : docs c with
    | none => exact keeps_err
    | some d =>
      obtain ⟨d', hd', hg⟩ := h c d hd
      simp only [hd', grows_attrs hg, hg.order]
      split
      · exact keeps_odd
      · have : ¬ (d'.fields.any Field.usesSelf = true ∧ "cls" ∈ d.attrs) := fun ⟨h1, h2⟩ => by rw [hg.cls h2] at h1; cases h1
        rw [if_neg this]
        exact keeps_bind (readFields_keeps (readObj_keeps h k) hg.fields _ _ _) fun _ => keeps_refl _

section put
variable {P : Platform} {cls cls' : ClassId → Val → Parsed Bytes}

mutual
theorem bare_grows (o : PObj) : ∀ {f g : Fmt}, f.Grows g → f.bare o = .indexError → g.bare o = .indexError
  | .int .., _, h, hb | .bool, _, h, hb | .half, _, h, hb | .single, _, h, hb | .double, _, h, hb | .chars _, _, h, hb | .pascal _, _, h, hb | .via .., _, h, hb
  | .counted _, _, h, hb | .until _, _, h, hb | .rest, _, h, hb | .net, _, h, hb | .text .., _, h, hb | .obj _, _, h, hb | .me, _, h, hb => by
    simp only [Fmt.Grows] at h; rw [h]; exact hb
  | .fixed .., _, h, hb | .list .., _, h, hb | .sized .., _, h, hb => by
    simp only [Fmt.Grows] at h
    obtain ⟨_, rfl, _⟩ := h
    simp only [Fmt.bare]
  | .tup _, _, h, hb => by simp [Fmt.bare] at hb
  | .choice _ _ _ decider keys opts other, _, h, hb => by
    simp only [Fmt.Grows] at h
    obtain ⟨id', args', more, opts', other', rfl, h, h'⟩ := h
    simp only [Fmt.bare] at hb ⊢
    cases hd : decider o with
    | error e => rw [hd] at hb; exact hb
    | ok r =>
      rw [hd] at hb
      simp only at hb ⊢
      split at hb
      · cases hb
      · rw [if_neg (by assumption)]
        cases hk : keyAt keys r with
        | some k => rw [hk] at hb; rw [keyAt_more hk]; exact bareAt_grows o h k hb
        | none =>
          rw [hk] at hb
          rcases h' with rfl | ⟨rfl, h'⟩
          · simp [Fmt.bareAt] at hb
          · rw [List.append_nil, hk]; exact bareAt_grows o h' 0 hb
theorem bareAt_grows (o : PObj) : ∀ {fs gs : List Fmt}, Fmt.AllGrow fs gs → ∀ k, Fmt.bareAt o fs k = .indexError → Fmt.bareAt o gs k = .indexError
  | [], gs, _, k, hb => by simp [Fmt.bareAt] at hb
  | f :: fs, _, h, 0, hb => by
    simp only [Fmt.AllGrow] at h
    obtain ⟨g, gs, rfl, h1, h2⟩ := h
    simp only [Fmt.bareAt] at hb ⊢
    exact bare_grows o h1 hb
  | f :: fs, _, h, k + 1, hb => by
    simp only [Fmt.AllGrow] at h
    obtain ⟨g, gs, rfl, h1, h2⟩ := h
    simp only [Fmt.bareAt] at hb ⊢
    exact bareAt_grows o h2 k hb
end

theorem surplus_grows (o : PObj) {fs gs : List Fmt} (hl : gs.length = fs.length) (h : Fmt.AllGrow fs gs) {n : Nat} (hs : surplus o fs n = Option.none) :
    surplus o gs n = Option.none := by
  unfold surplus at hs ⊢
  rw [hl, all_basic hl h]
  split
  · rfl
  · rename_i h1
    rw [if_neg h1] at hs
    split
    · rename_i h2; rw [if_pos h2] at hs; cases hs
    · rename_i h2
      rw [if_neg h2] at hs
      match fs, gs, hl, h with
      | [f], _, hl, h =>
        simp only [Fmt.AllGrow] at h
        obtain ⟨g, gs, rfl, h1, h2⟩ := h
        have : gs = [] := List.length_eq_zero_iff.1 (Nat.succ.inj hl)
        subst this
        simp only at hs ⊢
        split at hs
        · rw [if_pos (bare_grows o h1 (by assumption))]
        · cases hs
      | [], [], _, _ => rfl
      | _ :: _ :: _, _ :: _ :: _, _, _ => rfl

mutual
theorem put_keeps (hc : ∀ c v, Remains (cls c v) (cls' c v)) (o : PObj) : ∀ {f g : Fmt}, f.Grows g → ∀ (bo : ByteOrder) v, Remains (f.put P bo cls o v) (g.put P bo cls' o v)
  | .int .., _, h, bo, v | .bool, _, h, bo, v | .half, _, h, bo, v | .single, _, h, bo, v | .double, _, h, bo, v | .chars _, _, h, bo, v | .pascal _, _, h, bo, v
  | .counted _, _, h, bo, v | .until _, _, h, bo, v | .rest, _, h, bo, v | .net, _, h, bo, v => by
    simp only [Fmt.Grows] at h
    subst h
    simp only [Fmt.put]
    exact keeps_refl _
  | .via id f name own make, _, h, bo, v => by
    simp only [Fmt.Grows] at h
    subst h
    simp only [Fmt.put]
    exact samePut_keeps hc o f bo v
  | .text f en _, _, h, bo, v => by
    simp only [Fmt.Grows] at h
    subst h
    simp only [Fmt.put]
    split
    · exact samePut_keeps hc o f _ _
    · exact keeps_refl _
  | .obj _, _, h, bo, v | .me, _, h, bo, v => by
    simp only [Fmt.Grows] at h
    subst h
    simp only [Fmt.put]
    exact hc _ _
  | .fixed n f, _, h, bo, v => by
    simp only [Fmt.Grows] at h
    obtain ⟨f', rfl, h⟩ := h
    simp only [Fmt.put, basic_grows h]
    split
    · exact keeps_refl _
    · split
      · exact keeps_refl _
      · exact keeps_bind (putAll_keeps (put_keeps hc o h bo) _) fun _ => keeps_refl _
  | .list w f, _, h, bo, v => by
    simp only [Fmt.Grows] at h
    obtain ⟨f', rfl, h⟩ := h
    simp only [Fmt.put]
    split
    · exact keeps_refl _
    · exact keeps_bind (putAll_keeps (put_keeps hc o h bo) _) fun _ => keeps_refl _
  | .sized w w2 f, _, h, bo, v => by
    simp only [Fmt.Grows] at h
    obtain ⟨f', rfl, h⟩ := h
    simp only [Fmt.put]
    split
    · exact keeps_refl _
    · exact keeps_bind (putAll_keeps (put_keeps hc o h bo) _) fun _ => keeps_refl _
  | .tup fs, _, h, bo, v => by
    simp only [Fmt.Grows] at h
    obtain ⟨f', rfl, hl, h⟩ := h
    simp only [Fmt.put]
    split
    · exact keeps_refl _
    · split
      · exact keeps_err
      · rename_i hs
        rw [surplus_grows o hl h hs]
        exact puts_keeps hc o hl h _ _ _
  | .choice id args ahead decider keys opts other, _, h, bo, v => by
    simp only [Fmt.Grows] at h
    obtain ⟨id', args', more, opts', other', rfl, h, h'⟩ := h
    simp only [Fmt.put]
    split
    · exact keeps_refl _
    · rename_i r hr
      split
      · exact keeps_refl _
      · cases hk : keyAt keys r with
        | some k => rw [keyAt_more hk]; exact putAt_keeps hc o h k v
        | none =>
          rcases h' with rfl | ⟨rfl, h'⟩
          · simp only [Fmt.putAt]; exact keeps_err
          · rw [List.append_nil, hk]; exact putAt_keeps hc o h' 0 v
theorem samePut_keeps (hc : ∀ c v, Remains (cls c v) (cls' c v)) (o : PObj) : ∀ (f : Fmt) (bo : ByteOrder) (v : Val), Remains (f.put P bo cls o v) (f.put P bo cls' o v)
  | .int .., bo, v | .bool, bo, v | .half, bo, v | .single, bo, v | .double, bo, v | .chars _, bo, v | .pascal _, bo, v
  | .counted _, bo, v | .until _, bo, v | .rest, bo, v | .net, bo, v => by
    simp only [Fmt.put]
    exact keeps_refl _
  | .via id f name own make, bo, v => by
    simp only [Fmt.put]
    exact samePut_keeps hc o f bo v
  | .text f en _, bo, v => by
    simp only [Fmt.put]
    split
    · exact samePut_keeps hc o f _ _
    · exact keeps_refl _
  | .obj _, bo, v | .me, bo, v => by
    simp only [Fmt.put]
    exact hc _ _
  | .fixed n f, bo, v => by
    simp only [Fmt.put]
    split
    · exact keeps_refl _
    · split
      · exact keeps_refl _
      · exact keeps_bind (putAll_keeps (samePut_keeps hc o f bo) _) fun _ => keeps_refl _
  | .list w f, bo, v => by
    simp only [Fmt.put]
    split
    · exact keeps_refl _
    · exact keeps_bind (putAll_keeps (samePut_keeps hc o f bo) _) fun _ => keeps_refl _
  | .sized w w2 f, bo, v => by
    simp only [Fmt.put]
    split
    · exact keeps_refl _
    · exact keeps_bind (putAll_keeps (samePut_keeps hc o f bo) _) fun _ => keeps_refl _
  | .tup fs, bo, v => by
    simp only [Fmt.put]
    split
    · exact keeps_refl _
    · split
      · exact keeps_err
      · exact samePuts_keeps hc o fs _ _ _
  | .choice id args ahead decider keys opts other, bo, v => by
    simp only [Fmt.put]
    split
    · exact keeps_refl _
    · split
      · exact keeps_refl _
      · split
        · exact samePutAt_keeps hc o opts _ v
        · exact samePutAt_keeps hc o other _ v
theorem puts_keeps (hc : ∀ c v, Remains (cls c v) (cls' c v)) (o : PObj) : ∀ {fs gs : List Fmt}, gs.length = fs.length → Fmt.AllGrow fs gs →
    ∀ (bo : ByteOrder) k vs, Remains (Fmt.puts P bo cls o k fs vs) (Fmt.puts P bo cls' o k gs vs)
  | [], gs, hl, _, bo, k, vs => by rw [List.length_eq_zero_iff.1 hl]; simp only [Fmt.puts]; exact keeps_refl _
  | f :: fs, _, hl, h, bo, k, [] => by
    simp only [Fmt.AllGrow] at h
    obtain ⟨g, gs, rfl, h1, h2⟩ := h
    simp only [Fmt.puts]
    exact keeps_err
  | f :: fs, _, hl, h, bo, k, v :: vs => by
    have hfr := front_grows hl h
    simp only [Fmt.AllGrow] at h
    obtain ⟨g, gs, rfl, h1, h2⟩ := h
    simp only [Fmt.puts, basic_grows h1, hfr]
    split
    · exact keeps_refl _
    · exact keeps_bind (put_keeps hc o h1 _ _) fun _ => keeps_bind (puts_keeps hc o (Nat.succ.inj hl) h2 _ _ _) fun _ => keeps_refl _
theorem samePuts_keeps (hc : ∀ c v, Remains (cls c v) (cls' c v)) (o : PObj) : ∀ (fs : List Fmt) (bo : ByteOrder) (k : Nat) (vs : List Val),
    Remains (Fmt.puts P bo cls o k fs vs) (Fmt.puts P bo cls' o k fs vs)
  | [], bo, k, vs => by simp only [Fmt.puts]; exact keeps_refl _
  | f :: fs, bo, k, [] => by simp only [Fmt.puts]; exact keeps_err
  | f :: fs, bo, k, v :: vs => by
    simp only [Fmt.puts]
    split
    · exact keeps_refl _
    · exact keeps_bind (samePut_keeps hc o f _ _) fun _ => keeps_bind (samePuts_keeps hc o fs _ _ _) fun _ => keeps_refl _
theorem putAt_keeps (hc : ∀ c v, Remains (cls c v) (cls' c v)) (o : PObj) : ∀ {fs gs : List Fmt}, Fmt.AllGrow fs gs →
    ∀ k v, Remains (Fmt.putAt P cls o fs k v) (Fmt.putAt P cls' o gs k v)
  | [], gs, _, k, b => by simp only [Fmt.putAt]; exact keeps_err
  | f :: fs, _, h, 0, b => by
    simp only [Fmt.AllGrow] at h
    obtain ⟨g, gs, rfl, h1, h2⟩ := h
    simp only [Fmt.putAt]
    exact put_keeps hc o h1 _ b
  | f :: fs, _, h, k + 1, b => by
    simp only [Fmt.AllGrow] at h
    obtain ⟨g, gs, rfl, h1, h2⟩ := h
    simp only [Fmt.putAt]
    exact putAt_keeps hc o h2 k b
theorem samePutAt_keeps (hc : ∀ c v, Remains (cls c v) (cls' c v)) (o : PObj) : ∀ (fs : List Fmt) (k : Nat) (v : Val),
    Remains (Fmt.putAt P cls o fs k v) (Fmt.putAt P cls' o fs k v)
  | [], k, b => by simp only [Fmt.putAt]; exact keeps_err
  | f :: fs, 0, b => by
    simp only [Fmt.putAt]
    exact samePut_keeps hc o f _ b
  | f :: fs, k + 1, b => by
    simp only [Fmt.putAt]
    exact samePutAt_keeps hc o fs k b
end

theorem putFields_keeps (hc : ∀ c v, Remains (cls c v) (cls' c v)) {bo : ByteOrder} (o : PObj) : ∀ {fs gs : List Field}, Field.AllGrow fs gs →
    ∀ k vs, Remains (putFields P bo cls o k fs vs) (putFields P bo cls' o k gs vs)
  | [], gs, h, k, vs => by
    simp only [Field.AllGrow] at h
    subst h
    simp only [putFields]; exact keeps_refl _
  | .value a f :: fs, _, h, k, [] => by simp only [putFields]; exact keeps_odd
  | .value a f :: fs, _, h, k, v :: vs => by
    simp only [Field.AllGrow, Field.Grows] at h
    obtain ⟨_, gs, rfl, ⟨g, rfl, h1⟩, h2⟩ := h
    simp only [putFields, basic_grows h1]
    exact keeps_bind (put_keeps hc o h1 _ _) fun _ => keeps_bind (putFields_keeps hc o h2 _ _) fun _ => keeps_refl _
  | .pad a n :: fs, _, h, k, vs => by
    simp only [Field.AllGrow, Field.Grows] at h
    obtain ⟨_, gs, rfl, rfl, h2⟩ := h
    simp only [putFields]
    exact keeps_bind (putFields_keeps hc o h2 _ _) fun _ => keeps_refl _
  | .when a c f d :: fs, _, h, k, [] => by simp only [putFields]; exact keeps_odd
  | .when a c f d :: fs, _, h, k, v :: vs => by
    simp only [Field.AllGrow, Field.Grows] at h
    obtain ⟨_, gs, rfl, ⟨g, rfl, h1⟩, h2⟩ := h
    simp only [putFields]
    split
    · exact keeps_refl _
    · split
      · exact keeps_refl _
      · split
        · exact keeps_bind (put_keeps hc o h1 _ _) fun _ => keeps_bind (putFields_keeps hc o h2 _ _) fun _ => keeps_refl _
        · exact putFields_keeps hc o h2 _ _
        · exact keeps_refl _
end put

theorem putObj_keeps {P : Platform} {docs docs' : ClassId → Option ClassDoc} (h : DocsGrow docs docs') : ∀ k v, Remains (putObj P docs k v) (putObj P docs' k v)
  | 0, v => by simp only [putObj]; exact keeps_deep
  | k + 1, v => by
    cases v with
    | obj c own attrs =>
      simp only [putObj]
      cases hd : docs c with
      | none => exact keeps_err
      | some d =>
        obtain ⟨d', hd', hg⟩ := h c d hd
        simp only [hd', grows_attrs hg, hg.order]
        split
        · exact keeps_refl _
        · exact putFields_keeps (fun _ => putObj_keeps h k) _ hg.fields _ _
    | _ => simp only [putObj]; exact keeps_err

end Verif.Grow
