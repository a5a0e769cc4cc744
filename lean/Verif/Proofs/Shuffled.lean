import Verif.Spec.Shuffled
import Verif.Proofs.Places
import Verif.Proofs.EqLemmas
/-
Lemmas on programs whose unions list their members in another order.
-/
namespace Verif.Shuffle
open Spec Places

/-- Keys that are numbers, strings or `None` and differ from one another are as in a dictionary. -/
theorem unlike_of_atoms {keys : List Val} (ha : ∀ k ∈ keys, k.atom = true) (h : keys.Pairwise fun a b => a.keyEq b = false) : Unlike keys := by
  refine List.Pairwise.imp_of_mem (fun {a b} ma mb hab r hr => ?_) h
  cases hbr : b.keyEq r with
  | false => rfl
  | true => rw [keyEq_trans hr (keyEq_symm hbr (ha b mb)) (ha a ma)] at hab; cases hab

theorem find_zip (p : Val → Bool) : ∀ (keys : List Val) (opts : List Fmt), keys.length = opts.length →
    (keys.zip opts).find? (fun x => p x.1) = (keys.findIdx? p).bind fun k => (opts[k]?).bind fun f => (keys[k]?).map fun a => (a, f)
  | [], [], _ => rfl
  | a :: keys, f :: opts, hl => by
    rw [List.zip_cons_cons, List.find?_cons, List.findIdx?_cons]
    cases hp : p a with
    | true => rfl
    | false =>
      rw [find_zip p keys opts (Nat.succ.inj hl)]
      cases keys.findIdx? p <;> rfl

theorem find_perm {p : Val × Fmt → Bool} {l l' : List (Val × Fmt)} (h : l.Perm l') : (l.Pairwise fun a b => p a = true → p b = false) → l'.find? p = l.find? p := by
  induction h with
  | nil => intro _; rfl
  | cons x _ ih =>
    intro hu
    simp only [List.find?_cons, ih (List.pairwise_cons.1 hu).2]
  | swap x y l =>
    intro hu
    have h1 := (List.pairwise_cons.1 hu).1 x (List.mem_cons_self ..)
    simp only [List.find?_cons]
    cases hx : p x <;> cases hy : p y <;> simp_all
  | trans h1 _ ih1 ih2 =>
    intro hu
    rw [ih2 ((h1.pairwise_iff (fun {a b} hab hb => by
      cases ha : p a with
      | false => rfl
      | true => rw [hab ha] at hb; cases hb)).1 hu), ih1 hu]

theorem pairwise_zip {R : Val → Val → Prop} : ∀ {keys : List Val} {opts : List Fmt}, keys.Pairwise R → (keys.zip opts).Pairwise fun a b => R a.1 b.1
  | [], _, _ => by simp
  | _ :: _, [], _ => by simp
  | a :: keys, f :: opts, h => by
    rw [List.zip_cons_cons, List.pairwise_cons]
    refine ⟨fun x hx => (List.pairwise_cons.1 h).1 x.1 (List.of_mem_zip hx).1, pairwise_zip (List.pairwise_cons.1 h).2⟩

theorem keyAt_perm {keys keys' : List Val} {opts opts' : List Fmt} (hl : keys.length = opts.length) (hl' : keys'.length = opts'.length)
    (h : (keys.zip opts).Perm (keys'.zip opts')) (hu : Unlike keys) (r : Val) :
    (keyAt keys r = none ∧ keyAt keys' r = none) ∨ ∃ k k' f, keyAt keys r = some k ∧ keyAt keys' r = some k' ∧ opts[k]? = some f ∧ opts'[k']? = some f := by
  unfold keyAt
  split
  · have hf := find_perm (p := fun x => x.1.keyEq r) h ((pairwise_zip hu).imp fun hab => hab r)
    have key : ∀ {keys : List Val} {opts : List Fmt}, keys.length = opts.length →
        (keys.findIdx? (·.keyEq r) = none ∧ (keys.zip opts).find? (fun x => x.1.keyEq r) = none) ∨
        ∃ k f a, keys.findIdx? (·.keyEq r) = some k ∧ opts[k]? = some f ∧ (keys.zip opts).find? (fun x => x.1.keyEq r) = some (a, f) := by
      intro keys opts hl
      rw [find_zip (·.keyEq r) keys opts hl]
      cases hk : keys.findIdx? (·.keyEq r) with
      | none => exact .inl ⟨rfl, rfl⟩
      | some k =>
        have hlt := (List.findIdx?_eq_some_iff_getElem.1 hk).1
        refine .inr ⟨k, opts[k]'(hl ▸ hlt), keys[k], rfl, List.getElem?_eq_getElem _, ?_⟩
        simp only [Option.bind_some, List.getElem?_eq_getElem hlt, List.getElem?_eq_getElem (hl ▸ hlt : k < opts.length), Option.map_some]
    rcases key hl with ⟨h1, h2⟩ | ⟨k, f, a, h1, h2, h3⟩ <;> rcases key hl' with ⟨g1, g2⟩ | ⟨k', f', a', g1, g2, g3⟩
    · exact .inl ⟨h1, g1⟩
    · rw [g3, h2] at hf; cases hf
    · rw [g2, h3] at hf; cases hf
    · rw [g3, h3] at hf
      cases hf
      exact .inr ⟨k, k', f, h1, g1, h2, g2⟩
  · exact .inl ⟨rfl, rfl⟩

theorem basic_same : ∀ {f g : Fmt}, f.Shuffled g → g.basic = f.basic
  | .int .., _, h | .bool, _, h | .half, _, h | .single, _, h | .double, _, h | .chars _, _, h | .pascal _, _, h | .via .., _, h | .counted _, _, h
  | .until _, _, h | .rest, _, h | .net, _, h | .text .., _, h | .obj _, _, h | .me, _, h => by simp only [Fmt.Shuffled] at h; rw [h]
  | .fixed .., _, h | .list .., _, h | .sized .., _, h | .tup _, _, h => by
    simp only [Fmt.Shuffled] at h
    obtain ⟨_, rfl, _⟩ := h
    rfl
  | .choice .., _, h => by
    simp only [Fmt.Shuffled] at h
    obtain ⟨_, _, _, _, _, _, rfl, _⟩ := h
    rfl

theorem length_same : ∀ {fs gs : List Fmt}, Fmt.AllShuffled fs gs → gs.length = fs.length
  | [], _, h => by simp only [Fmt.AllShuffled] at h; rw [h]
  | f :: fs, _, h => by
    simp only [Fmt.AllShuffled] at h
    obtain ⟨g, gs, rfl, h1, h2⟩ := h
    simp only [List.length_cons, length_same h2]

theorem all_basic : ∀ {fs gs : List Fmt}, Fmt.AllShuffled fs gs → gs.all (·.basic.isSome) = fs.all (·.basic.isSome)
  | [], _, h => by simp only [Fmt.AllShuffled] at h; rw [h]
  | f :: fs, _, h => by
    simp only [Fmt.AllShuffled] at h
    obtain ⟨g, gs, rfl, h1, h2⟩ := h
    simp only [List.all_cons, basic_same h1, all_basic h2]

theorem front_same : ∀ {fs gs : List Fmt}, Fmt.AllShuffled fs gs → front gs = front fs
  | [], _, h => by simp only [Fmt.AllShuffled] at h; rw [h]
  | f :: fs, _, h => by
    simp only [Fmt.AllShuffled] at h
    obtain ⟨g, gs, rfl, h1, h2⟩ := h
    simp only [front, basic_same h1, front_same h2]

section read
variable {P : Platform} {bo : ByteOrder} {cls : ClassId → Bytes → Parsed (Val × Nat)}

theorem readAt_get {o : PObj} {b : Bytes} : ∀ {fs : List Fmt} {k : Nat} {f : Fmt}, fs[k]? = some f → Fmt.readAt P bo cls o fs k b = f.read P bo cls o b
  | g :: fs, 0, f, h => by cases h; simp only [Fmt.readAt]
  | g :: fs, k + 1, f, h => by simp only [Fmt.readAt]; exact readAt_get (fs := fs) h

mutual
theorem read_same (o : PObj) : ∀ {f g : Fmt}, f.Shuffled g → ∀ b, g.read P bo cls o b = f.read P bo cls o b
  | .int .., _, h, b | .bool, _, h, b | .half, _, h, b | .single, _, h, b | .double, _, h, b | .chars _, _, h, b | .pascal _, _, h, b | .counted _, _, h, b
  | .until _, _, h, b | .rest, _, h, b | .net, _, h, b | .via .., _, h, b | .text .., _, h, b | .obj _, _, h, b | .me, _, h, b => by
    simp only [Fmt.Shuffled] at h
    rw [h]
  | .fixed n f, _, h, b | .list w f, _, h, b | .sized w w2 f, _, h, b => by
    simp only [Fmt.Shuffled] at h
    obtain ⟨f', rfl, h⟩ := h
    have : f'.read P bo cls o = f.read P bo cls o := funext (read_same o h)
    simp only [Fmt.read, this]
  | .tup fs, _, h, b => by
    simp only [Fmt.Shuffled] at h
    obtain ⟨f', rfl, h⟩ := h
    simp only [Fmt.read, all_basic h, length_same h, reads_same o h]
  | .choice id args ahead decider keys opts other, _, h, b => by
    simp only [Fmt.Shuffled] at h
    obtain ⟨id', args', keys', opts1, opts', other', rfl, h, hl, hl', hp, hu, h'⟩ := h
    have key : ∀ r : Val, (match keyAt keys' r with
          | some k => Fmt.readAt P bo cls o opts' k b
          | none => Fmt.readAt P bo cls o other' 0 b) = match keyAt keys r with
          | some k => Fmt.readAt P bo cls o opts k b
          | none => Fmt.readAt P bo cls o other 0 b := by
      intro r
      rcases keyAt_perm hl hl' hp hu r with ⟨h1, h2⟩ | ⟨k, k', f, h1, h2, h3, h4⟩
      · rw [h1, h2]; exact readAt_same o h' 0 b
      · rw [h1, h2]
        simp only
        rw [readAt_get h4, ← readAt_same o h k b, readAt_get h3]
    have key' : ∀ r : Val, (if ¬ r.hashable then Parsed.err .typeError else match keyAt keys' r with
          | some k => Fmt.readAt P bo cls o opts' k b
          | none => Fmt.readAt P bo cls o other' 0 b) = if ¬ r.hashable then .err .typeError else match keyAt keys r with
          | some k => Fmt.readAt P bo cls o opts k b
          | none => Fmt.readAt P bo cls o other 0 b := fun r => by rw [key r]
    simp only [Fmt.read]
    split
    · exact congrArg (Parsed.bind _) (funext key')
    · split
      · exact congrArg (Parsed.bind _) (funext key')
      · exact congrArg (Parsed.bind _) (funext key')
theorem reads_same (o : PObj) : ∀ {fs gs : List Fmt}, Fmt.AllShuffled fs gs → ∀ k b, Fmt.reads P bo cls o k gs b = Fmt.reads P bo cls o k fs b
  | [], _, h, k, b => by simp only [Fmt.AllShuffled] at h; rw [h]
  | f :: fs, _, h, k, b => by
    simp only [Fmt.AllShuffled] at h
    obtain ⟨g, gs, rfl, h1, h2⟩ := h
    simp only [Fmt.reads, basic_same h1, read_same o h1, reads_same o h2]
theorem readAt_same (o : PObj) : ∀ {fs gs : List Fmt}, Fmt.AllShuffled fs gs → ∀ k b, Fmt.readAt P bo cls o gs k b = Fmt.readAt P bo cls o fs k b
  | [], _, h, k, b => by simp only [Fmt.AllShuffled] at h; rw [h]
  | f :: fs, _, h, 0, b => by
    simp only [Fmt.AllShuffled] at h
    obtain ⟨g, gs, rfl, h1, h2⟩ := h
    simp only [Fmt.readAt, read_same o h1]
  | f :: fs, _, h, k + 1, b => by
    simp only [Fmt.AllShuffled] at h
    obtain ⟨g, gs, rfl, h1, h2⟩ := h
    simp only [Fmt.readAt, readAt_same o h2]
end

theorem readFields_same : ∀ {fs gs : List Field}, Field.AllShuffled fs gs → ∀ o k b, readFields P bo cls o k gs b = readFields P bo cls o k fs b
  | [], _, h, o, k, b => by simp only [Field.AllShuffled] at h; rw [h]
  | .value a f :: fs, _, h, o, k, b => by
    simp only [Field.AllShuffled, Field.Shuffled] at h
    obtain ⟨_, gs, rfl, ⟨g, rfl, h1⟩, h2⟩ := h
    simp only [readFields, basic_same h1, read_same o h1, readFields_same h2]
  | .pad a n :: fs, _, h, o, k, b => by
    simp only [Field.AllShuffled, Field.Shuffled] at h
    obtain ⟨_, gs, rfl, rfl, h2⟩ := h
    simp only [readFields, readFields_same h2]
  | .when a c f d :: fs, _, h, o, k, b => by
    simp only [Field.AllShuffled, Field.Shuffled] at h
    obtain ⟨_, gs, rfl, ⟨g, rfl, h1⟩, h2⟩ := h
    simp only [readFields, read_same o h1, readFields_same h2]
end read

theorem same_names : ∀ {fs gs : List Field}, Field.AllShuffled fs gs → (gs.filter (!·.isPad)).map Field.name = (fs.filter (!·.isPad)).map Field.name
  | [], gs, h => by simp only [Field.AllShuffled] at h; rw [h]
  | .value a f :: fs, _, h => by
    simp only [Field.AllShuffled, Field.Shuffled] at h
    obtain ⟨_, gs, rfl, ⟨g, rfl, h1⟩, h2⟩ := h
    have := same_names h2
    simp_all [List.filter, Field.isPad, Field.name]
  | .pad a n :: fs, _, h => by
    simp only [Field.AllShuffled, Field.Shuffled] at h
    obtain ⟨_, gs, rfl, rfl, h2⟩ := h
    have := same_names h2
    simp_all [List.filter, Field.isPad, Field.name]
  | .when a c f d :: fs, _, h => by
    simp only [Field.AllShuffled, Field.Shuffled] at h
    obtain ⟨_, gs, rfl, ⟨g, rfl, h1⟩, h2⟩ := h
    have := same_names h2
    simp_all [List.filter, Field.isPad, Field.name]

theorem same_attrs {d d' : ClassDoc} (h : d.Shuffled d') : d'.attrs = d.attrs := same_names h.fields

theorem readObj_same {P : Platform} {docs docs' : ClassId → Option ClassDoc} (h : DocsShuffled docs docs') : ∀ k, readObj P docs' k = readObj P docs k
  | 0 => by funext c b; simp only [readObj]
  | k + 1 => by
    funext c b
    simp only [readObj, readObj_same h k]
    rcases h c with ⟨h1, h2⟩ | ⟨d, d', h1, h2, hg⟩
    · rw [h1, h2]
    · have hc : (d'.fields.any Field.usesSelf = true ∧ "cls" ∈ d.attrs) ↔ (d.fields.any Field.usesSelf = true ∧ "cls" ∈ d.attrs) := by
        constructor <;> (rintro ⟨h3, h4⟩; obtain ⟨h5, h6⟩ := hg.cls h4; simp_all)
      simp only [h1, h2, same_attrs hg, hg.order, readFields_same hg.fields, hc]

section put
variable {P : Platform} {cls : ClassId → Val → Parsed Bytes}

theorem bareAt_get {o : PObj} : ∀ {fs : List Fmt} {k : Nat} {f : Fmt}, fs[k]? = some f → Fmt.bareAt o fs k = f.bare o
  | g :: fs, 0, f, h => by cases h; simp only [Fmt.bareAt]
  | g :: fs, k + 1, f, h => by simp only [Fmt.bareAt]; exact bareAt_get (fs := fs) h

theorem putAt_get {o : PObj} {v : Val} : ∀ {fs : List Fmt} {k : Nat} {f : Fmt}, fs[k]? = some f → Fmt.putAt P cls o fs k v = Fmt.putAt P cls o [f] 0 v
  | g :: fs, 0, f, h => by cases h; simp only [Fmt.putAt]
  | g :: fs, k + 1, f, h => by rw [← putAt_get (fs := fs) (k := k) h]; simp only [Fmt.putAt]

mutual
theorem bare_same (o : PObj) : ∀ {f g : Fmt}, f.Shuffled g → g.bare o = f.bare o
  | .int .., _, h | .bool, _, h | .half, _, h | .single, _, h | .double, _, h | .chars _, _, h | .pascal _, _, h | .via .., _, h | .counted _, _, h
  | .until _, _, h | .rest, _, h | .net, _, h | .text .., _, h | .obj _, _, h | .me, _, h => by simp only [Fmt.Shuffled] at h; rw [h]
  | .fixed .., _, h | .list .., _, h | .sized .., _, h | .tup _, _, h => by
    simp only [Fmt.Shuffled] at h
    obtain ⟨_, rfl, _⟩ := h
    simp only [Fmt.bare]
  | .choice _ _ _ decider keys opts other, _, h => by
    simp only [Fmt.Shuffled] at h
    obtain ⟨id', args', keys', opts1, opts', other', rfl, h, hl, hl', hp, hu, h'⟩ := h
    have key : ∀ r : Val, (match keyAt keys' r with
          | some k => Fmt.bareAt o opts' k
          | none => Fmt.bareAt o other' 0) = match keyAt keys r with
          | some k => Fmt.bareAt o opts k
          | none => Fmt.bareAt o other 0 := by
      intro r
      rcases keyAt_perm hl hl' hp hu r with ⟨h1, h2⟩ | ⟨k, k', f, h1, h2, h3, h4⟩
      · rw [h1, h2]; exact bareAt_same o h' 0
      · rw [h1, h2]
        simp only
        rw [bareAt_get h4, ← bareAt_same o h k, bareAt_get h3]
    simp only [Fmt.bare]
    split
    · rfl
    · split
      · rfl
      · exact key _
theorem bareAt_same (o : PObj) : ∀ {fs gs : List Fmt}, Fmt.AllShuffled fs gs → ∀ k, Fmt.bareAt o gs k = Fmt.bareAt o fs k
  | [], _, h, k => by simp only [Fmt.AllShuffled] at h; rw [h]
  | f :: fs, _, h, 0 => by
    simp only [Fmt.AllShuffled] at h
    obtain ⟨g, gs, rfl, h1, h2⟩ := h
    simp only [Fmt.bareAt, bare_same o h1]
  | f :: fs, _, h, k + 1 => by
    simp only [Fmt.AllShuffled] at h
    obtain ⟨g, gs, rfl, h1, h2⟩ := h
    simp only [Fmt.bareAt, bareAt_same o h2]
end

theorem surplus_same (o : PObj) : ∀ {fs gs : List Fmt}, Fmt.AllShuffled fs gs → ∀ n, surplus o gs n = surplus o fs n
  | [], _, h, n => by simp only [Fmt.AllShuffled] at h; rw [h]
  | [f], _, h, n => by
    have hb := all_basic h
    simp only [Fmt.AllShuffled] at h
    obtain ⟨g, gs, rfl, h1, rfl⟩ := h
    simp only [surplus, hb, bare_same o h1, List.length_cons]
  | f :: f2 :: fs, _, h, n => by
    have hb := all_basic h
    have hl := length_same h
    simp only [Fmt.AllShuffled] at h
    obtain ⟨g, _, rfl, h1, g2, gs, rfl, h2, h3⟩ := h
    simp only [surplus, hb, hl]

mutual
theorem put_same (o : PObj) : ∀ {f g : Fmt}, f.Shuffled g → ∀ (bo : ByteOrder) v, g.put P bo cls o v = f.put P bo cls o v
  | .int .., _, h, bo, v | .bool, _, h, bo, v | .half, _, h, bo, v | .single, _, h, bo, v | .double, _, h, bo, v | .chars _, _, h, bo, v | .pascal _, _, h, bo, v
  | .counted _, _, h, bo, v | .until _, _, h, bo, v | .rest, _, h, bo, v | .net, _, h, bo, v | .via .., _, h, bo, v | .text .., _, h, bo, v | .obj _, _, h, bo, v
  | .me, _, h, bo, v => by
    simp only [Fmt.Shuffled] at h
    rw [h]
  | .fixed n f, _, h, bo, v | .list w f, _, h, bo, v | .sized w w2 f, _, h, bo, v => by
    simp only [Fmt.Shuffled] at h
    obtain ⟨f', rfl, h⟩ := h
    have : f'.put P bo cls o = f.put P bo cls o := funext (put_same o h bo)
    simp only [Fmt.put, basic_same h, this]
  | .tup fs, _, h, bo, v => by
    simp only [Fmt.Shuffled] at h
    obtain ⟨f', rfl, h⟩ := h
    simp only [Fmt.put, surplus_same o h, puts_same o h]
  | .choice id args ahead decider keys opts other, _, h, bo, v => by
    simp only [Fmt.Shuffled] at h
    obtain ⟨id', args', keys', opts1, opts', other', rfl, h, hl, hl', hp, hu, h'⟩ := h
    have key : ∀ r : Val, (match keyAt keys' r with
          | some k => Fmt.putAt P cls o opts' k v
          | none => Fmt.putAt P cls o other' 0 v) = match keyAt keys r with
          | some k => Fmt.putAt P cls o opts k v
          | none => Fmt.putAt P cls o other 0 v := by
      intro r
      rcases keyAt_perm hl hl' hp hu r with ⟨h1, h2⟩ | ⟨k, k', f, h1, h2, h3, h4⟩
      · rw [h1, h2]; exact putAt_same o h' 0 v
      · rw [h1, h2]
        simp only
        rw [putAt_get h4, ← putAt_same o h k v, putAt_get h3]
    simp only [Fmt.put]
    split
    · rfl
    · split
      · rfl
      · exact key _
theorem puts_same (o : PObj) : ∀ {fs gs : List Fmt}, Fmt.AllShuffled fs gs → ∀ (bo : ByteOrder) k vs, Fmt.puts P bo cls o k gs vs = Fmt.puts P bo cls o k fs vs
  | [], _, h, bo, k, vs => by simp only [Fmt.AllShuffled] at h; rw [h]
  | f :: fs, _, h, bo, k, [] => by
    simp only [Fmt.AllShuffled] at h
    obtain ⟨g, gs, rfl, h1, h2⟩ := h
    simp only [Fmt.puts, bare_same o h1]
  | f :: fs, _, h, bo, k, v :: vs => by
    have hfr := front_same h
    simp only [Fmt.AllShuffled] at h
    obtain ⟨g, gs, rfl, h1, h2⟩ := h
    simp only [Fmt.puts, basic_same h1, hfr, put_same o h1, puts_same o h2]
theorem putAt_same (o : PObj) : ∀ {fs gs : List Fmt}, Fmt.AllShuffled fs gs → ∀ k v, Fmt.putAt P cls o gs k v = Fmt.putAt P cls o fs k v
  | [], _, h, k, v => by simp only [Fmt.AllShuffled] at h; rw [h]
  | f :: fs, _, h, 0, v => by
    simp only [Fmt.AllShuffled] at h
    obtain ⟨g, gs, rfl, h1, h2⟩ := h
    simp only [Fmt.putAt, put_same o h1]
  | f :: fs, _, h, k + 1, v => by
    simp only [Fmt.AllShuffled] at h
    obtain ⟨g, gs, rfl, h1, h2⟩ := h
    simp only [Fmt.putAt, putAt_same o h2]
end

theorem putFields_same {bo : ByteOrder} (o : PObj) : ∀ {fs gs : List Field}, Field.AllShuffled fs gs → ∀ k vs, putFields P bo cls o k gs vs = putFields P bo cls o k fs vs
  | [], _, h, k, vs => by simp only [Field.AllShuffled] at h; rw [h]
  | .value a f :: fs, _, h, k, vs => by
    simp only [Field.AllShuffled, Field.Shuffled] at h
    obtain ⟨_, gs, rfl, ⟨g, rfl, h1⟩, h2⟩ := h
    cases vs with
    | nil => simp only [putFields]
    | cons v vs => simp only [putFields, basic_same h1, put_same o h1, putFields_same o h2]
  | .pad a n :: fs, _, h, k, vs => by
    simp only [Field.AllShuffled, Field.Shuffled] at h
    obtain ⟨_, gs, rfl, rfl, h2⟩ := h
    simp only [putFields, putFields_same o h2]
  | .when a c f d :: fs, _, h, k, vs => by
    simp only [Field.AllShuffled, Field.Shuffled] at h
    obtain ⟨_, gs, rfl, ⟨g, rfl, h1⟩, h2⟩ := h
    cases vs with
    | nil => simp only [putFields]
    | cons v vs => simp only [putFields, put_same o h1, putFields_same o h2]
end put

theorem putObj_same {P : Platform} {docs docs' : ClassId → Option ClassDoc} (h : DocsShuffled docs docs') : ∀ k, putObj P docs' k = putObj P docs k
  | 0 => by funext v; simp only [putObj]
  | k + 1 => by
    funext v
    cases v with
    | obj c own attrs =>
      simp only [putObj, putObj_same h k]
      rcases h c with ⟨h1, h2⟩ | ⟨d, d', h1, h2, hg⟩
      · rw [h1, h2]
      · simp only [h1, h2, same_attrs hg, hg.order, putFields_same _ hg.fields]
    | _ => simp only [putObj]

end Verif.Shuffle
