import Verif.Spec.Renames
import Verif.Proofs.Extends
/-
Lemmas on the same fields under other names.
-/
namespace Verif.Renames
open Spec Extends

variable {names : List (Name × Name)}

theorem basic_renamed : ∀ {f g : Fmt}, f.Renamed names g → g.basic = f.basic
  | .int .., _, h | .bool, _, h | .half, _, h | .single, _, h | .double, _, h | .chars _, _, h | .pascal _, _, h | .counted _, _, h
  | .until _, _, h | .rest, _, h | .net, _, h | .obj _, _, h => by simp only [Fmt.Renamed] at h; rw [h]
  | .via _ f _ _ _, _, h => by
    simp only [Fmt.Renamed] at h
    obtain ⟨_, f', rfl, h⟩ := h
    simp only [Fmt.basic, basic_renamed h]
  | .text .., _, h | .fixed .., _, h | .list .., _, h | .sized .., _, h => by
    simp only [Fmt.Renamed] at h
    obtain ⟨_, rfl, _⟩ := h
    rfl
  | .tup _, _, h => by
    simp only [Fmt.Renamed] at h
    obtain ⟨_, rfl, _⟩ := h
    rfl
  | .choice .., _, h => by
    simp only [Fmt.Renamed] at h
    obtain ⟨_, _, _, _, _, rfl, _⟩ := h
    rfl
  | .me, _, h => by simp only [Fmt.Renamed] at h

theorem length_renamed : ∀ {fs gs : List Fmt}, Fmt.AllRenamed names fs gs → gs.length = fs.length
  | [], gs, h => by simp only [Fmt.AllRenamed] at h; rw [h]
  | f :: fs, _, h => by
    simp only [Fmt.AllRenamed] at h
    obtain ⟨g, gs, rfl, h1, h2⟩ := h
    simp only [List.length_cons, length_renamed h2]

theorem all_basic : ∀ {fs gs : List Fmt}, Fmt.AllRenamed names fs gs → gs.all (·.basic.isSome) = fs.all (·.basic.isSome)
  | [], gs, h => by simp only [Fmt.AllRenamed] at h; rw [h]
  | f :: fs, _, h => by
    simp only [Fmt.AllRenamed] at h
    obtain ⟨g, gs, rfl, h1, h2⟩ := h
    simp only [List.all_cons, basic_renamed h1, all_basic h2]

theorem front_renamed : ∀ {fs gs : List Fmt}, Fmt.AllRenamed names fs gs → front gs = front fs
  | [], gs, h => by simp only [Fmt.AllRenamed] at h; rw [h]
  | f :: fs, _, h => by
    simp only [Fmt.AllRenamed] at h
    obtain ⟨g, gs, rfl, h1, h2⟩ := h
    simp only [front, basic_renamed h1, front_renamed h2]

theorem matches_with (hap : ∀ p ∈ names, ∀ q ∈ names, p.1 = q.1 ↔ p.2 = q.2) {o o' : PObj} (h : Matches names o o') {a a' : Name} (ha : (a, a') ∈ names)
    (v : Val) : Matches names (o.with a v) (o'.with a' v) := by
  refine ⟨h.1, fun p hp => ?_⟩
  simp only [PObj.with, lookup_append, h.2 p hp, List.lookup_cons, List.lookup_nil]
  have := hap p hp _ ha
  by_cases hc : p.1 = a
  · rw [hc, this.1 hc]; simp
  · have h2 : p.2 ≠ a' := fun h2 => hc (this.2 h2)
    rw [beq_false_of_ne hc, beq_false_of_ne h2]

/-! ### Reading -/

section read
variable {P : Platform} {bo : ByteOrder} {cls : ClassId → Bytes → Parsed (Val × Nat)} {o o' : PObj}

mutual
theorem read_renamed (ha : Matches names o o') : ∀ {f g : Fmt}, f.Renamed names g → f.read P bo cls o = g.read P bo cls o'
  | .int .., _, h | .bool, _, h | .half, _, h | .single, _, h | .double, _, h | .chars _, _, h | .pascal _, _, h | .counted _, _, h
  | .until _, _, h | .rest, _, h | .net, _, h | .obj _, _, h => by
    simp only [Fmt.Renamed] at h
    subst h
    funext b; simp only [Fmt.read]
  | .via _ f _ _ _, _, h => by
    simp only [Fmt.Renamed] at h
    obtain ⟨_, f', rfl, h⟩ := h
    funext b
    simp only [Fmt.read, read_renamed ha h]
  | .text f _ _, _, h | .fixed _ f, _, h | .list _ f, _, h | .sized _ _ f, _, h => by
    simp only [Fmt.Renamed] at h
    obtain ⟨f', rfl, h⟩ := h
    funext b
    simp only [Fmt.read, read_renamed ha h]
  | .tup fs, _, h => by
    simp only [Fmt.Renamed] at h
    obtain ⟨fs', rfl, h⟩ := h
    funext b
    simp only [Fmt.read, reads_renamed ha h, all_basic h, length_renamed h]
  | .me, _, h => by simp only [Fmt.Renamed] at h
  | .choice _ _ ahead decider keys opts other, _, h => by
    simp only [Fmt.Renamed] at h
    obtain ⟨_, _, dec', opts', other', rfl, h1, h2, h3⟩ := h
    funext b
    simp only [Fmt.read, readAt_renamed ha h2, readAt_renamed ha h3, h1 o o' ha]
theorem reads_renamed (ha : Matches names o o') : ∀ {fs gs : List Fmt}, Fmt.AllRenamed names fs gs → ∀ k b, Fmt.reads P bo cls o k fs b = Fmt.reads P bo cls o' k gs b
  | [], _, h, k, b => by simp only [Fmt.AllRenamed] at h; subst h; rfl
  | f :: fs, _, h, k, b => by
    simp only [Fmt.AllRenamed] at h
    obtain ⟨g, gs, rfl, h1, h2⟩ := h
    simp only [Fmt.reads, basic_renamed h1, read_renamed ha h1, reads_renamed ha h2]
theorem readAt_renamed (ha : Matches names o o') : ∀ {fs gs : List Fmt}, Fmt.AllRenamed names fs gs → ∀ k b, Fmt.readAt P bo cls o fs k b = Fmt.readAt P bo cls o' gs k b
  | [], _, h, k, b => by simp only [Fmt.AllRenamed] at h; subst h; rfl
  | f :: fs, _, h, 0, b => by
    simp only [Fmt.AllRenamed] at h
    obtain ⟨g, gs, rfl, h1, h2⟩ := h
    simp only [Fmt.readAt, read_renamed ha h1]
  | f :: fs, _, h, k + 1, b => by
    simp only [Fmt.AllRenamed] at h
    obtain ⟨g, gs, rfl, h1, h2⟩ := h
    simp only [Fmt.readAt, readAt_renamed ha h2]
end

theorem readFields_renamed (hap : ∀ p ∈ names, ∀ q ∈ names, p.1 = q.1 ↔ p.2 = q.2) :
    ∀ {fs gs : List Field}, Field.AllRenamed names fs gs → ∀ {o o' : PObj}, Matches names o o' → ∀ k b,
      readFields P bo cls o k fs b = readFields P bo cls o' k gs b
  | [], _, h, o, o', ha, k, b => by simp only [Field.AllRenamed] at h; subst h; rfl
  | .value a f :: fs, _, h, o, o', ha, k, b => by
    simp only [Field.AllRenamed, Field.Renamed] at h
    obtain ⟨_, gs, rfl, ⟨a', f', rfl, hm, hf⟩, hr⟩ := h
    simp only [readFields, basic_renamed hf, read_renamed ha hf]
    congr 1
    funext p
    rw [readFields_renamed hap hr (matches_with hap ha hm p.1)]
  | .pad a n :: fs, _, h, o, o', ha, k, b => by
    simp only [Field.AllRenamed, Field.Renamed] at h
    obtain ⟨_, gs, rfl, ⟨a', rfl⟩, hr⟩ := h
    simp only [readFields, readFields_renamed hap hr ha]
  | .when a c f d :: fs, _, h, o, o', ha, k, b => by
    simp only [Field.AllRenamed, Field.Renamed] at h
    obtain ⟨_, gs, rfl, ⟨a', c', f', rfl, hm, hc, hf⟩, hr⟩ := h
    simp only [readFields, read_renamed ha hf, hc o o' ha]
    have ih := fun v => readFields_renamed hap hr (matches_with hap ha hm v)
    simp only [ih]

end read

mutual
theorem usesSelf_renamed : ∀ {f g : Fmt}, f.Renamed names g → f.usesSelf = false ∧ g.usesSelf = false
  | .int .., _, h | .bool, _, h | .half, _, h | .single, _, h | .double, _, h | .chars _, _, h | .pascal _, _, h | .counted _, _, h
  | .until _, _, h | .rest, _, h | .net, _, h | .obj _, _, h => by
    simp only [Fmt.Renamed] at h
    subst h
    simp only [Fmt.usesSelf, and_self]
  | .via _ f _ _ _, _, h => by
    simp only [Fmt.Renamed] at h
    obtain ⟨_, f', rfl, h⟩ := h
    simp only [Fmt.usesSelf, and_self]
  | .text f _ _, _, h | .fixed _ f, _, h | .list _ f, _, h | .sized _ _ f, _, h => by
    simp only [Fmt.Renamed] at h
    obtain ⟨f', rfl, h⟩ := h
    simp only [Fmt.usesSelf]
    exact usesSelf_renamed h
  | .tup fs, _, h => by
    simp only [Fmt.Renamed] at h
    obtain ⟨fs', rfl, h⟩ := h
    simp only [Fmt.usesSelf]
    exact anySelf_renamed h
  | .me, _, h => by simp only [Fmt.Renamed] at h
  | .choice _ _ ahead decider keys opts other, _, h => by
    simp only [Fmt.Renamed] at h
    obtain ⟨_, _, dec', opts', other', rfl, h1, h2, h3⟩ := h
    simp only [Fmt.usesSelf, anySelf_renamed h2, anySelf_renamed h3, Bool.or_self, and_self]
theorem anySelf_renamed : ∀ {fs gs : List Fmt}, Fmt.AllRenamed names fs gs → Fmt.anySelf fs = false ∧ Fmt.anySelf gs = false
  | [], _, h => by simp only [Fmt.AllRenamed] at h; subst h; exact ⟨rfl, rfl⟩
  | f :: fs, _, h => by
    simp only [Fmt.AllRenamed] at h
    obtain ⟨g, gs, rfl, h1, h2⟩ := h
    simp only [Fmt.anySelf, usesSelf_renamed h1, anySelf_renamed h2, Bool.or_self, and_self]
end

theorem noSelf_renamed : ∀ {fs gs : List Field}, Field.AllRenamed names fs gs → fs.any Field.usesSelf = false ∧ gs.any Field.usesSelf = false
  | [], _, h => by simp only [Field.AllRenamed] at h; subst h; exact ⟨rfl, rfl⟩
  | .value a f :: fs, _, h => by
    simp only [Field.AllRenamed, Field.Renamed] at h
    obtain ⟨_, gs, rfl, ⟨a', f', rfl, hm, hf⟩, hr⟩ := h
    simp only [List.any_cons, Field.usesSelf, usesSelf_renamed hf, noSelf_renamed hr, Bool.or_self, and_self]
  | .pad a n :: fs, _, h => by
    simp only [Field.AllRenamed, Field.Renamed] at h
    obtain ⟨_, gs, rfl, ⟨a', rfl⟩, hr⟩ := h
    simp only [List.any_cons, Field.usesSelf, noSelf_renamed hr, Bool.or_self, and_self]
  | .when a c f d :: fs, _, h => by
    simp only [Field.AllRenamed, Field.Renamed] at h
    obtain ⟨_, gs, rfl, ⟨a', c', f', rfl, hm, hc, hf⟩, hr⟩ := h
    simp only [List.any_cons, Field.usesSelf, usesSelf_renamed hf, noSelf_renamed hr, Bool.or_self, and_self]

theorem count_renamed : ∀ {fs gs : List Field}, Field.AllRenamed names fs gs → (gs.filter (!·.isPad)).length = (fs.filter (!·.isPad)).length
  | [], _, h => by simp only [Field.AllRenamed] at h; subst h; rfl
  | .value a f :: fs, _, h => by
    simp only [Field.AllRenamed, Field.Renamed] at h
    obtain ⟨_, gs, rfl, ⟨a', f', rfl, hm, hf⟩, hr⟩ := h
    exact congrArg Nat.succ (count_renamed hr)
  | .pad a n :: fs, _, h => by
    simp only [Field.AllRenamed, Field.Renamed] at h
    obtain ⟨_, gs, rfl, ⟨a', rfl⟩, hr⟩ := h
    have := count_renamed hr
    exact this
  | .when a c f d :: fs, _, h => by
    simp only [Field.AllRenamed, Field.Renamed] at h
    obtain ⟨_, gs, rfl, ⟨a', c', f', rfl, hm, hc, hf⟩, hr⟩ := h
    exact congrArg Nat.succ (count_renamed hr)

theorem attrs_renamed {d d' : ClassDoc} (h : d.Renamed d') : d'.attrs.length = d.attrs.length := by
  simp only [ClassDoc.attrs, List.length_map]
  exact count_renamed h.fields

/-! ### Packing -/

section put
variable {P : Platform} {bo : ByteOrder} {cls : ClassId → Val → Parsed Bytes} {o o' : PObj}

mutual
theorem bare_renamed (ha : Matches names o o') : ∀ {f g : Fmt}, f.Renamed names g → f.bare o = g.bare o'
  | .int .., _, h | .bool, _, h | .half, _, h | .single, _, h | .double, _, h | .chars _, _, h | .pascal _, _, h | .counted _, _, h
  | .until _, _, h | .rest, _, h | .net, _, h | .obj _, _, h => by
    simp only [Fmt.Renamed] at h
    subst h
    simp only [Fmt.bare]
  | .via _ f _ _ _, _, h => by
    simp only [Fmt.Renamed] at h
    obtain ⟨_, f', rfl, h⟩ := h
    simp only [Fmt.bare]
  | .text f _ _, _, h | .fixed _ f, _, h | .list _ f, _, h | .sized _ _ f, _, h => by
    simp only [Fmt.Renamed] at h
    obtain ⟨f', rfl, h⟩ := h
    simp only [Fmt.bare]
  | .tup fs, _, h => by
    simp only [Fmt.Renamed] at h
    obtain ⟨fs', rfl, h⟩ := h
    simp only [Fmt.bare]
  | .me, _, h => by simp only [Fmt.Renamed] at h
  | .choice _ _ ahead decider keys opts other, _, h => by
    simp only [Fmt.Renamed] at h
    obtain ⟨_, _, dec', opts', other', rfl, h1, h2, h3⟩ := h
    simp only [Fmt.bare, bareAt_renamed ha h2, bareAt_renamed ha h3, h1 o o' ha]
theorem bareAt_renamed (ha : Matches names o o') : ∀ {fs gs : List Fmt}, Fmt.AllRenamed names fs gs → ∀ k, Fmt.bareAt o fs k = Fmt.bareAt o' gs k
  | [], _, h, k => by simp only [Fmt.AllRenamed] at h; subst h; rfl
  | f :: fs, _, h, 0 => by
    simp only [Fmt.AllRenamed] at h
    obtain ⟨g, gs, rfl, h1, h2⟩ := h
    simp only [Fmt.bareAt, bare_renamed ha h1]
  | f :: fs, _, h, k + 1 => by
    simp only [Fmt.AllRenamed] at h
    obtain ⟨g, gs, rfl, h1, h2⟩ := h
    simp only [Fmt.bareAt, bareAt_renamed ha h2]
end

theorem surplus_renamed (ha : Matches names o o') {fs gs : List Fmt} (h : Fmt.AllRenamed names fs gs) (n : Nat) : surplus o fs n = surplus o' gs n := by
  unfold surplus
  rw [all_basic h, length_renamed h]
  split
  · rfl
  · split
    · rfl
    · match fs, gs, h with
      | [], _, h => simp only [Fmt.AllRenamed] at h; subst h; rfl
      | [f], _, h =>
        simp only [Fmt.AllRenamed] at h
        obtain ⟨g, gs, rfl, h1, rfl⟩ := h
        simp only [bare_renamed ha h1]
      | f :: f2 :: fs, _, h =>
        simp only [Fmt.AllRenamed] at h
        obtain ⟨g, gs, rfl, h1, g2, gs2, rfl, h2⟩ := h
        rfl

mutual
theorem put_renamed (ha : Matches names o o') : ∀ {f g : Fmt}, f.Renamed names g → ∀ bo v, f.put P bo cls o v = g.put P bo cls o' v
  | .int .., _, h, bo, v | .bool, _, h, bo, v | .half, _, h, bo, v | .single, _, h, bo, v | .double, _, h, bo, v | .chars _, _, h, bo, v
  | .pascal _, _, h, bo, v | .counted _, _, h, bo, v | .until _, _, h, bo, v | .rest, _, h, bo, v | .net, _, h, bo, v | .obj _, _, h, bo, v => by
    simp only [Fmt.Renamed] at h
    subst h
    simp only [Fmt.put]
  | .via _ f _ _ _, _, h, bo, v => by
    simp only [Fmt.Renamed] at h
    obtain ⟨_, f', rfl, h⟩ := h
    simp only [Fmt.put]
    exact put_renamed ha h bo v
  | .text f _ _, _, h, bo, v => by
    simp only [Fmt.Renamed] at h
    obtain ⟨f', rfl, h⟩ := h
    simp only [Fmt.put, put_renamed ha h .default]
  | .fixed _ f, _, h, bo, v => by
    simp only [Fmt.Renamed] at h
    obtain ⟨f', rfl, h⟩ := h
    have : f.put P bo cls o = f'.put P bo cls o' := funext (put_renamed ha h bo)
    simp only [Fmt.put, this, basic_renamed h]
  | .list _ f, _, h, bo, v | .sized _ _ f, _, h, bo, v => by
    simp only [Fmt.Renamed] at h
    obtain ⟨f', rfl, h⟩ := h
    have : f.put P bo cls o = f'.put P bo cls o' := funext (put_renamed ha h bo)
    simp only [Fmt.put, this]
  | .tup fs, _, h, bo, v => by
    simp only [Fmt.Renamed] at h
    obtain ⟨fs', rfl, h⟩ := h
    simp only [Fmt.put, surplus_renamed ha h, puts_renamed ha h .default]
  | .me, _, h, bo, v => by simp only [Fmt.Renamed] at h
  | .choice _ _ ahead decider keys opts other, _, h, bo, v => by
    simp only [Fmt.Renamed] at h
    obtain ⟨_, _, dec', opts', other', rfl, h1, h2, h3⟩ := h
    simp only [Fmt.put, putAt_renamed ha h2, putAt_renamed ha h3, h1 o o' ha]
theorem puts_renamed (ha : Matches names o o') : ∀ {fs gs : List Fmt}, Fmt.AllRenamed names fs gs → ∀ bo k vs, Fmt.puts P bo cls o k fs vs = Fmt.puts P bo cls o' k gs vs
  | [], _, h, bo, k, vs => by simp only [Fmt.AllRenamed] at h; subst h; simp only [Fmt.puts]
  | f :: fs, _, h, bo, k, [] => by
    simp only [Fmt.AllRenamed] at h
    obtain ⟨g, gs, rfl, h1, h2⟩ := h
    simp only [Fmt.puts, bare_renamed ha h1]
  | f :: fs, _, h, bo, k, v :: vs => by
    have hf := front_renamed h
    simp only [Fmt.AllRenamed] at h
    obtain ⟨g, gs, rfl, h1, h2⟩ := h
    simp only [Fmt.puts, hf, basic_renamed h1, put_renamed ha h1 bo, puts_renamed ha h2 bo]
theorem putAt_renamed (ha : Matches names o o') : ∀ {fs gs : List Fmt}, Fmt.AllRenamed names fs gs → ∀ k v, Fmt.putAt P cls o fs k v = Fmt.putAt P cls o' gs k v
  | [], _, h, k, v => by simp only [Fmt.AllRenamed] at h; subst h; simp only [Fmt.putAt]
  | f :: fs, _, h, 0, v => by
    simp only [Fmt.AllRenamed] at h
    obtain ⟨g, gs, rfl, h1, h2⟩ := h
    simp only [Fmt.putAt, put_renamed ha h1 .default]
  | f :: fs, _, h, k + 1, v => by
    simp only [Fmt.AllRenamed] at h
    obtain ⟨g, gs, rfl, h1, h2⟩ := h
    simp only [Fmt.putAt, putAt_renamed ha h2]
end

theorem putFields_renamed (ha : Matches names o o') : ∀ {fs gs : List Field}, Field.AllRenamed names fs gs → ∀ k vs,
    putFields P bo cls o k fs vs = putFields P bo cls o' k gs vs
  | [], _, h, k, vs => by simp only [Field.AllRenamed] at h; subst h; simp only [putFields]
  | .value a f :: fs, _, h, k, vs => by
    simp only [Field.AllRenamed, Field.Renamed] at h
    obtain ⟨_, gs, rfl, ⟨a', f', rfl, hm, hf⟩, hr⟩ := h
    cases vs with
    | nil => simp only [putFields]
    | cons v vs => simp only [putFields, basic_renamed hf, put_renamed ha hf bo, putFields_renamed ha hr]
  | .pad a n :: fs, _, h, k, vs => by
    simp only [Field.AllRenamed, Field.Renamed] at h
    obtain ⟨_, gs, rfl, ⟨a', rfl⟩, hr⟩ := h
    simp only [putFields, putFields_renamed ha hr]
  | .when a c f d :: fs, _, h, k, vs => by
    simp only [Field.AllRenamed, Field.Renamed] at h
    obtain ⟨_, gs, rfl, ⟨a', c', f', rfl, hm, hc, hf⟩, hr⟩ := h
    cases vs with
    | nil => simp only [putFields]
    | cons v vs => simp only [putFields, put_renamed ha hf bo, putFields_renamed ha hr, hc o o' ha]

end put

theorem pick_renamed {attrs attrs' : List (Name × Val)} : ∀ {as bs : List Name}, bs.length = as.length →
    (∀ p ∈ as.zip bs, attrs.lookup p.1 = attrs'.lookup p.2) → pick attrs as = pick attrs' bs
  | [], [], _, _ => rfl
  | [], _ :: _, h, _ => by cases h
  | _ :: _, [], h, _ => by cases h
  | a :: as, b :: bs, hl, h => by
    have := h (a, b) (by simp)
    simp only [pick, this, pick_renamed (as := as) (bs := bs) (Nat.succ.inj hl) fun p hp => h p (by simp [hp])]

end Verif.Renames
