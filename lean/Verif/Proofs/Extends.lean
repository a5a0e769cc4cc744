import Verif.Spec.Extends
/-
Lemmas on formats that begin with the fields of another one.
-/
namespace Verif.Extends
open Spec

theorem lookup_append (as bs : List (Name × Val)) (a : Name) :
    (as ++ bs).lookup a = match as.lookup a with
      | some v => some v
      | Option.none => bs.lookup a := by
  induction as with
  | nil => rfl
  | cons p as ih =>
    obtain ⟨b, v⟩ := p
    rw [List.cons_append, List.lookup_cons, List.lookup_cons]
    split
    · rfl
    · exact ih

theorem alike_with {names : List Name} {o o' : PObj} (h : Alike names o o') (a : Name) (v : Val) : Alike names (o.with a v) (o'.with a v) := by
  refine ⟨h.1, fun b hb => ?_⟩
  simp only [PObj.with, lookup_append, h.2 b hb]

/-! ### Reading -/

mutual
theorem read_within {P : Platform} {bo : ByteOrder} {cls : ClassId → Bytes → Parsed (Val × Nat)} {names : List Name} {o o' : PObj} (ha : Alike names o o') :
    ∀ f : Fmt, f.within names → f.read P bo cls o = f.read P bo cls o'
  | .int .., _ | .bool, _ | .half, _ | .single, _ | .double, _ | .chars _, _ | .pascal _, _ | .counted _, _ | .until _, _ | .rest, _ | .net, _ | .obj _, _ => by
    funext b; simp only [Fmt.read]
  | .via _ f _ _ _, h | .text f _ _, h | .fixed _ f, h | .list _ f, h | .sized _ _ f, h => by
    have := read_within (P := P) (bo := bo) (cls := cls) ha f (by simpa only [Fmt.within] using h)
    funext b
    simp only [Fmt.read, this]
  | .tup fs, h => by
    have := reads_within (P := P) (bo := bo) (cls := cls) ha fs (by simpa only [Fmt.within] using h)
    funext b
    simp only [Fmt.read, this]
  | .me, h => by simp only [Fmt.within] at h
  | .choice _ _ _ decider _ opts other, h => by
    simp only [Fmt.within] at h
    have h1 := readAt_within (P := P) (bo := bo) (cls := cls) ha opts h.2.1
    have h2 := readAt_within (P := P) (bo := bo) (cls := cls) ha other h.2.2
    funext b
    simp only [Fmt.read, h1, h2, h.1 o o' ha]
theorem reads_within {P : Platform} {bo : ByteOrder} {cls : ClassId → Bytes → Parsed (Val × Nat)} {names : List Name} {o o' : PObj} (ha : Alike names o o') :
    ∀ fs : List Fmt, Fmt.allWithin names fs → ∀ k b, Fmt.reads P bo cls o k fs b = Fmt.reads P bo cls o' k fs b
  | [], _, k, b => rfl
  | f :: fs, h, k, b => by
    simp only [Fmt.allWithin] at h
    simp only [Fmt.reads, read_within (P := P) (bo := bo) (cls := cls) ha f h.1, reads_within (P := P) (bo := bo) (cls := cls) ha fs h.2]
theorem readAt_within {P : Platform} {bo : ByteOrder} {cls : ClassId → Bytes → Parsed (Val × Nat)} {names : List Name} {o o' : PObj} (ha : Alike names o o') :
    ∀ fs : List Fmt, Fmt.allWithin names fs → ∀ k b, Fmt.readAt P bo cls o fs k b = Fmt.readAt P bo cls o' fs k b
  | [], _, k, b => rfl
  | f :: fs, h, 0, b => by
    simp only [Fmt.allWithin] at h
    simp only [Fmt.readAt, read_within (P := P) (bo := bo) (cls := cls) ha f h.1]
  | f :: fs, h, k + 1, b => by
    simp only [Fmt.allWithin] at h
    simp only [Fmt.readAt, readAt_within (P := P) (bo := bo) (cls := cls) ha fs h.2]
end

/-- What reading more fields comes to, when reading some of them came to `r`. -/
def Front (r : Parsed (List Val × Nat)) (r' : Parsed (List Val × Nat)) : Prop :=
  match r with
  | .ok (vs, n) => ∀ ws m, r' = .ok (ws, m) → vs <+: ws ∧ n ≤ m
  | .err e => r' = .err e
  | .deep => r' = .deep
  | .odd => r' = .odd

theorem front_bind {x x' : Parsed (Val × Nat)} (h : x = x') {f f' : Val × Nat → Parsed (List Val × Nat)} (hf : ∀ p, Front (f p) (f' p)) :
    Front (x >>= f) (x' >>= f') := by
  subst h
  cases x with
  | ok p => exact hf p
  | err | deep | odd => rfl

theorem front_map {r r' : Parsed (List Val × Nat)} (h : Front r r') (v : Val) (g n : Nat) :
    Front (r >>= fun (vs, m) => .ok (v :: vs, g + n + m)) (r' >>= fun (vs, m) => .ok (v :: vs, g + n + m)) := by
  cases r with
  | ok p =>
    obtain ⟨vs, m⟩ := p
    intro ws k hr
    cases r' with
    | ok p' =>
      obtain ⟨ws', m'⟩ := p'
      obtain ⟨h1, h2⟩ := h ws' m' rfl
      simp only [Bind.bind, Parsed.bind, Parsed.ok.injEq, Prod.mk.injEq] at hr
      obtain ⟨rfl, rfl⟩ := hr
      exact ⟨(List.cons_prefix_cons).2 ⟨rfl, h1⟩, by omega⟩
    | err | deep | odd => cases hr
  | err => simp only [Front] at h; subst h; rfl
  | deep => simp only [Front] at h; subst h; rfl
  | odd => simp only [Front] at h; subst h; rfl

theorem front_skip {r r' : Parsed (List Val × Nat)} (h : Front r r') (n : Nat) :
    Front (r >>= fun (vs, m) => .ok (vs, n + m)) (r' >>= fun (vs, m) => .ok (vs, n + m)) := by
  cases r with
  | ok p =>
    obtain ⟨vs, m⟩ := p
    intro ws k hr
    cases r' with
    | ok p' =>
      obtain ⟨ws', m'⟩ := p'
      obtain ⟨h1, h2⟩ := h ws' m' rfl
      simp only [Bind.bind, Parsed.bind, Parsed.ok.injEq, Prod.mk.injEq] at hr
      obtain ⟨rfl, rfl⟩ := hr
      exact ⟨h1, by omega⟩
    | err | deep | odd => cases hr
  | err => simp only [Front] at h; subst h; rfl
  | deep => simp only [Front] at h; subst h; rfl
  | odd => simp only [Front] at h; subst h; rfl

theorem front_refl_err {e : Err} : Front (.err e) (.err e) := rfl

/-- Reading some fields and then others begins with reading the former. -/
theorem readFields_front {P : Platform} {bo : ByteOrder} {cls : ClassId → Bytes → Parsed (Val × Nat)} {names : List Name} (more : List Field) :
    ∀ (fs : List Field), (∀ f ∈ fs, f.within names) → ∀ (o o' : PObj), Alike names o o' → ∀ k b,
      Front (readFields P bo cls o k fs b) (readFields P bo cls o' k (fs ++ more) b)
  | [], _, o, o', _, k, b => fun ws m _ => ⟨List.nil_prefix, Nat.zero_le _⟩
  | .value a f :: fs, h, o, o', ha, k, b => by
    have hf := h _ (List.mem_cons_self ..)
    simp only [Field.within] at hf
    have ih := fun v => readFields_front (P := P) (bo := bo) (cls := cls) more fs (fun f hm => h f (List.mem_cons_of_mem _ hm)) (o.with a v) (o'.with a v) (alike_with ha a v)
    simp only [readFields, List.cons_append]
    exact front_bind (congrFun (read_within ha f hf) _) fun p => front_map (ih p.1 _ _) _ _ _
  | .pad a n :: fs, h, o, o', ha, k, b => by
    have ih := readFields_front (P := P) (bo := bo) (cls := cls) more fs (fun f hm => h f (List.mem_cons_of_mem _ hm)) o o' ha
    simp only [readFields, List.cons_append]
    split
    · exact front_skip (ih _ _) _
    · rfl
  | .when a c f d :: fs, h, o, o', ha, k, b => by
    have hf := h _ (List.mem_cons_self ..)
    simp only [Field.within] at hf
    have ih := fun v => readFields_front (P := P) (bo := bo) (cls := cls) more fs (fun f hm => h f (List.mem_cons_of_mem _ hm)) (o.with a v) (o'.with a v) (alike_with ha a v)
    simp only [readFields, List.cons_append, hf.1 o o' ha]
    cases c o' with
    | error e => rfl
    | ok r =>
      simp only [Parsed.ofE, Bind.bind, Parsed.bind]
      split
      · rfl
      · split
        · exact front_bind (congrFun (read_within ha f hf.2) _) fun p => by
            have := front_map (ih p.1 0 (b.drop p.2)) p.1 0 p.2
            simp only [Nat.zero_add] at this
            exact this
        · have := front_map (ih d 0 b) d 0 0
          simp only [Nat.zero_add] at this
          exact this
        · rfl

mutual
theorem usesSelf_within {names : List Name} : ∀ f : Fmt, f.within names → f.usesSelf = false
  | .int .., _ | .bool, _ | .half, _ | .single, _ | .double, _ | .chars _, _ | .pascal _, _ | .counted _, _ | .until _, _ | .rest, _ | .net, _ | .obj _, _
  | .via .., _ => by simp only [Fmt.usesSelf]
  | .text f _ _, h | .fixed _ f, h | .list _ f, h | .sized _ _ f, h => by
    simp only [Fmt.usesSelf]
    exact usesSelf_within f (by simpa only [Fmt.within] using h)
  | .tup fs, h => by
    simp only [Fmt.usesSelf]
    exact anySelf_within fs (by simpa only [Fmt.within] using h)
  | .me, h => by simp only [Fmt.within] at h
  | .choice _ _ _ _ _ opts other, h => by
    simp only [Fmt.within] at h
    simp only [Fmt.usesSelf, anySelf_within opts h.2.1, anySelf_within other h.2.2, Bool.or_self]
theorem anySelf_within {names : List Name} : ∀ fs : List Fmt, Fmt.allWithin names fs → Fmt.anySelf fs = false
  | [], _ => rfl
  | f :: fs, h => by
    simp only [Fmt.allWithin] at h
    simp only [Fmt.anySelf, usesSelf_within f h.1, anySelf_within fs h.2, Bool.or_self]
end

theorem noSelf_within {names : List Name} {fs : List Field} (h : ∀ f ∈ fs, f.within names) : fs.any Field.usesSelf = false := by
  rw [List.any_eq_false]
  intro f hf
  have := h f hf
  cases f with
  | value a f => simp only [Field.within] at this; simp [Field.usesSelf, usesSelf_within f this]
  | pad => simp [Field.usesSelf]
  | «when» a c f d => simp only [Field.within] at this; simp [Field.usesSelf, usesSelf_within f this.2]

/-! ### Packing -/

mutual
theorem bare_within {names : List Name} {o o' : PObj} (ha : Alike names o o') : ∀ f : Fmt, f.within names → f.bare o = f.bare o'
  | .int .., _ | .bool, _ | .half, _ | .single, _ | .double, _ | .chars _, _ | .pascal _, _ | .counted _, _ | .until _, _ | .rest, _ | .net, _ | .obj _, _
  | .via .., _ | .text .., _ | .fixed .., _ | .list .., _ | .sized .., _ | .tup _, _ | .me, _ => by simp only [Fmt.bare]
  | .choice _ _ _ decider _ opts other, h => by
    simp only [Fmt.within] at h
    simp only [Fmt.bare, h.1 o o' ha, bareAt_within ha opts h.2.1, bareAt_within ha other h.2.2]
theorem bareAt_within {names : List Name} {o o' : PObj} (ha : Alike names o o') : ∀ fs : List Fmt, Fmt.allWithin names fs → ∀ k, Fmt.bareAt o fs k = Fmt.bareAt o' fs k
  | [], _, k => rfl
  | f :: fs, h, 0 => by
    simp only [Fmt.allWithin] at h
    simp only [Fmt.bareAt, bare_within ha f h.1]
  | f :: fs, h, k + 1 => by
    simp only [Fmt.allWithin] at h
    simp only [Fmt.bareAt, bareAt_within ha fs h.2]
end

theorem surplus_within {names : List Name} {o o' : PObj} (ha : Alike names o o') (fs : List Fmt) (h : Fmt.allWithin names fs) (n : Nat) :
    surplus o fs n = surplus o' fs n := by
  unfold surplus
  split
  · rfl
  · split
    · rfl
    · split
      · simp only [Fmt.allWithin] at h
        rw [bare_within ha _ h.1]
      · rfl

mutual
theorem put_within {P : Platform} {bo : ByteOrder} {cls : ClassId → Val → Parsed Bytes} {names : List Name} {o o' : PObj} (ha : Alike names o o') :
    ∀ f : Fmt, f.within names → ∀ v, f.put P bo cls o v = f.put P bo cls o' v
  | .int .., _, v | .bool, _, v | .half, _, v | .single, _, v | .double, _, v | .chars _, _, v | .pascal _, _, v | .counted _, _, v | .until _, _, v
  | .rest, _, v | .net, _, v | .obj _, _, v => by
    simp only [Fmt.put]
  | .via _ f _ _ _, h, v => by
    simp only [Fmt.put]
    exact put_within ha f (by simpa only [Fmt.within] using h) v
  | .text f _ _, h, v => by
    simp only [Fmt.put, put_within (P := P) (bo := .default) (cls := cls) ha f (by simpa only [Fmt.within] using h)]
  | .fixed _ f, h, v | .list _ f, h, v | .sized _ _ f, h, v => by
    have : f.put P bo cls o = f.put P bo cls o' := funext (put_within ha f (by simpa only [Fmt.within] using h))
    simp only [Fmt.put, this]
  | .tup fs, h, v => by
    simp only [Fmt.within] at h
    simp only [Fmt.put, surplus_within ha fs h, puts_within (P := P) (bo := .default) (cls := cls) ha fs h]
  | .me, h, v => by simp only [Fmt.within] at h
  | .choice _ _ _ decider _ opts other, h, v => by
    simp only [Fmt.within] at h
    have h1 := putAt_within (P := P) (cls := cls) ha opts h.2.1
    have h2 := putAt_within (P := P) (cls := cls) ha other h.2.2
    simp only [Fmt.put, h1, h2, h.1 o o' ha]
theorem puts_within {P : Platform} {bo : ByteOrder} {cls : ClassId → Val → Parsed Bytes} {names : List Name} {o o' : PObj} (ha : Alike names o o') :
    ∀ fs : List Fmt, Fmt.allWithin names fs → ∀ k vs, Fmt.puts P bo cls o k fs vs = Fmt.puts P bo cls o' k fs vs
  | [], _, k, vs => by simp only [Fmt.puts]
  | f :: fs, h, k, [] => by
    simp only [Fmt.allWithin] at h
    simp only [Fmt.puts, bare_within ha f h.1]
  | f :: fs, h, k, v :: vs => by
    simp only [Fmt.allWithin] at h
    simp only [Fmt.puts, put_within (P := P) (bo := bo) (cls := cls) ha f h.1, puts_within (P := P) (bo := bo) (cls := cls) ha fs h.2]
theorem putAt_within {P : Platform} {cls : ClassId → Val → Parsed Bytes} {names : List Name} {o o' : PObj} (ha : Alike names o o') :
    ∀ fs : List Fmt, Fmt.allWithin names fs → ∀ k v, Fmt.putAt P cls o fs k v = Fmt.putAt P cls o' fs k v
  | [], _, k, v => by simp only [Fmt.putAt]
  | f :: fs, h, 0, v => by
    simp only [Fmt.allWithin] at h
    simp only [Fmt.putAt, put_within (P := P) (bo := .default) (cls := cls) ha f h.1]
  | f :: fs, h, k + 1, v => by
    simp only [Fmt.allWithin] at h
    simp only [Fmt.putAt, putAt_within (P := P) (cls := cls) ha fs h.2]
end

/-- What packing more fields comes to, when packing some of them came to `r`. -/
def FrontB (r r' : Parsed Bytes) : Prop :=
  match r with
  | .ok b => ∀ b', r' = .ok b' → b <+: b'
  | .err e => r' = .err e
  | .deep => r' = .deep
  | .odd => True

theorem frontB_bind (x : Parsed Bytes) {f f' : Bytes → Parsed Bytes} (hf : ∀ p, FrontB (f p) (f' p)) : FrontB (x >>= f) (x >>= f') := by
  cases x with
  | ok p => exact hf p
  | err | deep => rfl
  | odd => trivial

theorem frontB_map {r r' : Parsed Bytes} (h : FrontB r r') (g : Bytes) : FrontB (r >>= fun b => .ok (g ++ b)) (r' >>= fun b => .ok (g ++ b)) := by
  cases r with
  | ok b =>
    intro b' hr
    cases r' with
    | ok c =>
      simp only [Bind.bind, Parsed.bind, Parsed.ok.injEq] at hr
      subst hr
      exact (List.prefix_append_right_inj g).2 (h c rfl)
    | err | deep | odd => cases hr
  | err => simp only [FrontB] at h; subst h; rfl
  | deep => simp only [FrontB] at h; subst h; rfl
  | odd => trivial

/-- Packing some fields and then others begins with packing the former. -/
theorem putFields_front {P : Platform} {bo : ByteOrder} {cls : ClassId → Val → Parsed Bytes} {names : List Name} {o o' : PObj} (ha : Alike names o o')
    (more : List Field) (ws : List Val) :
    ∀ (fs : List Field), (∀ f ∈ fs, f.within names) → ∀ k vs,
      FrontB (putFields P bo cls o k fs vs) (putFields P bo cls o' k (fs ++ more) (vs ++ ws))
  | [], _, k, vs => by
    simp only [putFields]
    exact fun _ _ => List.nil_prefix
  | .value a f :: fs, h, k, v :: vs => by
    have hf := h _ (List.mem_cons_self ..)
    simp only [Field.within] at hf
    have ih := putFields_front (P := P) (bo := bo) (cls := cls) ha more ws fs (fun f hm => h f (List.mem_cons_of_mem _ hm))
    simp only [putFields, List.cons_append, put_within (P := P) (bo := bo) (cls := cls) ha f hf]
    exact frontB_bind _ fun p => frontB_map (ih _ vs) _
  | .value a f :: fs, h, k, [] => by simp only [putFields]; trivial
  | .pad a n :: fs, h, k, vs => by
    have ih := putFields_front (P := P) (bo := bo) (cls := cls) ha more ws fs (fun f hm => h f (List.mem_cons_of_mem _ hm))
    simp only [putFields, List.cons_append]
    exact frontB_map (ih _ vs) _
  | .when a c f d :: fs, h, k, v :: vs => by
    have hf := h _ (List.mem_cons_self ..)
    simp only [Field.within] at hf
    have ih := putFields_front (P := P) (bo := bo) (cls := cls) ha more ws fs (fun f hm => h f (List.mem_cons_of_mem _ hm))
    simp only [putFields, List.cons_append, put_within (P := P) (bo := bo) (cls := cls) ha f hf.2, hf.1 o o' ha]
    cases c o' with
    | error e => rfl
    | ok r =>
      dsimp only
      split
      · rfl
      · split
        · exact frontB_bind _ fun p => frontB_map (ih _ vs) _
        · exact ih _ vs
        · rfl
  | .when a c f d :: fs, h, k, [] => by simp only [putFields]; trivial

theorem pick_append (attrs : List (Name × Val)) : ∀ as bs : List Name, pick attrs (as ++ bs) = match pick attrs as, pick attrs bs with
    | some vs, some ws => some (vs ++ ws)
    | _, _ => Option.none
  | [], bs => by simp only [pick, List.nil_append]; cases pick attrs bs <;> rfl
  | a :: as, bs => by
    simp only [List.cons_append, pick, pick_append attrs as bs]
    cases attrs.lookup a with
    | none => rfl
    | some v => cases pick attrs as <;> cases pick attrs bs <;> rfl

theorem pick_congr {attrs attrs' : List (Name × Val)} : ∀ {as : List Name}, (∀ a ∈ as, attrs.lookup a = attrs'.lookup a) → pick attrs as = pick attrs' as
  | [], _ => rfl
  | a :: as, h => by
    simp only [pick, h a (List.mem_cons_self ..), pick_congr (as := as) fun b hb => h b (List.mem_cons_of_mem _ hb)]

theorem pick_some {attrs : List (Name × Val)} : ∀ {as : List Name}, (∀ a ∈ as, (attrs.lookup a).isSome = true) → ∃ vs, pick attrs as = some vs
  | [], _ => ⟨[], rfl⟩
  | a :: as, h => by
    obtain ⟨vs, hv⟩ := pick_some (as := as) fun b hb => h b (List.mem_cons_of_mem _ hb)
    obtain ⟨v, h2⟩ := Option.isSome_iff_exists.1 (h a (List.mem_cons_self ..))
    exact ⟨v :: vs, by simp only [pick, hv, h2]⟩

theorem attrs_append {d d' : ClassDoc} {more : List Field} (h : d'.fields = d.fields ++ more) :
    d'.attrs = d.attrs ++ (more.filter (!·.isPad)).map Field.name := by
  unfold ClassDoc.attrs
  rw [h, List.filter_append, List.map_append]

end Verif.Extends
