import Verif.Spec.Spelled
import Verif.Proofs.Places
/-
Lemmas on padding.
-/
namespace Verif.Spell
open Spec Places

/-- Reading the fields with their pads. -/
def reads (P : Platform) (bo : ByteOrder) (cls : ClassId → Bytes → Parsed (Val × Nat)) : PObj → List (Nat × Field) → Nat → Bytes → Parsed (List Val × Nat)
  | _, [], q, b => if q ≤ b.length then .ok ([], q) else .err .structError
  | o, (p, .value a f) :: l, q, b =>
    if p ≤ b.length then do
      let (v, n) ← f.read P bo cls o (b.drop p)
      let (vs, m) ← reads P bo cls (o.with a v) l q (b.drop (p + n))
      .ok (v :: vs, p + n + m)
    else .err .structError
  | o, (p, .when a c f d) :: l, q, b =>
    if p ≤ b.length then do
      let r ← .ofE (c o)
      if ¬ r.hashable then .err .typeError
      else match keyAt [.bool true, .bool false] r with
        | some 0 => do
          let (v, n) ← f.read P bo cls o (b.drop p)
          let (vs, m) ← reads P bo cls (o.with a v) l q (b.drop (p + n))
          .ok (v :: vs, p + n + m)
        | some _ => do
          let (vs, m) ← reads P bo cls (o.with a d) l q (b.drop p)
          .ok (d :: vs, p + m)
        | none => .err .keyError
    else .err .structError
  | _, (_, .pad ..) :: _, _, _ => .odd

/-- Packing them. -/
def puts (P : Platform) (bo : ByteOrder) (cls : ClassId → Val → Parsed Bytes) (o : PObj) : List (Nat × Field) → Nat → List Val → Parsed Bytes
  | [], q, _ => .ok (List.replicate q 0)
  | (p, .value _ f) :: l, q, v :: vs => do
    let b ← f.put P bo cls o v
    let bs ← puts P bo cls o l q vs
    .ok (List.replicate p 0 ++ b ++ bs)
  | (p, .when _ c f _) :: l, q, v :: vs => match c o with
    | .error e => .err e
    | .ok r =>
      if ¬ r.hashable then .err .typeError
      else match verdict r with
        | some true => do
          let b ← f.put P bo cls o v
          let bs ← puts P bo cls o l q vs
          .ok (List.replicate p 0 ++ (b ++ bs))
        | some false => do
          let bs ← puts P bo cls o l q vs
          .ok (List.replicate p 0 ++ bs)
        | none => .err .keyError
  | _, _, _ => .odd

theorem bind_pair {α β : Type} (x : Parsed (α × β)) : (x >>= fun y => Parsed.ok (y.1, y.2)) = x := by cases x <;> rfl

variable {P : Platform}

/-- Types that are aligned are not read from nothing. -/
theorem read_nil {bo : ByteOrder} {cls : ClassId → Bytes → Parsed (Val × Nat)} {o : PObj} : ∀ (f : Fmt) {k : Nat}, gap bo k f.basic ≠ 0 → f.read P bo cls o [] = .err .structError
  | .int _ w, k, h => by cases w <;> rfl
  | .bool, k, h => rfl
  | .half, k, h => rfl
  | .single, k, h => rfl
  | .double, k, h => rfl
  | .chars n, k, h | .pascal n, k, h => by
    exfalso
    apply h
    simp only [Fmt.basic, gap, Nat.add_sub_cancel, Nat.div_one, Nat.mul_one, Nat.sub_self]
    split <;> rfl
  | .via _ f _ _ _, k, h => by
    simp only [Fmt.read, read_nil f (k := k) h]
    rfl
  | .counted _, k, h | .until _, k, h | .rest, k, h | .net, k, h | .text .., k, h | .fixed .., k, h | .list .., k, h | .sized .., k, h | .tup _, k, h
  | .obj _, k, h | .me, k, h | .choice .., k, h => absurd rfl h

theorem reads_spelled {bo : ByteOrder} {cls : ClassId → Bytes → Parsed (Val × Nat)} : ∀ (fs : List Field) (o : PObj) (k p : Nat) (b : Bytes),
    reads P bo cls o (spelled bo k p fs).1 (spelled bo k p fs).2 b =
      if p ≤ b.length then readFields P bo cls o k fs (b.drop p) >>= fun x => .ok (x.1, p + x.2) else .err .structError
  | [], o, k, p, b => by
    simp only [spelled, reads, readFields, ok_bind, Nat.add_zero]
  | .value a f :: fs, o, k, p, b => by
    have ih := fun o b => reads_spelled (bo := bo) (cls := cls) fs o (after bo k f.basic) 0 b
    simp only [Nat.zero_le, if_true, List.drop_zero, Nat.zero_add, bind_pair] at ih
    simp only [spelled, reads, readFields, List.drop_drop, Places.bind_assoc, ok_bind, ih, Nat.add_assoc]
    by_cases h1 : p + gap bo k f.basic ≤ b.length
    · rw [if_pos h1, if_pos (by omega)]
    · rw [if_neg h1]
      split
      · have hg : gap bo k f.basic ≠ 0 := by omega
        rw [List.drop_eq_nil_of_le (by omega), read_nil f hg]
        rfl
      · rfl
  | .pad a n :: fs, o, k, p, b => by
    simp only [spelled, readFields, reads_spelled fs, List.length_drop]
    by_cases h1 : p + n ≤ b.length
    · rw [if_pos h1, if_pos (by omega), if_pos (by omega)]
      simp only [List.drop_drop, Places.bind_assoc, ok_bind, Nat.add_assoc]
    · rw [if_neg h1]
      split
      · rw [if_neg (by omega)]; rfl
      · rfl
  | .when a c f d :: fs, o, k, p, b => by
    have ih := fun o b => reads_spelled (bo := bo) (cls := cls) fs o 0 0 b
    simp only [Nat.zero_le, if_true, List.drop_zero, Nat.zero_add, bind_pair] at ih
    simp only [spelled, reads, readFields, List.drop_drop, Places.bind_assoc, ih, Nat.add_assoc]
    split
    · congr 1
      funext r
      split
      · rfl
      · match keyAt [.bool true, .bool false] r with
        | some 0 => simp only [Places.bind_assoc, ok_bind, Nat.add_assoc]
        | some (_ + 1) => simp only [Places.bind_assoc, ok_bind]
        | none => rfl
    · rfl

theorem puts_spelled {bo : ByteOrder} {cls : ClassId → Val → Parsed Bytes} {o : PObj} : ∀ (fs : List Field) (k p : Nat) (vs : List Val),
    puts P bo cls o (spelled bo k p fs).1 (spelled bo k p fs).2 vs = putFields P bo cls o k fs vs >>= fun b => .ok (List.replicate p 0 ++ b)
  | [], k, p, vs => by
    simp only [spelled, puts, putFields, ok_bind, List.append_nil]
  | .value a f :: fs, k, p, [] => rfl
  | .value a f :: fs, k, p, v :: vs => by
    have ih := fun vs => puts_spelled (bo := bo) (cls := cls) (o := o) fs (after bo k f.basic) 0 vs
    simp only [List.replicate_zero, List.nil_append, bind_ok] at ih
    simp only [spelled, puts, putFields, ih, Places.bind_assoc, ok_bind, List.append_assoc, ← List.replicate_append_replicate]
  | .pad a n :: fs, k, p, vs => by
    simp only [spelled, putFields, puts_spelled fs, Places.bind_assoc, ok_bind, List.append_assoc, ← List.replicate_append_replicate]
  | .when a c f d :: fs, k, p, [] => rfl
  | .when a c f d :: fs, k, p, v :: vs => by
    have ih := fun vs => puts_spelled (bo := bo) (cls := cls) (o := o) fs 0 0 vs
    simp only [List.replicate_zero, List.nil_append, bind_ok] at ih
    simp only [spelled, puts, putFields, ih]
    cases c o with
    | error e => rfl
    | ok r =>
      simp only
      split
      · rfl
      · match verdict r with
        | some true => simp only [Places.bind_assoc, ok_bind]
        | some false => rfl
        | none => rfl

theorem readFields_padding {bo : ByteOrder} {cls : ClassId → Bytes → Parsed (Val × Nat)} {fs gs : List Field} (h : spelled bo 0 0 gs = spelled bo 0 0 fs)
    (o : PObj) (b : Bytes) : readFields P bo cls o 0 gs b = readFields P bo cls o 0 fs b := by
  have h1 := reads_spelled (P := P) (bo := bo) (cls := cls) fs o 0 0 b
  have h2 := reads_spelled (P := P) (bo := bo) (cls := cls) gs o 0 0 b
  simp only [Nat.zero_le, if_true, List.drop_zero, Nat.zero_add, bind_pair] at h1 h2
  rw [← h1, ← h2, h]

theorem putFields_padding {bo : ByteOrder} {cls : ClassId → Val → Parsed Bytes} {fs gs : List Field} (h : spelled bo 0 0 gs = spelled bo 0 0 fs)
    (o : PObj) (vs : List Val) : putFields P bo cls o 0 gs vs = putFields P bo cls o 0 fs vs := by
  have h1 := puts_spelled (P := P) (bo := bo) (cls := cls) (o := o) fs 0 0 vs
  have h2 := puts_spelled (P := P) (bo := bo) (cls := cls) (o := o) gs 0 0 vs
  simp only [List.replicate_zero, List.nil_append, bind_ok] at h1 h2
  rw [← h1, ← h2, h]

theorem spelled_fields (bo : ByteOrder) : ∀ (fs : List Field) (k p : Nat), (spelled bo k p fs).1.map (·.2) = fs.filter (!·.isPad)
  | [], k, p => rfl
  | .value a f :: fs, k, p => by simp only [spelled, List.map_cons, spelled_fields bo fs, Field.isPad, List.filter, Bool.not_false]
  | .pad a n :: fs, k, p => by simp only [spelled, spelled_fields bo fs, Field.isPad, List.filter, Bool.not_true]
  | .when a c f d :: fs, k, p => by simp only [spelled, List.map_cons, spelled_fields bo fs, Field.isPad, List.filter, Bool.not_false]

theorem padding_attrs {bo : ByteOrder} {d d' : ClassDoc} (h : spelled bo 0 0 d'.fields = spelled bo 0 0 d.fields) : d'.attrs = d.attrs := by
  show (d'.fields.filter _).map _ = (d.fields.filter _).map _
  rw [← spelled_fields bo d'.fields 0 0, ← spelled_fields bo d.fields 0 0, h]

theorem padding_self {bo : ByteOrder} {fs gs : List Field} (h : spelled bo 0 0 gs = spelled bo 0 0 fs) : gs.any Field.usesSelf = fs.any Field.usesSelf := by
  have key : ∀ fs : List Field, (fs.filter (!·.isPad)).any Field.usesSelf = fs.any Field.usesSelf := by
    intro fs
    induction fs with
    | nil => rfl
    | cons f fs ih => cases f <;> simp_all [List.filter, Field.isPad, Field.usesSelf]
  rw [← key fs, ← key gs, ← spelled_fields bo gs 0 0, ← spelled_fields bo fs 0 0, h]

theorem readObj_padding {docs docs' : ClassId → Option ClassDoc} (h : SamePadding docs docs') : ∀ k, readObj P docs' k = readObj P docs k
  | 0 => by funext c b; simp only [readObj]
  | k + 1 => by
    funext c b
    simp only [readObj, readObj_padding h k]
    rcases h c with ⟨h1, h2⟩ | ⟨d, d', h1, h2, ho, hg⟩
    · rw [h1, h2]
    · simp only [h1, h2, padding_attrs hg, ho, padding_self hg, readFields_padding hg]

theorem putObj_pads {docs docs' : ClassId → Option ClassDoc} (h : SamePads docs docs') : ∀ k, putObj P docs' k = putObj P docs k
  | 0 => by funext v; simp only [putObj]
  | k + 1 => by
    funext v
    cases v with
    | obj c own attrs =>
      simp only [putObj, putObj_pads h k]
      rcases h c with ⟨h1, h2⟩ | ⟨d, d', h1, h2, ho, hg⟩
      · rw [h1, h2]
      · simp only [h1, h2, padding_attrs (hg .default), ho, putFields_padding (hg _)]
    | _ => simp only [putObj]

theorem all_mem : ∀ {vs : List Val}, allOwnless vs ↔ ∀ v ∈ vs, ownless v
  | [] => by simp [allOwnless]
  | v :: vs => by simp [allOwnless, all_mem (vs := vs)]

theorem meant_ownless : ∀ {v : Val}, ownless v → ownless (meant v)
  | .custom _ v, h => by simp only [meant]; exact meant_ownless (v := v) (by simpa only [ownless] using h)
  | .none, h | .int _, h | .bool _, h | .float _, h | .bytes _, h | .str _, h | .list _, h | .tup _, h | .obj .., h => h
  | .gen .., h => h

theorem elements_ownless {v : Val} {vs : List Val} (h : ownless v) (he : elements v = some vs) : allOwnless vs := by
  have hm := meant_ownless h
  unfold elements at he
  split at he
  · rename_i hv; cases he; rw [hv] at hm; simpa only [ownless] using hm
  · rename_i hv; cases he; rw [hv] at hm; simpa only [ownless] using hm
  · cases he
    rw [all_mem]
    intro v hv
    obtain ⟨_, _, rfl⟩ := List.mem_map.1 hv
    simp only [ownless]
  · cases he
    rw [all_mem]
    intro v hv
    obtain ⟨_, _, rfl⟩ := List.mem_map.1 hv
    simp only [ownless]
  · cases he

theorem lookup_ownless : ∀ {as : List (Name × Val)} {a : Name} {v : Val}, attrsOwnless as → as.lookup a = some v → ownless v
  | (b, w) :: as, a, v, h, hl => by
    simp only [attrsOwnless] at h
    rw [List.lookup_cons] at hl
    split at hl
    · cases hl; exact h.1
    · exact lookup_ownless h.2 hl

theorem pick_ownless {as : List (Name × Val)} (h : attrsOwnless as) : ∀ {names : List Name} {vs : List Val}, pick as names = some vs → allOwnless vs
  | [], vs, hp => by cases hp; simp only [allOwnless]
  | a :: names, vs, hp => by
    simp only [pick] at hp
    split at hp
    · rename_i h1 h2
      cases hp
      exact ⟨lookup_ownless h h1, pick_ownless h h2⟩
    · cases hp

section congr
variable {cls cls' : ClassId → Val → Parsed Bytes}

theorem putAll_ownless {f f' : Val → Parsed Bytes} (h : ∀ v, ownless v → f' v = f v) : ∀ {vs : List Val}, allOwnless vs → putAll f' vs = putAll f vs
  | [], _ => rfl
  | v :: vs, hv => by
    simp only [allOwnless] at hv
    simp only [putAll, h v hv.1, putAll_ownless h hv.2]

mutual
theorem put_ownless (hc : ∀ c v, ownless v → cls' c v = cls c v) (o : PObj) : ∀ (f : Fmt) (bo : ByteOrder) {v : Val}, ownless v → f.put P bo cls' o v = f.put P bo cls o v
  | .int .., bo, v, _ | .bool, bo, v, _ | .half, bo, v, _ | .single, bo, v, _ | .double, bo, v, _ | .chars _, bo, v, _ | .pascal _, bo, v, _ | .counted _, bo, v, _
  | .until _, bo, v, _ | .rest, bo, v, _ | .net, bo, v, _ => by simp only [Fmt.put]
  | .via _ f _ _ _, bo, v, h => by simp only [Fmt.put, put_ownless hc o f bo h]
  | .text f en _, bo, v, h => by
    simp only [Fmt.put]
    split
    · exact put_ownless hc o f _ (by simp only [ownless])
    · rfl
  | .obj _, bo, v, h | .me, bo, v, h => by simp only [Fmt.put, hc _ _ h]
  | .fixed n f, bo, v, h | .list _ f, bo, v, h | .sized _ _ f, bo, v, h => by
    simp only [Fmt.put]
    split
    · rfl
    · rename_i he
      rw [putAll_ownless (fun v hv => put_ownless hc o f bo hv) (elements_ownless h he)]
  | .tup fs, bo, v, h => by
    simp only [Fmt.put]
    split
    · rfl
    · rename_i he
      rw [puts_ownless hc o fs _ 0 (elements_ownless h he)]
  | .choice _ _ _ decider keys opts other, bo, v, h => by
    simp only [Fmt.put]
    split
    · rfl
    · split
      · rfl
      · split
        · exact putAt_ownless hc o opts _ h
        · exact putAt_ownless hc o other _ h
theorem puts_ownless (hc : ∀ c v, ownless v → cls' c v = cls c v) (o : PObj) : ∀ (fs : List Fmt) (bo : ByteOrder) (k : Nat) {vs : List Val}, allOwnless vs →
    Fmt.puts P bo cls' o k fs vs = Fmt.puts P bo cls o k fs vs
  | [], bo, k, vs, _ => by simp only [Fmt.puts]
  | f :: fs, bo, k, [], _ => by simp only [Fmt.puts]
  | f :: fs, bo, k, v :: vs, h => by
    simp only [allOwnless] at h
    simp only [Fmt.puts, put_ownless hc o f bo h.1, puts_ownless hc o fs bo _ h.2]
theorem putAt_ownless (hc : ∀ c v, ownless v → cls' c v = cls c v) (o : PObj) : ∀ (fs : List Fmt) (k : Nat) {v : Val}, ownless v →
    Fmt.putAt P cls' o fs k v = Fmt.putAt P cls o fs k v
  | [], k, v, _ => by simp only [Fmt.putAt]
  | f :: fs, 0, v, h => by simp only [Fmt.putAt, put_ownless hc o f _ h]
  | f :: fs, k + 1, v, h => by simp only [Fmt.putAt, putAt_ownless hc o fs k h]
end

theorem putFields_ownless (hc : ∀ c v, ownless v → cls' c v = cls c v) {bo : ByteOrder} (o : PObj) : ∀ (fs : List Field) (k : Nat) {vs : List Val}, allOwnless vs →
    putFields P bo cls' o k fs vs = putFields P bo cls o k fs vs
  | [], k, vs, _ => by simp only [putFields]
  | .value a f :: fs, k, [], _ => by simp only [putFields]
  | .value a f :: fs, k, v :: vs, h => by
    simp only [allOwnless] at h
    simp only [putFields, put_ownless hc o f bo h.1, putFields_ownless hc o fs _ h.2]
  | .pad a n :: fs, k, vs, h => by simp only [putFields, putFields_ownless hc o fs _ h]
  | .when a c f d :: fs, k, [], _ => by simp only [putFields]
  | .when a c f d :: fs, k, v :: vs, h => by
    simp only [allOwnless] at h
    simp only [putFields, put_ownless hc o f bo h.1, putFields_ownless hc o fs _ h.2]
end congr

theorem putObj_padding {docs docs' : ClassId → Option ClassDoc} (h : SamePadding docs docs') : ∀ k v, ownless v → putObj P docs' k v = putObj P docs k v
  | 0, v, _ => by simp only [putObj]
  | k + 1, v, hv => by
    cases v with
    | obj c own attrs =>
      simp only [ownless] at hv
      obtain ⟨rfl, hv⟩ := hv
      simp only [putObj]
      rcases h c with ⟨h1, h2⟩ | ⟨d, d', h1, h2, ho, hg⟩
      · rw [h1, h2]
      · simp only [h1, h2, padding_attrs hg, ho, Option.getD_none, putFields_padding hg]
        split
        · rfl
        · rename_i hp
          exact putFields_ownless (fun _ v hv => putObj_padding h k v hv) _ _ _ (pick_ownless hv hp)
    | _ => simp only [putObj]

end Verif.Spell
