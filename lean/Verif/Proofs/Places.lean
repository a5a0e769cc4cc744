import Verif.Proofs.Extends
import Verif.Proofs.Spans
/-
Lemmas on the places of the fields in the bytes of an object.
-/
namespace Verif.Places
open Spec Extends

/-- How far behind the start of a run of basic fields one is behind some fields. -/
def runs (bo : ByteOrder) : Nat → List Field → Nat
  | k, [] => k
  | k, .value _ f :: fs => runs bo (after bo k f.basic) fs
  | k, .pad _ n :: fs => runs bo (k + n) fs
  | _, .when .. :: fs => runs bo 0 fs

theorem bind_assoc (x : Parsed α) (f : α → Parsed β) (g : β → Parsed γ) : (x >>= f) >>= g = x >>= fun a => f a >>= g := by
  cases x <;> rfl

theorem ok_bind (a : α) (f : α → Parsed β) : (Parsed.ok a >>= f) = f a := rfl

theorem bind_ok (x : Parsed α) : (x >>= Parsed.ok) = x := by cases x <;> rfl

variable {P : Platform} {bo : ByteOrder} {W : ClassId → Val → Parsed Bytes}

theorem putFields_append {o : PObj} (gs : List Field) (ws : List Val) : ∀ (fs : List Field) (k : Nat) (vs : List Val), vs.length = (fs.filter (!·.isPad)).length →
    putFields P bo W o k (fs ++ gs) (vs ++ ws) = putFields P bo W o k fs vs >>= fun b => putFields P bo W o (runs bo k fs) gs ws >>= fun b' => .ok (b ++ b')
  | [], k, vs, h => by
    have : vs = [] := by simpa using h
    subst this
    simp only [putFields, runs, List.nil_append, ok_bind]
    exact (bind_ok _).symm
  | .value a f :: fs, k, [], h => by simp [Field.isPad] at h
  | .value a f :: fs, k, v :: vs, h => by
    have ih := putFields_append (o := o) gs ws fs (after bo k f.basic) vs (by simpa [Field.isPad] using h)
    simp only [putFields, List.cons_append, runs, ih, bind_assoc, ok_bind, List.append_assoc]
  | .pad a n :: fs, k, vs, h => by
    have ih := putFields_append (o := o) gs ws fs (k + n) vs (by simpa [Field.isPad] using h)
    simp only [putFields, List.cons_append, runs, ih, bind_assoc, ok_bind, List.append_assoc]
  | .when a c f d :: fs, k, [], h => by simp [Field.isPad] at h
  | .when a c f d :: fs, k, v :: vs, h => by
    have ih := putFields_append (o := o) gs ws fs 0 vs (by simpa [Field.isPad] using h)
    simp only [putFields, List.cons_append, runs, ih]
    cases c o with
    | error e => rfl
    | ok r =>
      dsimp only
      split
      · rfl
      · split
        · simp only [bind_assoc, ok_bind, List.append_assoc]
        · rfl
        · rfl

theorem putFields_within {names : List Name} {o o' : PObj} (ha : Alike names o o') : ∀ (fs : List Field), (∀ f ∈ fs, f.within names) → ∀ k vs,
    putFields P bo W o k fs vs = putFields P bo W o' k fs vs
  | [], _, k, vs => by simp only [putFields]
  | .value a f :: fs, h, k, v :: vs => by
    have hf := h _ (List.mem_cons_self ..)
    simp only [Field.within] at hf
    simp only [putFields, put_within (P := P) (bo := bo) (cls := W) ha f hf, putFields_within ha fs fun f hm => h f (List.mem_cons_of_mem _ hm)]
  | .value a f :: fs, h, k, [] => by simp only [putFields]
  | .pad a n :: fs, h, k, vs => by
    simp only [putFields, putFields_within ha fs fun f hm => h f (List.mem_cons_of_mem _ hm)]
  | .when a c f d :: fs, h, k, v :: vs => by
    have hf := h _ (List.mem_cons_self ..)
    simp only [Field.within] at hf
    simp only [putFields, hf.1 o o' ha, put_within (P := P) (bo := bo) (cls := W) ha f hf.2, putFields_within ha fs fun f hm => h f (List.mem_cons_of_mem _ hm)]
  | .when a c f d :: fs, h, k, [] => by simp only [putFields]

/-- The bytes of one basic value. -/
theorem put_basic {o : PObj} : ∀ {f : Fmt} {v : Val} {b : Bytes} {w a : Nat}, f.basic = some (w, a) → f.put P bo W o v = .ok b → b.length = w
  | .int s w, v, b, _, _, hb, h => by
    simp only [Fmt.basic, Option.some.injEq, Prod.mk.injEq] at hb
    rw [← hb.1]
    simp only [Fmt.put] at h
    split at h
    · split at h
      · cases h; exact intBytes_length ..
      · cases h
    · cases h
  | .bool, v, b, _, _, hb, h => by
    simp only [Fmt.basic, Option.some.injEq, Prod.mk.injEq] at hb
    rw [← hb.1]
    simp only [Fmt.put] at h
    cases h; rfl
  | .half, v, b, _, _, hb, h => by
    simp only [Fmt.basic, Option.some.injEq, Prod.mk.injEq] at hb
    rw [← hb.1]
    simp only [Fmt.put] at h
    split at h
    · split at h
      · cases h; exact intBytes_length ..
      · cases h
    · cases h
  | .single, v, b, _, _, hb, h => by
    simp only [Fmt.basic, Option.some.injEq, Prod.mk.injEq] at hb
    rw [← hb.1]
    simp only [Fmt.put] at h
    split at h
    · split at h
      · cases h; exact intBytes_length ..
      · cases h
    · cases h
  | .double, v, b, _, _, hb, h => by
    simp only [Fmt.basic, Option.some.injEq, Prod.mk.injEq] at hb
    rw [← hb.1]
    simp only [Fmt.put] at h
    split at h
    · cases h; exact intBytes_length ..
    · cases h
  | .chars n, v, b, _, _, hb, h | .pascal n, v, b, _, _, hb, h => by
    simp only [Fmt.basic, Option.some.injEq, Prod.mk.injEq] at hb
    rw [← hb.1]
    simp only [Fmt.put] at h
    cases ho : octets v with
    | none => rw [ho] at h; cases h
    | some x =>
      rw [ho] at h
      simp only [Option.map_some, fits, Parsed.ok.injEq] at h
      rw [← h]
      simp [cut]
      omega
  | .via _ f _ _ _, v, b, _, _, hb, h => by
    simp only [Fmt.basic] at hb
    simp only [Fmt.put] at h
    exact put_basic hb h
  | .counted _, _, _, _, _, hb, _ | .until _, _, _, _, _, hb, _ | .rest, _, _, _, _, hb, _ | .net, _, _, _, _, hb, _ | .text .., _, _, _, _, hb, _
  | .fixed .., _, _, _, _, hb, _ | .list .., _, _, _, _, hb, _ | .sized .., _, _, _, _, hb, _ | .tup _, _, _, _, _, hb, _ | .obj _, _, _, _, _, hb, _
  | .me, _, _, _, _, hb, _ | .choice .., _, _, _, _, hb, _ => by simp only [Fmt.basic] at hb; cases hb

/-- The bytes of one basic field. -/
theorem putField_basic {o : PObj} {f : Field} {v : Val} {b : Bytes} {k w a : Nat} (hp : f.isPad = false) (hb : f.basic = some (w, a))
    (h : putFields P bo W o k [f] [v] = .ok b) : b.length = gap bo k f.basic + w := by
  cases f with
  | pad => cases hp
  | «when» => cases hb
  | value n f =>
    simp only [Field.basic] at hb ⊢
    simp only [putFields] at h
    cases hx : f.put P bo W o v with
    | ok x =>
      rw [hx] at h
      simp only [ok_bind, Parsed.ok.injEq] at h
      rw [← h]
      simp [put_basic hb hx]
    | err | deep | odd => rw [hx] at h; cases h

/-- Three parts. -/
theorem putFields_three {o : PObj} {fs gs : List Field} {f : Field} (hp : f.isPad = false) {us ws : List Val} {v : Val} {k : Nat}
    (hl : us.length = (fs.filter (!·.isPad)).length) :
    putFields P bo W o k (fs ++ f :: gs) (us ++ v :: ws) = putFields P bo W o k fs us >>= fun b1 =>
      putFields P bo W o (runs bo k fs) [f] [v] >>= fun b2 => putFields P bo W o (runs bo (runs bo k fs) [f]) gs ws >>= fun b3 => .ok (b1 ++ (b2 ++ b3)) := by
  have h1 := putFields_append (P := P) (bo := bo) (W := W) (o := o) (f :: gs) (v :: ws) fs k us hl
  have h2 := putFields_append (P := P) (bo := bo) (W := W) (o := o) gs ws [f] (runs bo k fs) [v] (by simp [hp])
  rw [List.singleton_append, List.singleton_append] at h2
  rw [h1, h2]
  simp only [bind_assoc, ok_bind]

theorem pick_length {attrs : List (Name × Val)} : ∀ {as : List Name} {vs : List Val}, pick attrs as = some vs → vs.length = as.length
  | [], vs, h => by simp only [pick, Option.some.injEq] at h; rw [← h]; rfl
  | a :: as, vs, h => by
    simp only [pick] at h
    split at h
    · rename_i v ws hv hw
      cases h
      simp [pick_length hw]
    · cases h

/-- The values of all fields, when one of them is looked at. -/
theorem pick_three {attrs : List (Name × Val)} {d : ClassDoc} {fs gs : List Field} {f : Field} (hf : d.fields = fs ++ f :: gs) (hp : f.isPad = false)
    {vs : List Val} (h : pick attrs d.attrs = some vs) :
    ∃ us v ws, vs = us ++ v :: ws ∧ pick attrs ((fs.filter (!·.isPad)).map Field.name) = some us ∧ attrs.lookup f.name = some v ∧
      pick attrs ((gs.filter (!·.isPad)).map Field.name) = some ws := by
  have e : d.attrs = (fs.filter (!·.isPad)).map Field.name ++ f.name :: (gs.filter (!·.isPad)).map Field.name := by
    unfold ClassDoc.attrs
    rw [hf, List.filter_append, List.filter_cons_of_pos (by simp [hp]), List.map_append]
    rfl
  rw [e, pick_append] at h
  cases h1 : pick attrs ((fs.filter (!·.isPad)).map Field.name) with
  | none => rw [h1] at h; cases h
  | some us =>
    rw [h1] at h
    simp only [pick] at h
    cases h2 : attrs.lookup f.name with
    | none => rw [h2] at h; cases h
    | some v =>
      rw [h2] at h
      cases h3 : pick attrs ((gs.filter (!·.isPad)).map Field.name) with
      | none => rw [h3] at h; cases h
      | some ws =>
        rw [h3] at h
        cases h
        exact ⟨us, v, ws, rfl, rfl, rfl, rfl⟩

end Verif.Places
