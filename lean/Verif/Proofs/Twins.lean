import Verif.Spec.Twins
import Verif.Proofs.Extends
import Verif.Proofs.FormatClass
import Verif.Instances
/-
Lemmas on values that are packed in the same way.
-/
namespace Verif.Twinned
open Spec

variable {docs : ClassId → Option ClassDoc}

theorem sameNumber_cases {v w : Val} (h : SameNumber v w) : (∃ b : Bool, v = .int (if b then 1 else 0) ∧ w = .bool b) ∨ ∃ b : Bool, v = .bool b ∧ w = .int (if b then 1 else 0) := by
  unfold SameNumber at h
  split at h
  · subst h; exact .inl ⟨_, rfl, rfl⟩
  · subst h; exact .inr ⟨_, rfl, rfl⟩
  · exact h.elim

theorem keyEq_same {r r' : Val} (h : SameNumber r r') (k : Val) : k.keyEq r = k.keyEq r' := by
  rcases sameNumber_cases h with ⟨b, rfl, rfl⟩ | ⟨b, rfl, rfl⟩ <;> cases k <;> cases b <;> first | rfl | (rename_i x; cases x <;> rfl) | simp [Val.keyEq]

mutual
theorem keyEq_twin : ∀ (k : Val) {r r' : Val}, Twin docs r r' → k.keyEq r = k.keyEq r'
  | k, _, _, .same _ => rfl
  | k, _, _, .number h => keyEq_same h k
  | .tup ks, _, _, .tup h => by
    simp only [Val.keyEq]
    exact keyEqList_twin ks h
  | .none, _, _, .tup _ | .int _, _, _, .tup _ | .bool _, _, _, .tup _ | .float _, _, _, .tup _ | .bytes _, _, _, .tup _ | .str _, _, _, .tup _
  | .list _, _, _, .tup _ | .obj .., _, _, .tup _ | .custom .., _, _, .tup _ | .gen, _, _, .tup _ => by simp only [Val.keyEq]
  | k, _, _, .list _ => by cases k <;> simp only [Val.keyEq]
  | k, _, _, .obj .. => by cases k <;> simp only [Val.keyEq]
theorem keyEqList_twin : ∀ (ks : List Val) {rs rs' : List Val}, Twins docs rs rs' → Val.keyEqList ks rs = Val.keyEqList ks rs'
  | ks, [], [], _ => rfl
  | [], _ :: _, _ :: _, _ => by simp only [Val.keyEqList]
  | k :: ks, _ :: _, _ :: _, .cons h hs => by simp only [Val.keyEqList, keyEq_twin k h, keyEqList_twin ks hs]
end

mutual
theorem hashable_twin : ∀ (r r' : Val), Twin docs r r' → r.hashable = r'.hashable
  | r, _, .same _ => rfl
  | r, r', .number h => by rcases sameNumber_cases h with ⟨b, rfl, rfl⟩ | ⟨b, rfl, rfl⟩ <;> simp only [Val.hashable]
  | .tup rs, .tup rs', .tup h => by
    simp only [Val.hashable]
    exact hashableList_twin rs rs' h
  | .list _, .list _, .list _ => by simp only [Val.hashable]
  | .obj .., .obj .., .obj .. => by simp only [Val.hashable]
theorem hashableList_twin : ∀ (rs rs' : List Val), Twins docs rs rs' → Val.hashableList rs = Val.hashableList rs'
  | [], [], _ => rfl
  | r :: rs, r' :: rs', .cons h hs => by simp only [Val.hashableList, hashable_twin r r' h, hashableList_twin rs rs' hs]
end

theorem keyEq_bool {r r' : Val} (h : Twin docs r r') (k : Bool) : r.keyEq (.bool k) = r'.keyEq (.bool k) := by
  cases h with
  | same => rfl
  | number h => rcases sameNumber_cases h with ⟨b, rfl, rfl⟩ | ⟨b, rfl, rfl⟩ <;> cases k <;> cases b <;> rfl
  | list | tup | obj => simp only [Val.keyEq]

theorem keyAt_twin {r r' : Val} (h : Twin docs r r') (keys : List Val) : keyAt keys r = keyAt keys r' := by
  unfold keyAt
  rw [hashable_twin _ _ h, funext fun k => keyEq_twin k h]

theorem verdict_twin {r r' : Val} (h : Twin docs r r') : verdict r = verdict r' := by
  unfold verdict
  rw [hashable_twin _ _ h, keyEq_bool h, keyEq_bool h]

/-- What the functions of the specification see of a value. -/
structure Looks (docs : ClassId → Option ClassDoc) (v w : Val) : Prop where
  number : number v = number w
  holds : holds v = holds w
  real : ∀ P, real P v = real P w
  octets : octets v = octets w
  elements : (elements v = none ∧ elements w = none) ∨ ∃ vs ws, elements v = some vs ∧ elements w = some ws ∧ Twins docs vs ws
  meant : (∃ b, meant v = .bytes b ∧ meant w = .bytes b) ∨ (∃ vs ws, meant v = .list vs ∧ meant w = .list ws) ∨
    ((∀ b, meant v ≠ .bytes b) ∧ (∀ b, meant w ≠ .bytes b) ∧ (∀ b, meant v ≠ .list b) ∧ ∀ b, meant w ≠ .list b)

theorem twins_refl : ∀ vs, Twins docs vs vs
  | [] => .nil
  | v :: vs => .cons (.same v) (twins_refl vs)

theorem twins_length : ∀ {vs ws}, Twins docs vs ws → vs.length = ws.length
  | [], [], _ => rfl
  | _ :: _, _ :: _, .cons _ h => congrArg Nat.succ (twins_length h)

theorem twin_looks {v w : Val} (h : Twin docs v w) : Looks docs v w := by
  cases h with
  | same =>
    refine ⟨rfl, rfl, fun _ => rfl, rfl, ?_, ?_⟩
    · cases elements v with
      | none => exact .inl ⟨rfl, rfl⟩
      | some vs => exact .inr ⟨vs, vs, rfl, rfl, twins_refl vs⟩
    · cases meant v with
      | bytes b => exact .inl ⟨b, rfl, rfl⟩
      | list vs => exact .inr (.inl ⟨vs, vs, rfl, rfl⟩)
      | _ => exact .inr (.inr ⟨nofun, nofun, nofun, nofun⟩)
  | number h =>
    rcases sameNumber_cases h with ⟨b, rfl, rfl⟩ | ⟨b, rfl, rfl⟩ <;> refine ⟨rfl, ?_, fun _ => rfl, rfl, .inl ⟨rfl, rfl⟩, .inr (.inr ⟨nofun, nofun, nofun, nofun⟩)⟩ <;>
      cases b <;> rfl
  | list h =>
    refine ⟨rfl, ?_, fun _ => rfl, rfl, .inr ⟨_, _, rfl, rfl, h⟩, .inr (.inl ⟨_, _, rfl, rfl⟩)⟩
    cases h <;> rfl
  | tup h =>
    refine ⟨rfl, ?_, fun _ => rfl, rfl, .inr ⟨_, _, rfl, rfl, h⟩, .inr (.inr ⟨nofun, nofun, nofun, nofun⟩)⟩
    cases h <;> rfl
  | obj => exact ⟨rfl, rfl, fun _ => rfl, rfl, .inl ⟨rfl, rfl⟩, .inr (.inr ⟨nofun, nofun, nofun, nofun⟩)⟩

/-- The objects that the values belong to. -/
structure Pair (docs : ClassId → Option ClassDoc) (names : List Name) (o o' : PObj) : Prop where
  cls : o.cls = o'.cls
  proxy : o.isProxy = o'.isProxy
  attrs : ∀ a ∈ names, ∃ v w, o.attrs.lookup a = some v ∧ o'.attrs.lookup a = some w ∧ Twin docs v w

variable {P : Platform} {bo : ByteOrder} {cls : ClassId → Val → Parsed Bytes} {names : List Name} {o o' : PObj}

mutual
theorem bare_twin (ha : Pair docs names o o') : ∀ f : Fmt, f.impartial docs names → f.bare o = f.bare o'
  | .int .., _ | .bool, _ | .half, _ | .single, _ | .double, _ | .chars _, _ | .pascal _, _ | .counted _, _ | .until _, _ | .rest, _ | .net, _ | .obj _, _
  | .via .., _ | .text .., _ | .fixed .., _ | .list .., _ | .sized .., _ | .tup _, _ | .me, _ => by simp only [Fmt.bare]
  | .choice _ _ _ decider _ opts other, h => by
    simp only [Fmt.impartial] at h
    simp only [Fmt.bare, bareAt_twin ha opts h.2.1, bareAt_twin ha other h.2.2]
    rcases h.1 o o' ha.cls ha.proxy ha.attrs with e | ⟨r, r', e1, e2, hr⟩
    · rw [e]
    · rw [e1, e2]
      simp only [hashable_twin _ _ hr, keyAt_twin hr]
theorem bareAt_twin (ha : Pair docs names o o') : ∀ fs : List Fmt, Fmt.allImpartial docs names fs → ∀ k, Fmt.bareAt o fs k = Fmt.bareAt o' fs k
  | [], _, k => rfl
  | f :: fs, h, 0 => by
    simp only [Fmt.allImpartial] at h
    simp only [Fmt.bareAt, bare_twin ha f h.1]
  | f :: fs, h, k + 1 => by
    simp only [Fmt.allImpartial] at h
    simp only [Fmt.bareAt, bareAt_twin ha fs h.2]
end

theorem surplus_twin (ha : Pair docs names o o') (fs : List Fmt) (h : Fmt.allImpartial docs names fs) (n : Nat) :
    surplus o fs n = surplus o' fs n := by
  unfold surplus
  split
  · rfl
  · split
    · rfl
    · split
      · simp only [Fmt.allImpartial] at h
        rw [bare_twin ha _ h.1]
      · rfl

theorem putAll_twin {g g' : Val → Parsed Bytes} (h : ∀ v w, Twin docs v w → g v = g' w) : ∀ {vs ws}, Twins docs vs ws → putAll g vs = putAll g' ws
  | [], [], _ => rfl
  | _ :: _, _ :: _, .cons h1 h2 => by simp only [putAll, h _ _ h1, putAll_twin h h2]

mutual
theorem put_twin (hc : ∀ c v w, Twin docs v w → cls c v = cls c w) (ha : Pair docs names o o') :
    ∀ (bo : ByteOrder) (f : Fmt), f.impartial docs names → ∀ v w, Twin docs v w → f.put P bo cls o v = f.put P bo cls o' w
  | bo, .int .., _, v, w, h | bo, .bool, _, v, w, h | bo, .chars _, _, v, w, h | bo, .pascal _, _, v, w, h
  | bo, .rest, _, v, w, h => by
    have := twin_looks h
    simp only [Fmt.put, this.number, this.holds, this.octets]
  | bo, .half, _, v, w, h | bo, .single, _, v, w, h | bo, .double, _, v, w, h => by
    have := twin_looks h
    simp only [Fmt.put, this.real P, excess, this.number]
  | bo, .counted _, _, v, w, h | bo, .net, _, v, w, h => by
    have := twin_looks h
    simp only [Fmt.put, this.octets]
    rcases this.elements with ⟨e1, e2⟩ | ⟨vs, ws, e1, e2, e3⟩
    · rw [e1, e2]
    · rw [e1, e2]
      have h1 := twins_length e3
      have h2 : vs = [] ↔ ws = [] := by rw [← List.length_eq_zero_iff, h1, List.length_eq_zero_iff]
      simp only [h1, h2]
  | bo, .until _, _, v, w, h => by
    simp only [Fmt.put]
    rcases (twin_looks h).meant with ⟨b, e1, e2⟩ | ⟨vs, ws, e1, e2⟩ | ⟨h1, h2, h3, h4⟩
    · rw [e1, e2]
    · rw [e1, e2]
    · split
      · rename_i e; exact absurd e (h1 _)
      · rename_i e; exact absurd e (h3 _)
      · rfl
  | bo, .obj c, _, v, w, h => by
    simp only [Fmt.put]
    exact hc c v w h
  | bo, .me, _, v, w, h => by
    simp only [Fmt.put, ha.cls]
    exact hc _ v w h
  | bo, .via _ f _ _ _, hi, v, w, h => by
    simp only [Fmt.impartial] at hi
    simp only [Fmt.put]
    exact put_twin hc ha bo f hi v w h
  | bo, .text f en _, hi, v, w, h => by
    simp only [Fmt.impartial] at hi
    simp only [Fmt.put, hi.2 v w h]
    cases en w with
    | error => rfl
    | ok b => exact put_twin hc ha .default f hi.1 _ _ (.same _)
  | bo, .fixed _ f, hi, v, w, h | bo, .list _ f, hi, v, w, h | bo, .sized _ _ f, hi, v, w, h => by
    simp only [Fmt.impartial] at hi
    simp only [Fmt.put]
    rcases (twin_looks h).elements with ⟨e1, e2⟩ | ⟨vs, ws, e1, e2, e3⟩
    · rw [e1, e2]
    · rw [e1, e2]
      simp only [twins_length e3, putAll_twin (put_twin hc ha bo f hi) e3]
  | bo, .tup fs, hi, v, w, h => by
    simp only [Fmt.impartial] at hi
    simp only [Fmt.put]
    rcases (twin_looks h).elements with ⟨e1, e2⟩ | ⟨vs, ws, e1, e2, e3⟩
    · rw [e1, e2]
    · rw [e1, e2]
      simp only [surplus_twin ha fs hi, twins_length e3, puts_twin hc ha .default fs hi 0 _ _ e3]
  | bo, .choice _ _ _ decider _ opts other, hi, v, w, h => by
    simp only [Fmt.impartial] at hi
    have h1 := fun k => putAt_twin hc ha opts hi.2.1 k v w h
    have h2 := fun k => putAt_twin hc ha other hi.2.2 k v w h
    simp only [Fmt.put, h1, h2]
    rcases hi.1 o o' ha.cls ha.proxy ha.attrs with e | ⟨r, r', e1, e2, hr⟩
    · rw [e]
    · rw [e1, e2]
      simp only [hashable_twin _ _ hr, keyAt_twin hr]
theorem puts_twin (hc : ∀ c v w, Twin docs v w → cls c v = cls c w) (ha : Pair docs names o o') :
    ∀ (bo : ByteOrder) (fs : List Fmt), Fmt.allImpartial docs names fs → ∀ k vs ws, Twins docs vs ws → Fmt.puts P bo cls o k fs vs = Fmt.puts P bo cls o' k fs ws
  | bo, [], _, k, vs, ws, _ => by simp only [Fmt.puts]
  | bo, f :: fs, hi, k, [], [], _ => by
    simp only [Fmt.allImpartial] at hi
    simp only [Fmt.puts, bare_twin ha f hi.1]
  | bo, f :: fs, hi, k, v :: vs, w :: ws, .cons h1 h2 => by
    simp only [Fmt.allImpartial] at hi
    simp only [Fmt.puts, put_twin hc ha bo f hi.1 v w h1, puts_twin hc ha bo fs hi.2 _ vs ws h2, twins_length h2]
theorem putAt_twin (hc : ∀ c v w, Twin docs v w → cls c v = cls c w) (ha : Pair docs names o o') :
    ∀ fs : List Fmt, Fmt.allImpartial docs names fs → ∀ k v w, Twin docs v w → Fmt.putAt P cls o fs k v = Fmt.putAt P cls o' fs k w
  | [], _, k, v, w, _ => by simp only [Fmt.putAt]
  | f :: fs, hi, 0, v, w, h => by
    simp only [Fmt.allImpartial] at hi
    simp only [Fmt.putAt, put_twin hc ha .default f hi.1 v w h]
  | f :: fs, hi, k + 1, v, w, h => by
    simp only [Fmt.allImpartial] at hi
    simp only [Fmt.putAt, putAt_twin hc ha fs hi.2 k v w h]
end

theorem putFields_twin (hc : ∀ c v w, Twin docs v w → cls c v = cls c w) (ha : Pair docs names o o') :
    ∀ fs : List Field, (∀ f ∈ fs, f.impartial docs names) → ∀ k vs ws, Twins docs vs ws → putFields P bo cls o k fs vs = putFields P bo cls o' k fs ws
  | [], _, k, vs, ws, _ => by simp only [putFields]
  | .value a f :: fs, hi, k, [], [], _ => by simp only [putFields]
  | .value a f :: fs, hi, k, v :: vs, w :: ws, .cons h1 h2 => by
    have h3 := hi _ (List.mem_cons_self ..)
    simp only [Field.impartial] at h3
    simp only [putFields, put_twin hc ha bo f h3 v w h1, putFields_twin hc ha fs (fun g hg => hi g (List.mem_cons_of_mem _ hg)) _ vs ws h2]
  | .pad a n :: fs, hi, k, vs, ws, h => by
    simp only [putFields, putFields_twin hc ha fs (fun g hg => hi g (List.mem_cons_of_mem _ hg)) _ vs ws h]
  | .when a c f d :: fs, hi, k, [], [], _ => by simp only [putFields]
  | .when a c f d :: fs, hi, k, v :: vs, w :: ws, .cons h1 h2 => by
    have h3 := hi _ (List.mem_cons_self ..)
    simp only [Field.impartial] at h3
    simp only [putFields, put_twin hc ha bo f h3.2 v w h1, putFields_twin hc ha fs (fun g hg => hi g (List.mem_cons_of_mem _ hg)) 0 vs ws h2]
    rcases h3.1 o o' ha.cls ha.proxy ha.attrs with e | ⟨r, r', e1, e2, hr⟩
    · rw [e]
    · rw [e1, e2]
      simp only [hashable_twin _ _ hr, verdict_twin hr]

theorem pick_twins {as bs : List (Name × Val)} : ∀ {names : List Name} {vs ws : List Val}, pick as names = some vs → pick bs names = some ws → Twins docs vs ws →
    ∀ a ∈ names, ∃ v w, as.lookup a = some v ∧ bs.lookup a = some w ∧ Twin docs v w
  | [], _, _, _, _, _ => nofun
  | n :: names, vs, ws, h1, h2, h3 => by
    simp only [pick] at h1 h2
    split at h1
    · rename_i v vs' e1 e1'
      cases h1
      split at h2
      · rename_i w ws' e2 e2'
        cases h2
        cases h3 with
        | cons h4 h5 =>
        intro a ha
        rcases List.mem_cons.1 ha with rfl | ha
        · exact ⟨v, w, e1, e2, h4⟩
        · exact pick_twins e1' e2' h5 a ha
      · cases h2
    · cases h1

theorem putObj_twin (hi : ∀ c d, docs c = some d → ∀ f ∈ d.fields, f.impartial docs d.attrs) : ∀ k v w, Twin docs v w → putObj P docs k v = putObj P docs k w
  | 0, v, w, _ => by simp only [putObj]
  | k + 1, v, w, h => by
    cases h with
    | same => rfl
    | number h => rcases sameNumber_cases h with ⟨b, rfl, rfl⟩ | ⟨b, rfl, rfl⟩ <;> simp only [putObj]
    | list => simp only [putObj]
    | tup => simp only [putObj]
    | @obj c own d as bs vs ws hd h1 h2 h3 =>
      have hp : Pair docs d.attrs ⟨c, false, as⟩ ⟨c, false, bs⟩ := ⟨rfl, rfl, pick_twins h1 h2 h3⟩
      simp only [putObj, hd, h1, h2]
      exact putFields_twin (fun _ v w h => putObj_twin hi k v w h) hp _ (hi _ _ hd) _ _ _ h3

/-! ### Equal values -/

theorem floatEq_definite {f g : UInt64} (hf : ∀ i, floatEqInt f i = false) (h : floatEq f g = true) : f = g := by
  unfold floatEq at h
  simp only [Bool.and_eq_true, Bool.or_eq_true, beq_iff_eq] at h
  rcases h.2 with h | h
  · exact h
  · have hl := f.toNat_lt
    have h1 : f.toNat = 0 ∨ f.toNat = 2 ^ 63 := by omega
    have h2 : f = 0 ∨ f = 0x8000000000000000 := by
      rcases h1 with h1 | h1
      · exact .inl (UInt64.toNat_inj.1 h1)
      · exact .inr (UInt64.toNat_inj.1 h1)
    have h3 := hf 0
    rcases h2 with rfl | rfl <;> exact absurd h3 (by decide +kernel)

theorem definite_lookup {a : Name} {v : Val} : ∀ {as : List (Name × Val)}, attrsDefinite as → as.lookup a = some v → definite v
  | [], _, h => by cases h
  | (b, w) :: as, hd, h => by
    simp only [attrsDefinite] at hd
    simp only [List.lookup] at h
    split at h
    · cases h; exact hd.1
    · exact definite_lookup hd.2 h

variable {env : Env} {ue : Val → Val → Except Err Bool}

theorem items_twins {eq : Val → Val → Except Err Bool} (h : ∀ v w, definite v → definite w → eq v w = .ok true → Twin docs v w) :
    ∀ {vs ws : List Val}, allDefinite vs → allDefinite ws → vs.length = ws.length → eqItems eq vs ws = .ok true → Twins docs vs ws
  | [], [], _, _, _, _ => .nil
  | v :: vs, w :: ws, h1, h2, hl, he => by
    simp only [allDefinite] at h1 h2
    simp only [eqItems] at he
    cases hv : eq v w with
    | error => rw [hv] at he; cases he
    | ok b =>
      rw [hv] at he
      cases b
      · cases he
      · exact .cons (h v w h1.1 h2.1 hv) (items_twins h h1.2 h2.2 (Nat.succ.inj hl) he)

theorem attrs_twins {eq : Val → Val → Except Err Bool} (h : ∀ v w, definite v → definite w → eq v w = .ok true → Twin docs v w) {as bs : List (Name × Val)}
    (h1 : attrsDefinite as) (h2 : attrsDefinite bs) : ∀ {names : List Name}, eqAttrs eq as bs names = .ok true →
      ∃ vs ws, pick as names = some vs ∧ pick bs names = some ws ∧ Twins docs vs ws
  | [], _ => ⟨[], [], rfl, rfl, .nil⟩
  | a :: names, he => by
    simp only [eqAttrs, getAttr_lookup] at he
    split at he
    · cases he
    · rename_i v ev
      split at he
      · cases he
      · rename_i w ew
        cases hv : eq v w with
        | error => rw [hv] at he; cases he
        | ok b =>
          rw [hv] at he
          cases b
          · cases he
          · obtain ⟨vs, ws, e1, e2, e3⟩ := attrs_twins h h1 h2 he
            exact ⟨v :: vs, w :: ws, by simp only [pick, ev, e1], by simp only [pick, ew, e2],
              .cons (h v w (definite_lookup h1 ev) (definite_lookup h2 ew) hv) e3⟩

theorem key_twin {v w : Val} (hv : definite v) (hw : definite w) (h : v.keyEq w = true) (ht : ∀ xs, v ≠ .tup xs) : Twin docs v w := by
  cases v <;> cases w <;> simp only [Val.keyEq, Bool.false_eq_true, beq_iff_eq] at h <;> simp only [definite] at hv hw <;>
    first
    | (subst h; exact .same _)
    | exact .number h
    | exact .same _
    | (rw [hv] at h; cases h)
    | (rw [hw] at h; cases h)
    | (rw [floatEq_definite hv h]; exact .same _)
    | exact absurd rfl (ht _)

/-- Values that are equal are twins. -/
theorem eq_twin (hd : ∀ c ci, env.classes c = some ci → ∃ d, docs c = some d ∧ ci.attrs = d.attrs) :
    ∀ n v w, definite v → definite w → pyEq env ue n v w = .ok true → Twin docs v w
  | 0, v, w, _, _, h => by simp only [pyEq] at h; cases h
  | n + 1, v, w, hv, hw, h => by
    simp only [pyEq] at h
    split at h
    · rename_i hc
      have h1 : ∀ u : Val, definite u → u.isCustom = false := by
        intro u hu
        cases u <;> first | rfl | (simp only [definite] at hu)
      rw [h1 v hv, h1 w hw] at hc
      cases hc
    · split at h
      · rename_i c o1 as d o2 bs
        simp only [definite] at hv hw
        obtain ⟨rfl, hv⟩ := hv
        obtain ⟨rfl, hw⟩ := hw
        split at h
        · cases h
        · rename_i e
          have e := Decidable.not_not.1 e
          subst e
          split at h
          · cases h
          · rename_i ci hci
            obtain ⟨d, h1, h2⟩ := hd _ _ hci
            rw [h2] at h
            obtain ⟨vs, ws, e1, e2, e3⟩ := attrs_twins (fun v w => eq_twin hd n v w) hv hw h
            exact .obj h1 e1 e2 e3
      · simp only [definite] at hv hw
        split at h
        · cases h
        · rename_i e
          exact .list (items_twins (fun v w => eq_twin hd n v w) hv hw (Decidable.not_not.1 e) h)
      · simp only [definite] at hv hw
        split at h
        · cases h
        · rename_i e
          exact .tup (items_twins (fun v w => eq_twin hd n v w) hv hw (Decidable.not_not.1 e) h)
      · rename_i h1 h2 h3
        simp only [Except.ok.injEq] at h
        refine key_twin hv hw h fun xs e => ?_
        subst e
        cases w <;> first | exact h3 _ _ rfl rfl | cases h

end Verif.Twinned
