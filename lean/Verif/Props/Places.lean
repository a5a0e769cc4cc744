import Verif.Proofs.Places
import Verif.Props.Extends
/-
**C72** Changing the value of a field changes only the bytes of that field.
-/
namespace Verif
open Spec Sem Samples Extends Places

variable {ctx : HintCtx} {M : Nat} {env : Env} {docs : ClassId → Option ClassDoc}

theorem Places.names_nodup (h : Describes env ctx M docs) {c : ClassId} {d : ClassDoc} (hd : docs c = some d) : (d.fields.map Field.name).Nodup := by
  obtain ⟨_, o, _, ho⟩ := h c d hd
  rw [← ho.names]
  exact (nodup_firsts _).filter _

/-- The other attributes. -/
theorem Places.others (h : Describes env ctx M docs) {c : ClassId} {d : ClassDoc} (hd : docs c = some d) {fs gs : List Field} {f : Field}
    (hf : d.fields = fs ++ f :: gs) (g : Field) (hg : g ∈ fs ∨ g ∈ gs) : g.name ≠ f.name := by
  have hn := names_nodup h hd
  rw [hf, List.map_append, List.map_cons, List.nodup_append] at hn
  intro e
  rcases hg with hg | hg
  · exact hn.2.2 _ (List.mem_map_of_mem hg) _ (List.mem_cons_self ..) e
  · have := (List.nodup_cons.1 hn.2.1).1
    exact this (e ▸ List.mem_map_of_mem hg)

/-- Two objects of a class that differ in one field only. -/
structure DifferOnly (d : ClassDoc) (f : Field) (attrs attrs' : List (Name × Val)) : Prop where
  same : ∀ a ∈ d.attrs, a ≠ f.name → attrs.lookup a = attrs'.lookup a

/-- **C72** (partial).  Two objects of a class differ in one field only.  If both are packed then their bytes are the same but for the bytes of
that field, and if it is of a basic type these are as many.  Missing, and false: other fields that look at the field (deciders, conditions) and
`Self` in other fields, and what is missing in C62. -/
theorem C72_partial (h : Describes env ctx M docs) (hall : ∀ c, (env.classes c).isSome = true → (docs c).isSome = true) {c : ClassId}
    {d : ClassDoc} (hd : docs c = some d) {fs gs : List Field} {f : Field} (hf : d.fields = fs ++ f :: gs) (hp : f.isPad = false)
    (hw : ∀ g, g ∈ fs ∨ g ∈ gs → g.within (d.attrs.filter (· != f.name))) {own : Option ByteOrder} {attrs attrs' : List (Name × Val)}
    (hs : DifferOnly d f attrs attrs') (hc : Calm env (Val.obj c own attrs).nodes) (hc' : Calm env (Val.obj c own attrs').nodes) :
    ∃ K, ∀ n ≥ K, ∀ st st' b b', result (Obj.pack env n (.obj c own attrs) st) = .ok b → result (Obj.pack env n (.obj c own attrs') st') = .ok b' →
      ∃ front x x' back, b = front ++ x ++ back ∧ b' = front ++ x' ++ back ∧ (f.basic.isSome = true → x.length = x'.length) := by
  let k := max (Val.obj c own attrs).nodes.length (Val.obj c own attrs').nodes.length
  obtain ⟨K1, h1⟩ := C62_partial h hall hc (k := k + 1) (by omega)
  obtain ⟨K2, h2⟩ := C62_partial h hall hc' (k := k + 1) (by omega)
  refine ⟨max K1 K2, fun n hn st st' b b' hb hb' => ?_⟩
  have h1 := h1 n (by omega) st
  have h2 := h2 n (by omega) st'
  rw [hb] at h1
  rw [hb'] at h2
  simp only [putObj, hd] at h1 h2
  have hsame : ∀ {ls : List Field}, (∀ g ∈ ls, g ∈ fs ∨ g ∈ gs) →
      pick attrs ((ls.filter (!·.isPad)).map Field.name) = pick attrs' ((ls.filter (!·.isPad)).map Field.name) := by
    intro ls hls
    apply pick_congr
    intro a ha
    obtain ⟨g, hg, rfl⟩ := List.mem_map.1 ha
    rw [List.mem_filter] at hg
    refine hs.same _ ?_ (others h hd hf g (hls g hg.1))
    unfold ClassDoc.attrs
    refine List.mem_map_of_mem (List.mem_filter.2 ⟨?_, hg.2⟩)
    rw [hf, List.mem_append]
    rcases hls g hg.1 with hx | hx
    · exact .inl hx
    · exact .inr (List.mem_cons_of_mem _ hx)
  have halike : Spec.Alike (d.attrs.filter (· != f.name)) ⟨c, false, attrs⟩ ⟨c, false, attrs'⟩ := by
    refine ⟨rfl, fun a ha => ?_⟩
    rw [List.mem_filter] at ha
    exact hs.same a ha.1 (by simpa using ha.2)
  cases hq : pick attrs d.attrs with
  | none => rw [hq] at h1; cases h1
  | some vs =>
    cases hq' : pick attrs' d.attrs with
    | none => rw [hq'] at h2; cases h2
    | some vs' =>
      rw [hq] at h1
      rw [hq'] at h2
      obtain ⟨us, v, ws, rfl, p1, p2, p3⟩ := pick_three hf hp hq
      obtain ⟨us', v', ws', rfl, p1', p2', p3'⟩ := pick_three hf hp hq'
      have e1 := hsame (ls := fs) fun _ => .inl
      have e3 := hsame (ls := gs) fun _ => .inr
      rw [p1, p1'] at e1
      rw [p3, p3'] at e3
      cases e1
      cases e3
      have hl : us.length = (fs.filter (!·.isPad)).length := by rw [pick_length p1, List.length_map]
      simp only [hf, putFields_three hp hl] at h1 h2
      rw [← putFields_within halike fs (fun g hg => hw g (.inl hg)), ← putFields_within halike gs (fun g hg => hw g (.inr hg))] at h2
      generalize own.getD d.byteOrder = bo at h1 h2
      cases r1 : putFields env.plat bo (fun _ => putObj env.plat docs k) ⟨c, false, attrs⟩ 0 fs us with
      | err | deep | odd => rw [r1] at h1; cases h1
      | ok b1 =>
        rw [r1] at h1 h2
        simp only [ok_bind] at h1 h2
        cases r3 : putFields env.plat bo (fun _ => putObj env.plat docs k) ⟨c, false, attrs⟩ (runs bo (runs bo 0 fs) [f]) gs ws with
        | err | deep | odd =>
          rw [r3] at h1
          revert h1
          cases putFields env.plat bo (fun _ => putObj env.plat docs k) ⟨c, false, attrs⟩ (runs bo 0 fs) [f] [v] <;> exact nofun
        | ok b3 =>
          rw [r3] at h1 h2
          simp only [ok_bind] at h1 h2
          cases r2 : putFields env.plat bo (fun _ => putObj env.plat docs k) ⟨c, false, attrs⟩ (runs bo 0 fs) [f] [v] with
          | err | deep | odd => rw [r2] at h1; cases h1
          | ok x =>
            cases r2' : putFields env.plat bo (fun _ => putObj env.plat docs k) ⟨c, false, attrs'⟩ (runs bo 0 fs) [f] [v'] with
            | err | deep | odd => rw [r2'] at h2; cases h2
            | ok x' =>
              rw [r2] at h1
              rw [r2'] at h2
              simp only [ok_bind, PutsAs, Except.ok.injEq] at h1 h2
              refine ⟨b1, x, x', b3, by rw [h1, List.append_assoc], by rw [h2, List.append_assoc], fun hbs => ?_⟩
              obtain ⟨⟨w, a⟩, hba⟩ := Option.isSome_iff_exists.1 hbs
              rw [putField_basic hp hba r2, putField_basic hp hba r2']

/-- An object is packed if its fields in front of one, that field and the fields behind it are. -/
theorem Places.put_parts {P : Platform} {c : ClassId} {d : ClassDoc} (hd : docs c = some d) {fs gs : List Field} {f : Field} (hf : d.fields = fs ++ f :: gs)
    (hp : f.isPad = false) {own : Option ByteOrder} {attrs : List (Name × Val)} {us ws : List Val} {v : Val}
    (h1 : pick attrs ((fs.filter (!·.isPad)).map Field.name) = some us) (h2 : attrs.lookup f.name = some v)
    (h3 : pick attrs ((gs.filter (!·.isPad)).map Field.name) = some ws) (k : Nat) :
    let bo := own.getD d.byteOrder
    let W := fun _ => putObj P docs k
    putObj P docs (k + 1) (.obj c own attrs) = putFields P bo W ⟨c, false, attrs⟩ 0 fs us >>= fun b1 =>
      putFields P bo W ⟨c, false, attrs⟩ (runs bo 0 fs) [f] [v] >>= fun b2 =>
        putFields P bo W ⟨c, false, attrs⟩ (runs bo (runs bo 0 fs) [f]) gs ws >>= fun b3 => .ok (b1 ++ (b2 ++ b3)) := by
  have e : d.attrs = (fs.filter (!·.isPad)).map Field.name ++ f.name :: (gs.filter (!·.isPad)).map Field.name := by
    unfold ClassDoc.attrs
    rw [hf, List.filter_append, List.filter_cons_of_pos (by simp [hp]), List.map_append]
    rfl
  have hpk : pick attrs d.attrs = some (us ++ v :: ws) := by
    rw [e, pick_append, h1]
    simp only [pick, h2, h3]
  simp only [putObj, hd, hpk, hf]
  exact putFields_three hp (by rw [pick_length h1, List.length_map])

/-- **C72** (bad values, partial).  An object is packed.  If it is not when the value of one field is changed, then no object of the class with that
value in that field is packed, whatever the values of the other fields are. -/
theorem C72_bad_partial (h : Describes env ctx M docs) (hall : ∀ c, (env.classes c).isSome = true → (docs c).isSome = true) {c : ClassId}
    {d : ClassDoc} (hd : docs c = some d) {fs gs : List Field} {f : Field} (hf : d.fields = fs ++ f :: gs) (hp : f.isPad = false)
    (hw : ∀ g, g ∈ fs ∨ g ∈ gs → g.within (d.attrs.filter (· != f.name))) (hown : f.within [f.name]) {own : Option ByteOrder}
    {attrs attrs' attrs2 : List (Name × Val)} (hs : DifferOnly d f attrs attrs') {w : Val} (hv : attrs'.lookup f.name = some w)
    (hv2 : attrs2.lookup f.name = some w) (hc : Calm env (Val.obj c own attrs).nodes) (hc' : Calm env (Val.obj c own attrs').nodes)
    (hc2 : Calm env (Val.obj c own attrs2).nodes) :
    ∃ K, ∀ n ≥ K, ∀ st st' st2 b e, result (Obj.pack env n (.obj c own attrs) st) = .ok b → result (Obj.pack env n (.obj c own attrs') st') = .error e →
      ∃ e2, result (Obj.pack env n (.obj c own attrs2) st2) = .error e2 := by
  let k := max (Val.obj c own attrs).nodes.length (max (Val.obj c own attrs').nodes.length (Val.obj c own attrs2).nodes.length)
  obtain ⟨K1, h1⟩ := C62_partial h hall hc (k := k + 1) (by omega)
  obtain ⟨K2, h2⟩ := C62_partial h hall hc' (k := k + 1) (by omega)
  obtain ⟨K3, h3⟩ := C62_partial h hall hc2 (k := k + 1) (by omega)
  refine ⟨max K1 (max K2 K3), fun n hn st st' st2 b e hb hb' => ?_⟩
  have h1 := h1 n (by omega) st
  have h2 := h2 n (by omega) st'
  have h3 := h3 n (by omega) st2
  rw [hb] at h1
  rw [hb'] at h2
  cases hr : result (Obj.pack env n (.obj c own attrs2) st2) with
  | error e2 => exact ⟨e2, rfl⟩
  | ok b2 =>
    exfalso
    rw [hr] at h3
    have hsame : ∀ {ls : List Field}, (∀ g ∈ ls, g ∈ fs ∨ g ∈ gs) →
        pick attrs ((ls.filter (!·.isPad)).map Field.name) = pick attrs' ((ls.filter (!·.isPad)).map Field.name) := by
      intro ls hls
      apply pick_congr
      intro a ha
      obtain ⟨g, hg, rfl⟩ := List.mem_map.1 ha
      rw [List.mem_filter] at hg
      refine hs.same _ ?_ (others h hd hf g (hls g hg.1))
      unfold ClassDoc.attrs
      refine List.mem_map_of_mem (List.mem_filter.2 ⟨?_, hg.2⟩)
      rw [hf, List.mem_append]
      rcases hls g hg.1 with hx | hx
      · exact .inl hx
      · exact .inr (List.mem_cons_of_mem _ hx)
    have halike : Spec.Alike (d.attrs.filter (· != f.name)) ⟨c, false, attrs⟩ ⟨c, false, attrs'⟩ := by
      refine ⟨rfl, fun a ha => ?_⟩
      rw [List.mem_filter] at ha
      exact hs.same a ha.1 (by simpa using ha.2)
    have halike2 : Spec.Alike [f.name] ⟨c, false, attrs2⟩ ⟨c, false, attrs'⟩ := by
      refine ⟨rfl, fun a ha => ?_⟩
      rw [List.mem_singleton] at ha
      subst ha
      exact hv2.trans hv.symm
    have full : ∀ {as : List (Name × Val)} {x : Bytes}, PutsAs (.ok x) (putObj env.plat docs (k + 1) (.obj c own as)) → ∃ vs, pick as d.attrs = some vs := by
      intro as x hx
      simp only [putObj, hd] at hx
      cases hq : pick as d.attrs with
      | none => rw [hq] at hx; cases hx
      | some vs => exact ⟨vs, rfl⟩
    obtain ⟨vs, hq⟩ := full h1
    obtain ⟨vs2, hq2⟩ := full h3
    obtain ⟨us, v, ws, rfl, p1, p2, p3⟩ := pick_three hf hp hq
    obtain ⟨us2, v2, ws2, rfl, q1, q2, q3⟩ := pick_three hf hp hq2
    rw [hv2] at q2
    cases q2
    have e1 := hsame (ls := fs) fun _ => .inl
    have e3 := hsame (ls := gs) fun _ => .inr
    rw [p1] at e1
    rw [p3] at e3
    rw [put_parts hd hf hp p1 p2 p3] at h1
    rw [put_parts hd hf hp e1.symm hv e3.symm, ← putFields_within halike fs (fun g hg => hw g (.inl hg)),
      ← putFields_within halike gs (fun g hg => hw g (.inr hg)),
      ← putFields_within halike2 [f] (fun g hg => by rw [List.mem_singleton] at hg; rw [hg]; exact hown)] at h2
    rw [put_parts hd hf hp q1 hv2 q3] at h3
    cases r1 : putFields env.plat (own.getD d.byteOrder) (fun _ => putObj env.plat docs k) ⟨c, false, attrs⟩ 0 fs us with
    | err | deep | odd => rw [r1] at h1; cases h1
    | ok b1 =>
      rw [r1] at h1 h2
      simp only [ok_bind] at h1 h2
      cases r3 : putFields env.plat (own.getD d.byteOrder) (fun _ => putObj env.plat docs k) ⟨c, false, attrs⟩ (runs (own.getD d.byteOrder) (runs (own.getD d.byteOrder) 0 fs) [f]) gs ws with
      | err | deep | odd =>
        rw [r3] at h1
        revert h1
        cases putFields env.plat (own.getD d.byteOrder) (fun _ => putObj env.plat docs k) ⟨c, false, attrs⟩ (runs (own.getD d.byteOrder) 0 fs) [f] [v] <;> exact nofun
      | ok b3 =>
        rw [r3] at h2
        cases r2 : putFields env.plat (own.getD d.byteOrder) (fun _ => putObj env.plat docs k) ⟨c, false, attrs2⟩ (runs (own.getD d.byteOrder) 0 fs) [f] [w] with
        | ok x => rw [r2] at h2; cases h2
        | err | deep | odd =>
          rw [r2] at h3
          revert h3
          cases putFields env.plat (own.getD d.byteOrder) (fun _ => putObj env.plat docs k) ⟨c, false, attrs2⟩ 0 fs us2 <;> exact nofun

/-- The message of C71: its field `size` is looked at by no other field. -/
example : headDoc.fields = [.value "kind" (.int false .one)] ++ .value "size" (.int false .two) :: headDoc.fields.drop 2 ∧
    (Field.value "size" (.int false .two)).within ["size"] ∧
    (∀ st, result (Obj.pack familyEnv' 12 headRecord st) = .ok ([2] ++ [0, 44, 1] ++ [5, 2, 97, 98])) ∧
    (∀ st, result (Obj.pack familyEnv' 12 (.obj 70 Option.none [("kind", .int 2), ("size", .int 7), ("flag", .int 5), ("name", .bytes [97, 98])]) st) =
      .ok ([2] ++ [0, 7, 0] ++ [5, 2, 97, 98])) ∧
    ∀ st, result (Obj.pack familyEnv' 12 (.obj 70 Option.none [("kind", .int 2), ("size", .int 70000), ("flag", .int 5), ("name", .bytes [97, 98])]) st) =
      .error .structError :=
  ⟨rfl, by simp [Field.within, Fmt.within], fun st => by rfl, fun st => by rfl, fun st => by rfl⟩

/-- The other fields of the record do not look at `size`. -/
example : ∀ g, g ∈ [Field.value "kind" (.int false .one)] ∨ g ∈ headDoc.fields.drop 2 → g.within (headDoc.attrs.filter (· != "size")) := by
  intro g hg
  simp only [headDoc, List.drop, List.mem_cons, List.not_mem_nil, or_false] at hg
  rcases hg with rfl | rfl | rfl
  · simp [Field.within, Fmt.within]
  · refine ⟨fun o o' h => ?_, by simp [Fmt.within]⟩
    have := h.2 "kind" (by decide)
    simp only [this]
  · simp [Field.within, Fmt.within]

/-- **C72** is false for fields that others look at: here `kind` decides whether there is a flag. -/
theorem C72_condition_is_false : ∀ st,
    result (Obj.pack familyEnv' 12 (.obj 70 Option.none [("kind", .int 2), ("size", .int 1), ("flag", .int 5), ("name", .bytes [97])]) st) =
      .ok [2, 0, 1, 0, 5, 1, 97] ∧
    result (Obj.pack familyEnv' 12 (.obj 70 Option.none [("kind", .int 3), ("size", .int 1), ("flag", .int 5), ("name", .bytes [97])]) st) =
      .ok [3, 0, 1, 0, 1, 97] := fun st => ⟨by rfl, by rfl⟩

end Verif
