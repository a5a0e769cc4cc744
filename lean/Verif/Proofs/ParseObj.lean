import Verif.Proofs.ParseFormats
import Verif.Proofs.EqLemmas
/-
Lemmas for the parser of documented formats: the fields of a class, and its objects.
-/
namespace Verif
open Spec Sem

variable {bo : ByteOrder} {cf : ClassId → Bool} {env : Env} {k : Nat} {R : ClassId → Bytes → Parsed (Val × Nat)}

theorem keyEq_bool {t : Bool} {r : Val} : r.keyEq (.bool t) = (Val.bool t).keyEq r := by
  rw [Bool.eq_iff_iff]
  constructor
  · intro h
    refine keyEq_symm h ?_
    have := keyEq_number_iff h
    cases r <;> first | rfl | cases this
  · intro h
    exact keyEq_symm h rfl

theorem condPick_keyAt {y : Ser} {ds : List Val} {r : Val} : condPick y ds r =
    if ¬ r.hashable then .error .typeError else match keyAt [.bool true, .bool false] r with
      | some 0 => .ok y
      | some _ => .ok (.skip ds)
      | none => .error .keyError := by
  unfold condPick keyAt
  by_cases h : r.hashable = true
  · simp only [h, not_true_eq_false, if_false, if_true, keyEq_bool, List.findIdx?_cons]
    cases (Val.bool true).keyEq r <;> cases (Val.bool false).keyEq r <;> rfl
  · simp only [h]
    rfl

theorem pad_readAt {n o : Nat} {st : StructSer} {P : Platform} {b : Bytes} (h : BasicSer bo ⟨n, .pad⟩ st) :
    st.readAt P o b = if n ≤ b.length then .ok ([], n) else .err .structError := by
  unfold StructSer.readAt
  rw [h.toks, StructSer.fin_none h.acts]
  simp only [endOff, pad_align, padLen_one, unpackToks, Tok.bytes, Code.bytes, Nat.add_zero, Nat.mul_one, Nat.add_sub_cancel_left, List.append_nil]
  rfl

theorem zip_begun {us : Bool} {as : List Name} (hcls : us = true → "cls" ∉ as) {c : ClassId} {prev : List Val} : Begun us ⟨c, true, as.zip prev⟩ := by
  refine ⟨rfl, fun e => ?_⟩
  have hc := hcls e
  rw [getAttr_lookup]
  cases hlk : (as.zip prev).lookup "cls" with
  | none => rfl
  | some v =>
    rw [List.lookup_eq_some_iff] at hlk
    obtain ⟨l1, l2, e1, _⟩ := hlk
    have : ("cls", v) ∈ as.zip prev := by rw [e1]; simp
    exact absurd (List.of_mem_zip this).1 hc

/-- The fields of a class are read one after the other. -/
theorem fields_pl {c : ClassId} {as : List Name} {us : Bool} (hn : as.Nodup) (hcls : us = true → "cls" ∉ as) (hR : ObjParses env k R) :
    ∀ {fs : List Field} {ss : List Ser} {prev : List Val} {b : Bytes} {o : Nat}, Field.IsL cf bo fs ss →
    (∀ f ∈ fs, f.good bo = true) → (∀ f ∈ fs, f.usesSelf = true → us = true) →
    as.drop prev.length = (fs.filter (!·.isPad)).map Field.name → prev.length ≤ as.length →
    PL env k (assignVals as) ⟨c, true, as.zip prev⟩ prev.length o ss b (readFields env.plat bo R ⟨c, true, as.zip prev⟩ o fs b)
  | [], _, prev, b, o, h, _, _, _, _ => by
    cases h
    rfl
  | f :: fs, _, prev, b, o, h, hg, hu, ha, hl => by
    obtain ⟨x, xs, rfl, h1, h2⟩ := h
    have hgf := hg f (by simp)
    have hg' : ∀ f ∈ fs, f.good bo = true := fun g h => hg g (by simp [h])
    have hu' : ∀ f ∈ fs, f.usesSelf = true → us = true := fun g h => hu g (by simp [h])
    have hbg : Begun f.usesSelf ⟨c, true, as.zip prev⟩ := (zip_begun hcls).mono (hu f (by simp))
    cases f with
    | value a f =>
      refine pl_cons (rest := fun v n => readFields env.plat bo R ((⟨c, true, as.zip prev⟩ : PObj).with a v) (after bo o f.basic) fs
        (b.drop (gap bo o f.basic + n))) hgf h1 (is_parses hR f bo x hgf h1) hbg fun v n _ => ?_
      obtain ⟨j1, j2, j3, j4⟩ := with_assign (c := c) (w := v) hn hl (a := a) ha
      refine ⟨_, j1, ?_⟩
      rw [j2]
      have := fields_pl hn hcls hR (c := c) (prev := prev ++ [v]) (b := b.drop (gap bo o f.basic + n)) (o := after bo o f.basic) h2 hg' hu' j3 j4
      rw [List.length_append] at this
      exact this
    | pad a m =>
      obtain ⟨st, rfl, hbs⟩ := h1
      have hk := fun n => fields_pl hn hcls hR (c := c) (b := b.drop n) (o := o + n) h2 hg' hu' (by simpa [Field.isPad] using ha) hl
      simp only [readFields]
      refine ⟨readFields env.plat bo R ⟨c, true, as.zip prev⟩ (o + m) fs (b.drop m), ?_, fun vs n hv => ?_⟩
      · rw [pad_readAt hbs]
        by_cases hc : m ≤ b.length
        · rw [if_pos hc, if_pos hc]
          rfl
        · rw [if_neg hc, if_neg hc]
          rfl
      · rw [pad_readAt hbs] at hv
        split at hv
        · simp only [Parsed.ok.injEq, Prod.mk.injEq] at hv
          obtain ⟨rfl, rfl⟩ := hv
          exact ⟨_, (updSeq_assign as).nil _ _, hk m⟩
        · cases hv
    | «when» a cond f d =>
      obtain ⟨y, rfl, h1⟩ := h1
      simp only [Field.good, Bool.and_eq_true] at hgf
      have ho := plain_overrides hgf.2 h1
      rw [PL.part (by nofun)]
      simp only [readFields]
      cases hc : cond ⟨c, true, as.zip prev⟩ with
      | error e =>
        refine .inr (.inl ⟨e, ?_, rfl⟩)
        simp only [preU, pre, hc]
        rfl
      | ok r =>
        have hpre : preU (.cond y cond [d]) ⟨c, true, as.zip prev⟩ = (do .ok ((← condPick y [d] r), Option.none)) := by
          simp only [preU, pre, hc]
          rfl
        rw [condPick_keyAt] at hpre
        simp only [Parsed.ofE, Bind.bind, Parsed.bind]
        by_cases hh : r.hashable = true
        · rw [if_neg (by simp [hh])] at hpre ⊢
          have hz : y.sized = true := by
            rcases is_sized env hgf.1 h1 with h1 | ⟨id, rfl⟩
            · exact h1
            · cases ho
          split
          · rename_i hk
            rw [hk] at hpre
            have g4 := (is_parses hR f bo y hgf.1 h1).same ho hbg b
            refine .inr (.inr ⟨y, none, _, ?_, hpre, hz, ?_, g4, ?_, ?_⟩)
            · exact match f.read env.plat bo R ⟨c, true, as.zip prev⟩ b with
                | .ok x => readFields env.plat bo R ((⟨c, true, as.zip prev⟩ : PObj).with a x.1) 0 fs (b.drop x.2)
                | _ => .odd
            · cases y <;> first | rfl | cases ho
            · cases f.read env.plat bo R ⟨c, true, as.zip prev⟩ b <;> rfl
            · intro vs n hv
              cases hrd : f.read env.plat bo R ⟨c, true, as.zip prev⟩ b with
              | ok x =>
                rw [hrd] at hv
                cases hv
                obtain ⟨j1, j2, j3, j4⟩ := with_assign (c := c) (w := x.1) hn hl (a := a) ha
                refine ⟨_, j1, ?_⟩
                simp only
                rw [j2]
                have := fields_pl hn hcls hR (c := c) (prev := prev ++ [x.1]) (b := b.drop x.2) (o := 0) h2 hg' hu' j3 j4
                rw [List.length_append] at this
                exact this
              | err => rw [hrd] at hv; cases hv
              | deep => rw [hrd] at hv; cases hv
              | odd => rw [hrd] at hv; cases hv
          · rename_i i hi hk
            rw [hk] at hpre
            obtain ⟨j1, j2, j3, j4⟩ := with_assign (c := c) (w := d) hn hl (a := a) ha
            refine .inr (.inr ⟨.skip [d], none, .ok ([d], 0), readFields env.plat bo R ((⟨c, true, as.zip prev⟩ : PObj).with a d) 0 fs b, ?_, rfl, rfl,
              .leaf (fun n u => rfl) ⟨rfl, rfl⟩, ?_, ?_⟩)
            · rw [hpre]
              cases i with
              | zero => exact absurd rfl hi
              | succ => rfl
            · show _ = Parsed.behind _ _
              cases readFields env.plat bo R ((⟨c, true, as.zip prev⟩ : PObj).with a d) 0 fs b <;> simp [Parsed.behind, Bind.bind, Parsed.bind]
            · intro vs n hv
              cases hv
              refine ⟨_, j1, ?_⟩
              rw [j2]
              have := fields_pl hn hcls hR (c := c) (prev := prev ++ [d]) (b := b) (o := 0) h2 hg' hu' j3 j4
              rw [List.length_append] at this
              exact this
          · rename_i hk
            rw [hk] at hpre
            exact .inr (.inl ⟨.keyError, hpre, rfl⟩)
        · rw [if_pos (by simp [hh])] at hpre ⊢
          exact .inr (.inl ⟨.typeError, hpre, rfl⟩)

theorem readFields_length {P : Platform} : ∀ {fs : List Field} {o : PObj} {k : Nat} {b : Bytes} {vs : List Val} {n : Nat},
    readFields P bo R o k fs b = .ok (vs, n) → vs.length = (fs.filter (!·.isPad)).length
  | [], o, k, b, vs, n, h => by cases h; rfl
  | f :: fs, o, k, b, vs, n, h => by
    have key : ∀ {o : PObj} {k : Nat} {b : Bytes} {F : List Val × Nat → List Val × Nat} {m : Nat}, (∀ x, (F x).1.length = x.1.length + m) →
        (readFields P bo R o k fs b >>= fun x => .ok (F x)) = .ok (vs, n) → vs.length = (fs.filter (!·.isPad)).length + m := by
      intro o k b F m hF h
      cases hr : readFields P bo R o k fs b with
      | ok x =>
        rw [hr] at h
        simp only [Bind.bind, Parsed.bind, Parsed.ok.injEq] at h
        have := hF x
        rw [h] at this
        rw [this, readFields_length (vs := x.1) (n := x.2) hr]
      | err => rw [hr] at h; cases h
      | deep => rw [hr] at h; cases h
      | odd => rw [hr] at h; cases h
    cases f with
    | value a f =>
      simp only [readFields] at h
      cases hr : f.read P bo R o (b.drop (gap bo k f.basic)) with
      | ok x =>
        rw [hr] at h
        exact key (m := 1) (F := fun y => (x.1 :: y.1, gap bo k f.basic + x.2 + y.2)) (fun _ => rfl) h
      | err => rw [hr] at h; cases h
      | deep => rw [hr] at h; cases h
      | odd => rw [hr] at h; cases h
    | pad a m =>
      simp only [readFields] at h
      split at h
      · exact key (m := 0) (F := fun y => (y.1, m + y.2)) (fun _ => rfl) h
      · cases h
    | «when» a c f d =>
      simp only [readFields] at h
      cases hc : c o with
      | error => rw [hc] at h; cases h
      | ok r =>
        rw [hc] at h
        simp only [Parsed.ofE, Bind.bind, Parsed.bind] at h
        split at h
        · cases h
        · split at h
          · cases hr : f.read P bo R o b with
            | ok x =>
              rw [hr] at h
              exact key (m := 1) (F := fun y => (x.1 :: y.1, x.2 + y.2)) (fun _ => rfl) h
            | err => rw [hr] at h; cases h
            | deep => rw [hr] at h; cases h
            | odd => rw [hr] at h; cases h
          · exact key (m := 1) (F := fun y => (d :: y.1, y.2)) (fun _ => rfl) h
          · cases h

variable {ctx : HintCtx} {N : Nat}

theorem fields_sure : ∀ {fs : List Field} {ss : List Ser}, (∀ f ∈ fs, f.good bo = true) → Field.IsL cf bo fs ss → ∀ st, .struct st ∈ ss → Sure st
  | [], _, _, h, st, hs => by cases h; cases hs
  | f :: fs, _, hg, h, st, hs => by
    obtain ⟨x, xs, rfl, h1, h2⟩ := h
    rcases List.mem_cons.1 hs with e | hs
    · subst e
      cases f with
      | value a f => exact isL_sure (fs := [f]) (ss := [.struct st]) ⟨_, [], rfl, h1, rfl⟩ st (by simp)
      | pad a m =>
        obtain ⟨st', e, hbs⟩ := h1
        cases e
        exact .of_none hbs.acts
      | «when» a c f d =>
        obtain ⟨y, e, _⟩ := h1
        cases e
    · exact fields_sure (fun g hg' => hg g (by simp [hg'])) h2 st hs

/-- One object, given that the objects in it are read as the parser says. -/
theorem decObj_parses {docs : ClassId → Option ClassDoc} (hd : Documents env ctx N docs) (hnone : ∀ c, docs c = Option.none → env.classes c = Option.none)
    (hp : ∀ c ci, env.classes c = some ci → ci.postInit = Except.ok) {k : Nat} (hR : ObjParses env k (readObj env.plat docs k)) (c : ClassId) (b : Bytes) :
    Ag k (fun _ : Upd => True) (fun _ x y => x.1 = y.1 ∧ x.2.1.size = y.2 ∧ x.2.2.sized = true) (fun _ n => decObj env (dec env n) c (.buf b))
      (readObj env.plat docs (k + 1) c b) := by
  unfold readObj decObj
  cases hdc : docs c with
  | none => simp only [hnone c hdc]; exact .const fun _ _ => rfl
  | some d =>
    obtain ⟨hg, o, ho, hdo⟩ := hd c d hdc
    obtain ⟨ha, hnd, ss, his, hm, hap, hsh⟩ := documented_class hdo hg
    have hg' := hg
    simp only [ClassDoc.good, Bool.and_eq_true, List.all_eq_true] at hg'
    have hnn : ∀ x ∈ ss, x ≠ .null := fun x hx => (fieldsL_fieldOf his x hx).2
    have hsz := class_sized (noWrites (env := env)) hg his hm hsh
    simp only [ho]
    by_cases hself : d.fields.any Field.usesSelf = true ∧ "cls" ∈ d.attrs
    · rw [if_pos hself]; exact .odd
    · rw [if_neg hself]
      have hpl := fields_pl (us := d.fields.any Field.usesSelf) (c := c) (prev := []) (b := b) (o := 0) hnd (fun e h => hself ⟨e, h⟩) hR
        his hg'.1.1 (fun f hf e => List.any_eq_true.2 ⟨f, hf, e⟩) rfl (Nat.zero_le _)
      simp only [List.zip_nil_right, List.length_nil] at hpl
      have hna : ∀ st, .struct st ∈ ss → Sure st := fields_sure hg'.1.1 his
      rw [ha]
      rcases whole_parses hm hnn hna hap hsh (updSeq_assign _) hpl with h1 | ⟨e, h1, h2⟩ | ⟨s2, q2, h1, h2, _⟩
      · rw [h1]; exact .odd
      · rw [h1, h2]; exact .const fun _ _ => rfl
      · simp only [h1, Out.ofE, Out.ok_bind]
        have h2 := h2.comap (T := fun _ : Upd => True) (fun _ => ()) (fun _ _ => trivial)
        refine h2.bind (M' := fun _ x y => x.1 = y.1 ∧ x.2.1.size = y.2 ∧ x.2.2.sized = true) (r' := fun x => Parsed.ok (Val.obj c Option.none (d.attrs.zip x.1), x.2))
            (D' := fun _ r _ => Out.ofE (construct c o.info r.vals) >>= fun v =>
              Out.ok (v, Dec.mk r.vals r.size r.pos (touch o.info.serializer ++ r.touched), o.info.serializer)) ?_
        rintro ⟨vs, m⟩ hrf
        refine .const ?_
        rintro ⟨_, r⟩ ⟨-, g1, g2⟩
        simp only at g1 g2
        have hl : vs.length = o.info.attrs.length := by rw [readFields_length hrf, ha]; simp [ClassDoc.attrs]
        simp only [construct, g1]
        rw [if_pos hl, hp c _ ho, ha]
        exact ⟨rfl, g2, hsz⟩

/-- Objects are read as the parser says. -/
theorem obj_parses {docs : ClassId → Option ClassDoc} (hd : Documents env ctx N docs) (hnone : ∀ c, docs c = Option.none → env.classes c = Option.none)
    (hp : ∀ c ci, env.classes c = some ci → ci.postInit = Except.ok) : ∀ k, ObjParses env k (readObj env.plat docs k)
  | 0 => fun c id b => by
    refine ⟨fun u _ n hn => ?_, fun h => absurd rfl h⟩
    obtain rfl : n = 0 := by omega
    exact .inl rfl
  | k + 1 => fun c id b => by
    have h := decObj_parses hd hnone hp (obj_parses hd hnone hp k) c b
    have e : (readObj env.plat docs (k + 1) c b).one = (readObj env.plat docs (k + 1) c b >>= fun x => .ok ([x.1], x.2)) := by
      cases readObj env.plat docs (k + 1) c b <;> rfl
    rw [e]
    refine Ag.succ (D := fun _ n => decObj env (dec env n) c (.buf b) >>= fun x => if ¬ x.2.2.sized then .err .attributeError
      else Out.ok (Dec.mk [x.1] x.2.1.size x.2.1.pos x.2.1.touched)) (h.then ?_) (fun _ _ => rfl) ?_
    · rintro _ - ⟨v, r, s⟩ ⟨w, m⟩ ⟨g1, g2, g3⟩
      simp only at g1 g2 g3
      simp only [g1, g2, g3, not_true_eq_false, if_false]
      exact ⟨rfl, rfl⟩
    · intro u _ n
      simp only [dec]
end Verif
