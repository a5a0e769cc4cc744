import Verif.Proofs.Rel
import Verif.Proofs.AddLemmas
/-
`pack` computes `Sem.enc`, from every state.
-/
namespace Verif
open Sem

/-- What holds after a successful packing of `s`. -/
structure Post (s : Ser) (r : Enc) (st st' : St) : Prop where
  fr : Fr st st'
  size : SizeIs s r.bytes.length st'
  keeps : Keeps r.touched st st'

theorem Rel.size {F : St → Prop} {s : Ser} {n : Nat} {st : St} {k : Nat → M α} {o : Out β}
    {Ψ : α → β → St → Prop} (hF : F st) (h : SizeIs s n st) (hk : s.sized = true → Rel F (k n) o st Ψ) :
    Rel F (s.readSize >>= k) (if ¬ (s.sized = true) then .err .attributeError else o) st Ψ := by
  by_cases hs : s.sized = true
  · rw [if_neg (by simp [hs])]
    exact Rel.step (h hs) (hk hs)
  · rw [if_pos hs]
    refine ⟨st, ?_, hF⟩
    show M.bind _ _ _ = _
    simp [M.bind, readSize_unsized s (by simpa using hs) st]

/-- The operations `packN` compute `encN`. -/
def PackRel (packN : Ser → List Val → M Bytes) (encN : Ser → Option PObj → List Val → Out Enc) : Prop :=
  ∀ s q vs st, Primed s q st →
    Rel (Fr st) (packN s vs) (encN s q vs) st (fun b r st' => b = r.bytes ∧ Post s r st st')

theorem Keeps.weaken {l m : List SerId} {a b : St} (h : Keeps l a b) (hs : ∀ x, x ∈ l → x ∈ m) :
    Keeps m a b := fun id hid => h id (fun hl => hid (hs _ hl))

theorem packLoop_rel {packN : Ser → List Val → M Bytes} {encN : Ser → Option PObj → List Val → Out Enc}
    (hN : PackRel packN encN) {preM : Ser → M Ser} {preF : Ser → Except Err (Ser × Option PObj)}
    {tch : Ser → List SerId}
    (hpre : ∀ s st, Rel (Fr st) (preM s) (.ofE (preF s)) st
      (fun s' r st' => s' = r.1 ∧ Primed r.1 r.2 st' ∧ Fr st st' ∧ Keeps (tch s) st st')) :
    ∀ ss vals st, Rel (Fr st) (packLoop packN preM ss vals) (encLoop encN preF tch ss vals) st
      (fun b r st' => b.1 = r.bytes ∧ b.2 = r.bytes.length ∧ Fr st st' ∧ Keeps r.touched st st') := by
  intro ss
  induction ss with
  | nil => intro vals st; exact Rel.pure ⟨rfl, rfl, Fr.refl _, Keeps.refl _ _⟩
  | cons s ss ih =>
    intro vals st
    rw [packLoop, encLoop]
    refine Rel.bind (hpre s st) ?_
    rintro s' ⟨s'', q⟩ st1 ⟨rfl, hp, hf1, hk1⟩
    refine Rel.bind ((hN s' q _ st1 hp).mono (fun _ h => hf1.trans h) (fun _ _ _ h => h)) ?_
    rintro b a st2 ⟨rfl, post⟩
    have hf2 := hf1.trans post.fr
    refine Rel.size hf2 post.size ?_
    intro _
    refine Rel.bind ((ih _ st2).mono (fun _ h => hf2.trans h) (fun _ _ _ h => h)) ?_
    rintro ⟨bs, total⟩ r st3 ⟨rfl, rfl, hf3, hk3⟩
    exact Rel.pure ⟨rfl, by simp, hf2.trans hf3, (hk1.trans post.keeps).trans hk3⟩

theorem packItems_rel {packN : Ser → List Val → M Bytes} {encN : Ser → Option PObj → List Val → Out Enc}
    (hN : PackRel packN encN) (item : Ser) (q : Option PObj) :
    ∀ vals st, Primed item q st → Rel (Fr st) (packItems packN item vals) (encItems encN item q vals) st
      (fun b r st' => b.1 = r.bytes ∧ b.2 = r.bytes.length ∧ Fr st st' ∧ Keeps r.touched st st') := by
  intro vals
  induction vals with
  | nil => intro st _; exact Rel.pure ⟨rfl, rfl, Fr.refl _, Keeps.refl _ _⟩
  | cons v vs ih =>
    intro st hp
    rw [packItems, encItems]
    refine Rel.bind (hN item q _ st hp) ?_
    rintro b a st2 ⟨rfl, post⟩
    refine Rel.size post.fr post.size ?_
    intro _
    split
    · trivial
    · rename_i hno
      have hp2 : Primed item q st2 := hp.keep post.keeps (by
        intro id hid
        simpa [hid] using hno)
      refine Rel.bind ((ih st2 hp2).mono (fun _ h => post.fr.trans h) (fun _ _ _ h => h)) ?_
      rintro ⟨bs, total⟩ r st3 ⟨rfl, rfl, hf3, hk3⟩
      exact Rel.pure ⟨rfl, by simp, post.fr.trans hf3, post.keeps.trans hk3⟩

theorem objPack_rel {env : Env} {packN : Ser → List Val → M Bytes}
    {encN : Ser → Option PObj → List Val → Out Enc} (hN : PackRel packN encN) (v : Val) (st : St) :
    Rel (Fr st) (objPack env packN v) (encObj env encN v) st
      (fun b r st' => b.1 = r.1.bytes ∧ b.2 = r.2 ∧ Fr st st' ∧ SizeIs r.2 r.1.bytes.length st' ∧
        Keeps r.1.touched st st') := by
  cases v with
  | obj cls bo attrs =>
    simp only [objPack, encObj]
    refine Rel.bind (Rel.lift (Fr.refl st) (Φ := fun a b st' => a = b ∧ st' = st) (by simp)) ?_
    rintro ⟨ci, ser⟩ _ _ ⟨rfl, rfl⟩
    refine Rel.bind (prepack_rel ser _ _) ?_
    rintro s' ⟨s'', q⟩ st1 ⟨rfl, hpre, hp, hf1, hk1⟩
    refine Rel.bind (Rel.lift hf1 (Φ := fun a b st' => a = b ∧ st' = st1) (by simp)) ?_
    rintro vals _ _ ⟨rfl, rfl⟩
    refine Rel.bind ((hN s' q vals _ hp).mono (fun _ h => hf1.trans h) (fun _ _ _ h => h)) ?_
    rintro b a st2 ⟨rfl, post⟩
    refine Rel.pure ⟨rfl, rfl, hf1.trans post.fr, ?_, hk1.trans post.keeps⟩
    intro hs
    obtain ⟨h1, h2⟩ := pre_readSize hpre hs
    show ser.readSize st2 = _
    rw [h1]
    exact post.size h2
  | _ => exact Rel.throw (Fr.refl _)

/-- Packing a leaf: set the size, then compute the bytes. -/
theorem leaf_rel {s : Ser} {id : SerId} {n : Nat} {e : Except Err Bytes} {st : St}
    (hs : ∀ st', s.readSize st' = .ok ((st'.cells id).size) st')
    (hlen : ∀ b, e = .ok b → b.length = n) :
    Rel (Fr st) (M.lift e) (encLeaf e) (st.withSize id n)
      (fun b r st' => b = r.bytes ∧ Post s r st st') := by
  cases e with
  | error e => exact ⟨_, rfl, Fr.withSize ..⟩
  | ok b =>
    refine ⟨b, _, rfl, rfl, Fr.withSize .., ?_, Keeps.withSize _ _ _⟩
    intro _
    rw [hs]
    simp [hlen b rfl]

theorem structSer_pack_length {P : Platform} {s : StructSer} {vs : List Val} {b : Bytes}
    (h : s.pack P vs = .ok b) : b.length = s.size := structPack_length h

theorem singleChar_matmul (k : Nat) (hk : 0 < k) : ∃ s, singleChar.matmul k = .ok (some s) ∧
    s.byteOrder = .default ∧ s.toks = [⟨k, .str⟩] ∧ s.actions = none := by
  obtain ⟨m, rfl⟩ : ∃ m, k = m + 1 := ⟨k - 1, by omega⟩
  by_cases h1 : m = 0
  · subst h1
    exact ⟨singleChar, by rfl, by decide, by decide, rfl⟩
  · have hpos : ¬ ((m + 1 : Nat) : Int) = 0 ∧ ¬ ((m + 1 : Nat) : Int) < 0 ∧
        ¬ ((m + 1 : Nat) : Int) = 1 := by omega
    have hto : ((m + 1 : Nat) : Int).toNat = m + 1 := by omega
    obtain ⟨f, hf, _, hp⟩ := fold_repeat_single (nat := true) (cs := true) (ds := []) (ch := 's') (c := .str)
      (by simp) (by rfl) (by simp) (.inl rfl) m
    obtain ⟨g1, g2, g3, g4⟩ := StructSer.of_parse (bo := .default) (a := none) hp
    refine ⟨⟨ByteOrder.default.value ++ f, none⟩, ?_, g2, ?_, rfl⟩
    · have e1 : singleChar.baseFormat = ['s'] := by decide
      have e2 : singleChar.byteOrder = .default := by decide
      have e3 : singleChar.actions = none := rfl
      simp only [List.nil_append] at hf
      simp only [StructSer.matmul, StructSer.mulImpl, hpos, ↓reduceIte, hto, e1, e2, StructSer.remake,
        e3, bind, Except.bind, Nat.add_sub_cancel, hf]
      rw [StructSer.mkPlain_ok (bo := .default) hp]
    · rw [g4]; simp [countVal]

theorem Rel.leafBind {s : Ser} {id : SerId} {e : Except Err (StructSer × List Val)} {P : Platform} {st : St}
    (hs : ∀ st', s.readSize st' = .ok ((st'.cells id).size) st') :
    Rel (Fr st) (do let (t, vals) ← M.lift e; setSize id t.size; M.lift (t.pack P vals))
      (encLeaf (do let (t, vals) ← e; t.pack P vals)) st
      (fun b r st' => b = r.bytes ∧ Post s r st st') := by
  cases e with
  | error e => exact ⟨st, rfl, Fr.refl _⟩
  | ok tv =>
    obtain ⟨t, vals⟩ := tv
    refine Rel.step (a := (t, vals)) rfl ?_
    exact Rel.step (setSize_run ..) (leaf_rel hs (fun b hb => structSer_pack_length hb))

theorem packOpt_length {P : Platform} {s : Option StructSer} {vs : List Val} {b : Bytes}
    (h : packOpt P s vs = .ok b) : b.length = s.elim 0 StructSer.size := by
  cases s with
  | none => cases h; rfl
  | some s => exact structSer_pack_length h

theorem termPack_length {P : Platform} {b c : Bytes}
    (h : (do packOpt P (← singleChar.matmul b.length) [.bytes b]) = .ok c) : c.length = b.length := by
  by_cases hz : b.length = 0
  · rw [hz] at h ⊢
    cases h; rfl
  · obtain ⟨s, hs, h1, h2, h3⟩ := singleChar_matmul b.length (by omega)
    simp only [hs, bind, Except.bind] at h
    rw [packOpt_length h]
    simp [StructSer.size, h1, h2, sizeToks, endOff, padLen, Tok.bytes, Code.bytes, Code.align,
      ByteOrder.isNative]

theorem getSerializer_bind {id : SerId} {keys : List Val} {opts : List Ser} {dflt : Ser} {r : Val} {p : PObj}
    {st : St} (hg : getPart id st = .ok p st) {k : Ser → M α} {g : Ser → Ser × Option PObj → Out β}
    {F : St → Prop} {Ψ : α → β → St → Prop} (hF : ∀ st', Fr st st' → F st')
    (hk : ∀ s x st', pre s p = .ok x → Primed x.1 x.2 st' → Fr st st' → Keeps (touch s) st st' →
      Rel F (k x.1) (g s x) st' Ψ) :
    Rel F (getSerializer true id keys opts dflt r >>= k)
      (do let s ← .ofE (unionPick keys opts dflt r)
          let x ← .ofE (pre s p)
          g s x) st Ψ := by
  have assoc : (getSerializer true id keys opts dflt r >>= k) st
      = (M.lift (unionPick keys opts dflt r) >>= fun s => getPart id >>= fun p => s.prepack p >>= k) st := by
    show M.bind (M.bind _ _) _ st = M.bind _ _ st
    simp only [M.bind, M.lift]
    cases unionPick keys opts dflt r with
    | error e => rfl
    | ok s =>
      show M.bind (M.bind _ _) _ st = M.bind _ _ st
      simp only [M.bind, hg]
      rfl
  have main : Rel F (M.lift (unionPick keys opts dflt r) >>= fun s => getPart id >>= fun p => s.prepack p >>= k)
      (do let s ← .ofE (unionPick keys opts dflt r)
          let x ← .ofE (pre s p)
          g s x) st Ψ := by
    refine Rel.bind (Rel.lift (hF _ (Fr.refl st)) (Φ := fun a b st' => a = b ∧ st' = st) (by simp)) ?_
    rintro s _ _ ⟨rfl, rfl⟩
    refine Rel.step hg ?_
    refine Rel.bind ((prepack_rel s p _).mono hF (fun _ _ _ h => h)) ?_
    rintro s' x st1 ⟨rfl, hpre, hp, hf1, hk1⟩
    exact hk s x st1 hpre hp hf1 hk1
  unfold Rel at main ⊢
  rw [assoc]
  exact main

theorem packUnion_rel {packN : Ser → List Val → M Bytes} {encN : Ser → Option PObj → List Val → Out Enc}
    (hN : PackRel packN encN) {u : Ser} {id : SerId} {keys : List Val} {opts : List Ser} {dflt : Ser}
    {r : Val} {p : PObj} {vs : List Val} {st : St} (hg : getPart id st = .ok p st)
    (hs : ∀ st', u.readSize st' = .ok ((st'.cells id).size) st') :
    Rel (Fr st) (do
        let s ← getSerializer true id keys opts dflt r
        let b ← packN s vs
        setSize id (← s.readSize)
        pure b)
      (encUnion encN keys opts dflt p r vs) st (fun b r st' => b = r.bytes ∧ Post u r st st') := by
  unfold encUnion
  refine getSerializer_bind hg (fun _ h => h) ?_
  rintro s ⟨s', q⟩ st1 hpre hp hf1 hk1
  refine Rel.bind ((hN s' q vs _ hp).mono (fun _ h => hf1.trans h) (fun _ _ _ h => h)) ?_
  rintro b a st2 ⟨rfl, post⟩
  have hf2 := hf1.trans post.fr
  refine Rel.size hf2 post.size ?_
  intro _
  refine Rel.step (setSize_run ..) (Rel.pure ⟨rfl, hf2.trans (Fr.withSize ..), ?_, ?_⟩)
  · intro _; rw [hs]; simp
  · simpa using (hk1.trans post.keeps).trans (Keeps.withSize st2 id a.bytes.length)

/-- `pack` computes `Sem.enc`. -/
theorem pack_rel (env : Env) (n : Nat) : PackRel (pack env n) (enc env n) := by
  induction n with
  | zero => intro s q vs st _; exact Rel.throw (Fr.refl _)
  | succ n ih =>
    intro s q vs st hp
    cases s with
    | null => exact Rel.pure ⟨rfl, Fr.refl _, fun _ => rfl, Keeps.refl _ _⟩
    | struct s =>
      simp only [pack, enc]
      cases h : s.pack env.plat vs with
      | error e => exact ⟨st, rfl, Fr.refl _⟩
      | ok b =>
        refine ⟨b, st, rfl, rfl, Fr.refl _, fun _ => ?_, Keeps.refl _ _⟩
        rw [structSer_pack_length h]; rfl
    | dynChar id s => exact Rel.leafBind (fun _ => rfl)
    | net id => exact Rel.leafBind (fun _ => rfl)
    | dynArr id c i => exact Rel.leafBind (fun _ => rfl)
    | consuming id =>
      simp only [pack, enc]
      cases h : consumeData vs with
      | error e => exact ⟨st, rfl, Fr.refl _⟩
      | ok b =>
        refine Rel.step (a := b) rfl (Rel.step (setSize_run ..) (Rel.pure ⟨rfl, Fr.withSize .., ?_,
          Keeps.withSize _ _ _⟩))
        intro _; simp [Ser.readSize, getCellSize]
    | terminated id term =>
      simp only [pack, enc]
      cases h : termData term vs with
      | error e => exact ⟨st, rfl, Fr.refl _⟩
      | ok b =>
        refine Rel.step (a := b) rfl (Rel.step (setSize_run ..) ?_)
        refine leaf_rel (fun _ => rfl) ?_
        exact fun b' hb' => termPack_length hb'
    | unicode inner en de =>
      simp only [pack, enc]
      refine Rel.bind (Rel.lift (Fr.refl st) (Φ := fun a b st' => a = b ∧ st' = st) (by simp)) ?_
      rintro b _ _ ⟨rfl, rfl⟩
      exact (ih inner none _ _ (Primed.none _ _)).mono (fun _ h => h)
        (fun _ _ _ ⟨h1, h2⟩ => ⟨h1, h2.fr, h2.size, h2.keeps⟩)
    | array id hdr item sl =>
      simp only [pack, enc]
      cases q with
      | none => trivial
      | some p =>
        refine Rel.step (hp.getPart rfl) ?_
        refine Rel.bind (prepack_rel item p st) ?_
        rintro item' ⟨i', qi⟩ st1 ⟨rfl, hpre, hp1, hf1, hk1⟩
        refine Rel.bind (Rel.lift hf1 (Φ := fun a b st' => a = b ∧ st' = st1) (by simp)) ?_
        rintro v _ _ ⟨rfl, rfl⟩
        refine Rel.bind (Rel.lift hf1 (Φ := fun a b st' => a = b ∧ st' = _) (fun _ _ => ⟨rfl, rfl⟩)) ?_
        rintro items _ _ ⟨rfl, rfl⟩
        refine Rel.bind ((packItems_rel ih item' qi items _ hp1).mono (fun _ h => hf1.trans h)
          (fun _ _ _ h => h)) ?_
        rintro ⟨data, size⟩ r st2 ⟨rfl, rfl, hf2, hk2⟩
        have hf2 := hf1.trans hf2
        refine Rel.bind (Rel.lift hf2 (Φ := fun a b st' => a = b ∧ st' = st2) (by simp)) ?_
        rintro hv _ _ ⟨rfl, rfl⟩
        refine Rel.bind (Rel.lift hf2 (Φ := fun a b st' => a = b ∧ st' = _ ∧
          packOpt env.plat hdr hv = .ok a) (fun a h => ⟨rfl, rfl, h⟩)) ?_
        rintro hb _ _ ⟨rfl, rfl, hh⟩
        refine Rel.step (setSize_run ..) (Rel.pure ⟨rfl, hf2.trans (Fr.withSize ..), ?_, ?_⟩)
        · intro _
          have := packOpt_length hh
          simp [Ser.readSize, getCellSize, this, hdrSize]
        · simpa using (hk1.trans hk2).trans (Keeps.withSize _ id _)
    | staticArr count item ser =>
      simp only [pack, enc]
      cases h : staticArrPrep count vs with
      | error e => exact ⟨st, rfl, Fr.refl _⟩
      | ok items =>
        refine Rel.step (a := items) rfl ?_
        cases hb : packOpt env.plat ser items with
        | error e => simp only [bind, Except.bind, hb]; exact ⟨st, rfl, Fr.refl _⟩
        | ok b =>
          simp only [bind, Except.bind, hb]
          refine ⟨b, st, rfl, rfl, Fr.refl _, fun _ => ?_, Keeps.refl _ _⟩
          rw [packOpt_length hb]; rfl
    | tuple id inner =>
      simp only [pack, enc]
      rcases vs with _ | ⟨v, _ | ⟨w, ws⟩⟩
      · exact Rel.throw (Fr.refl _)
      · cases q with
        | none => trivial
        | some p =>
          refine Rel.step (hp.getPart rfl) ?_
          refine Rel.bind (prepack_rel inner p st) ?_
          rintro inner' ⟨i', qi⟩ st1 ⟨rfl, hpre, hp1, hf1, hk1⟩
          refine Rel.bind (Rel.lift hf1 (Φ := fun a b st' => a = b ∧ st' = st1) (by simp)) ?_
          rintro vals _ _ ⟨rfl, rfl⟩
          have h := (ih inner' qi vals _ hp1).mono (F' := Fr st) (fun _ h => hf1.trans h)
            (fun _ _ _ h => h)
          show Rel _ _ (enc env n inner' qi vals >>= _) _ _
          cases he : enc env n inner' qi vals with
          | stuck => trivial
          | err e => rw [he] at h; exact h
          | ok r =>
            rw [he] at h
            obtain ⟨b, st2, hb, rfl, post⟩ := h
            refine ⟨_, st2, hb, rfl, hf1.trans post.fr, ?_, hk1.trans post.keeps⟩
            intro hs
            obtain ⟨h1, h2⟩ := pre_readSize hpre (by simpa [Ser.sized] using hs)
            show inner.readSize st2 = _
            rw [h1]
            exact post.size h2
      · exact Rel.throw (Fr.refl _)
    | lookback id d k o df =>
      simp only [pack, enc]
      cases q with
      | none => trivial
      | some p =>
        have hg := hp.getPart (id := id) rfl
        refine Rel.step hg ?_
        refine Rel.bind (Rel.lift (Fr.refl st) (Φ := fun a b st' => a = b ∧ st' = st) (by simp)) ?_
        rintro r _ _ ⟨rfl, rfl⟩
        exact packUnion_rel ih hg (fun _ => rfl)
    | lookahead id ra d k o df =>
      simp only [pack, enc]
      cases q with
      | none => trivial
      | some p =>
        have hg := hp.getPart (id := id) rfl
        refine Rel.step hg ?_
        refine Rel.bind (Rel.lift (Fr.refl st) (Φ := fun a b st' => a = b ∧ st' = st) (by simp)) ?_
        rintro r _ _ ⟨rfl, rfl⟩
        exact packUnion_rel ih hg (fun _ => rfl)
    | cond => exact Rel.throw (Fr.refl _)
    | skip vals => exact Rel.pure ⟨rfl, Fr.refl _, fun _ => rfl, Keeps.refl _ _⟩
    | structured id cls =>
      simp only [pack, enc]
      rcases vs with _ | ⟨v, _ | ⟨w, ws⟩⟩
      · exact Rel.throw (Fr.refl _)
      · refine Rel.bind (objPack_rel ih v st) ?_
        rintro ⟨b, ser⟩ ⟨r, ser'⟩ st1 ⟨hb1, hb2, hf1, hs1, hk1⟩
        simp only at hb1 hb2 hs1 hk1
        subst hb1 hb2
        refine Rel.size hf1 hs1 ?_
        intro _
        refine Rel.step (setSize_run ..) (Rel.pure ⟨rfl, hf1.trans (Fr.withSize ..), ?_, ?_⟩)
        · intro _; simp [Ser.readSize, getCellSize]
        · simpa using hk1.trans (Keeps.withSize st1 id r.bytes.length)
      · exact Rel.throw (Fr.refl _)
    | selfT => exact Rel.throw (Fr.refl _)
    | compound id ss =>
      simp only [pack, enc]
      have h := packLoop_rel ih (preM := pure) (preF := fun s => .ok (s, none)) (tch := fun _ => [])
        (by intro s st; exact ⟨s, st, rfl, rfl, Primed.none _ _, Fr.refl _, Keeps.refl _ _⟩) ss vs st
      revert h
      cases encLoop (enc env n) (fun s => .ok (s, none)) (fun _ => []) ss vs with
      | stuck => intro _; trivial
      | err e =>
        rintro ⟨st', h1, h2⟩
        refine ⟨st', ?_, h2⟩
        show M.bind _ _ _ = _
        simp [M.bind, h1]
      | ok r =>
        rintro ⟨⟨b, t⟩, st', h1, rfl, rfl, h4, h5⟩
        refine ⟨r.bytes, st'.withSize id r.bytes.length, ?_, rfl, h4.trans (Fr.withSize ..), ?_, ?_⟩
        · show M.bind _ _ _ = _
          simp only [M.bind, h1]; rfl
        · intro _; simp [Ser.readSize, getCellSize]
        · simpa using h5.trans (Keeps.withSize st' id r.bytes.length)
    | specialized id p ss =>
      simp only [pack, enc]
      have h := packLoop_rel ih (preM := fun s => s.prepack p) (preF := fun s => pre s p) (tch := touch)
        (fun s st => (prepack_rel s p st).mono (fun _ h => h) (fun _ _ _ h => ⟨h.1, h.2.2⟩)) ss vs st
      revert h
      cases encLoop (enc env n) (fun s => pre s p) touch ss vs with
      | stuck => intro _; trivial
      | err e =>
        rintro ⟨st', h1, h2⟩
        refine ⟨st', ?_, h2⟩
        show M.bind _ _ _ = _
        simp [M.bind, h1]
      | ok r =>
        rintro ⟨⟨b, t⟩, st', h1, rfl, rfl, h4, h5⟩
        refine ⟨r.bytes, st'.withSize id r.bytes.length, ?_, rfl, h4.trans (Fr.withSize ..), ?_, ?_⟩
        · show M.bind _ _ _ = _
          simp only [M.bind, h1]; rfl
        · intro _; simp [Ser.readSize, getCellSize]
        · simpa using h5.trans (Keeps.withSize st' id r.bytes.length)

end Verif
