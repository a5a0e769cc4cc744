import Verif.Spec.Arrays
import Verif.Props.Strings
/-
Running arrays item by item, from what each item does on its own.
-/
namespace Verif
open Spec Sem

variable {env : Env}

theorem Spec.Shows.next {src : Src} {st st' : St} {a b : Bytes} (h : Shows src st (a ++ b)) (hm : Moved src a.length st st') :
    Shows (src.next a.length) st' b := by
  cases src with
  | buf x => cases h; simp [Src.next, Shows]
  | «at» x off =>
    obtain ⟨h1, h2⟩ := h
    have hl : (x.drop off).length = (a ++ b).length := by rw [h2]
    simp only [List.length_drop, List.length_append] at hl
    refine ⟨by omega, ?_⟩
    rw [← List.drop_drop, h2]
    simp
  | io =>
    have h : st.io.data.drop st.io.pos = a ++ b := h
    show st'.io.data.drop st'.io.pos = b
    rw [hm.2.1, hm.2.2, ← List.drop_drop, h]
    simp

theorem Spec.Moved.refl (src : Src) (st : St) : Moved src 0 st st := ⟨rfl, rfl, by cases src <;> rfl⟩

theorem Spec.Moved.trans {src : Src} {i j : Nat} {k : Nat} {a b c : St} (h1 : Moved src i a b) (h2 : Moved (src.next k) j b c) :
    Moved src (i + j) a c := by
  refine ⟨h2.1.trans h1.1, h2.2.1.trans h1.2.1, ?_⟩
  rw [h2.2.2, h1.2.2]
  cases src <;> simp [Src.next]
  omega

theorem packItems_run {n : Nat} {i : Ser} {G : St → Prop} {f : Val → Bytes} : ∀ (items : List Val),
    (∀ v ∈ items, ItemPacks env n i G v (f v)) → ∀ st, G st → ∃ st',
      packItems (pack env n) i items st = .ok ((items.map f).flatten, ((items.map f).flatten).length) st' ∧ G st' := by
  intro items
  induction items with
  | nil => intro _ st hg; exact ⟨st, rfl, hg⟩
  | cons v vs ih =>
    intro h st hg
    obtain ⟨s1, h1, g1, z1⟩ := h v (by simp) st hg
    obtain ⟨s2, h2, g2⟩ := ih (fun w hw => h w (by simp [hw])) s1 g1
    refine ⟨s2, ?_, g2⟩
    simp [packItems, bind, M.bind, pure, M.pure, h1, z1, h2]

theorem unpackItems_run {n : Nat} {i : Ser} {G : St → Prop} {f : Val → Bytes} {g : Val → Val} {src : Src} {st0 : St} : ∀ (items : List Val),
    (∀ v ∈ items, ItemReads env n i G (f v) (g v)) → ∀ (front rest : Bytes) (st : St), G st →
      Shows src st0 (front ++ ((items.map f).flatten ++ rest)) → Moved src front.length st0 st → ∃ st',
        unpackItems (unpack env n noUpd) i src front.length items.length st
          = .ok (items.map g, front.length + ((items.map f).flatten).length) st' ∧ G st' ∧
        Moved src (front.length + ((items.map f).flatten).length) st0 st' := by
  intro items
  induction items with
  | nil => intro _ front rest st hg _ hm; exact ⟨st, by simp [unpackItems, pure, M.pure], hg, by simpa using hm⟩
  | cons v vs ih =>
    intro h front rest st hg hs hm
    have hs' : Shows (src.next front.length) st (f v ++ ((vs.map f).flatten ++ rest)) := by
      have := hs.next hm
      simpa [List.append_assoc] using this
    obtain ⟨s1, h1, g1, m1, z1⟩ := h v (by simp) _ _ _ hg hs'
    have hm' : Moved src (front ++ f v).length st0 s1 := by
      have := hm.trans m1
      simpa using this
    obtain ⟨s2, h2, g2, m2⟩ := ih (fun w hw => h w (by simp [hw])) (front ++ f v) rest s1 g1
      (by simpa [List.append_assoc] using hs) hm'
    refine ⟨s2, ?_, g2, ?_⟩
    · simp only [List.length_append] at h2
      simp [unpackItems, bind, M.bind, pure, M.pure, h1, z1, h2, Nat.add_assoc]
    · simpa [Nat.add_assoc] using m2

theorem structUnpackM_shows {s : StructSer} {src : Src} {st : St} {d rest : Bytes} {vs ws : List Val}
    (hp : s.pack env.plat vs = .ok d) (hk : s.kept env.plat vs = .ok ws) (hs : Shows src st (d ++ rest)) :
    ∃ st', structUnpackM env s src st = .ok ws st' ∧ Moved src d.length st st' ∧ st'.cells = st.cells := by
  have hr := structUnpackM_rel env s src st
  obtain ⟨h1, h2⟩ := structDec_kept hp hs.views
  rw [h2, hk] at hr
  obtain ⟨vs', st', e1, rfl, e2, e3⟩ := hr
  exact ⟨st', e1, moved_of_adv e2, e3⟩

theorem preunpack_fr {s i : Ser} {p : PObj} {st st' : St} (h : s.preunpack p st = .ok i st') : Fr st st' := by
  have hr := preunpack_rel s p st
  cases hp : Sem.preU s p with
  | error e =>
    rw [hp] at hr
    obtain ⟨s1, h1, _⟩ := hr
    rw [h1] at h; cases h
  | ok r =>
    rw [hp] at hr
    obtain ⟨i', s1, h1, _, _, _, h2, _⟩ := hr
    rw [h1] at h; cases h
    exact h2

theorem prepack_fr {s i : Ser} {p : PObj} {st st' : St} (h : s.prepack p st = .ok i st') : Fr st st' := by
  have hr := prepack_rel s p st
  cases hp : Sem.pre s p with
  | error e =>
    rw [hp] at hr
    obtain ⟨s1, h1, _⟩ := hr
    rw [h1] at h; cases h
  | ok r =>
    rw [hp] at hr
    obtain ⟨i', s1, h1, _, _, _, h2, _⟩ := hr
    rw [h1] at h; cases h
    exact h2

/-- An array packs its items, then its header. -/
theorem array_pack {n : Nat} {id : SerId} {hdr : Option StructSer} {item i : Ser} {sl : Int} {p : PObj} {G : St → Prop}
    {f : Val → Bytes} {items : List Val} (hpre : ∀ st, ∃ st', item.prepack p st = .ok i st' ∧ G st')
    (hitem : ∀ v ∈ items, ItemPacks env n i G v (f v)) (st : St) : ∃ st',
      packGiven env (n + 1) (.array id hdr item sl) p [.list items] st =
        match (do
          let hv ← headerPackValues hdr sl items.length ((items.map f).flatten).length
          packOpt env.plat hdr hv) with
        | .ok h => .ok (h ++ (items.map f).flatten) st'
        | .error e => .err e st' := by
  obtain ⟨s1, h1, g1⟩ := hpre (st.withPart id p)
  obtain ⟨s2, h2, g2⟩ := packItems_run items hitem s1 g1
  have e0 : packGiven env (n + 1) (.array id hdr item sl) p [.list items] st
      = pack env (n + 1) (.array id hdr item sl) [.list items] (st.withPart id p) := by
    simp [packGiven, Ser.prepack, bind, M.bind, pure, M.pure, setPart_run]
  have hgp : getPart id (st.withPart id p) = .ok p (st.withPart id p) := by simp [getPart]
  rw [e0]
  simp only [pack, bind, M.bind, hgp, h1, first, M.lift, pyIter, Val.strip, h2, pure, M.pure]
  cases h3 : headerPackValues hdr sl items.length ((items.map f).flatten).length with
  | error e => exact ⟨s2, rfl⟩
  | ok hv =>
    simp only [Except.bind]
    cases h4 : packOpt env.plat hdr hv with
    | error e => exact ⟨s2, rfl⟩
    | ok h => exact ⟨s2.withSize id (hdrSize hdr + ((items.map f).flatten).length), rfl⟩

theorem structUnpackOpt_shows {s : Option StructSer} {src : Src} {st : St} {d rest : Bytes} {vs ws : List Val}
    (hp : packOpt env.plat s vs = .ok d) (hk : keptOpt env.plat s vs = .ok ws) (hs : Shows src st (d ++ rest)) :
    ∃ st', structUnpackOpt env s src st = .ok ws st' ∧ Moved src d.length st st' ∧ st'.cells = st.cells ∧ d.length = hdrSize s := by
  cases s with
  | none => cases hp; cases hk; exact ⟨st, rfl, Moved.refl _ _, rfl, rfl⟩
  | some s =>
    obtain ⟨st', h1, h2, h3⟩ := structUnpackM_shows hp hk hs
    exact ⟨st', h1, h2, h3, structSer_pack_length hp⟩

/-- An array reads its header, then its items, then compares sizes. -/
theorem array_unpack {n : Nat} {upd : Upd} {id : SerId} {hdr : Option StructSer} {item i : Ser} {sl : Int} {p : PObj} {G : St → Prop}
    {f : Val → Bytes} {g : Val → Val} {items hv : List Val} {hb rest : Bytes} {d : Int} {src : Src} {st : St}
    (hpre : ∀ st, ∃ st', item.preunpack p st = .ok i st' ∧ G st')
    (hitem : ∀ v ∈ items, ItemReads env n i G (f v) (g v))
    (hp : packOpt env.plat hdr hv = .ok hb) (hk : keptOpt env.plat hdr hv = .ok hv)
    (hu : headerUnpackValues hdr sl hv = .ok ((items.length : Int), d))
    (hs : Shows src st (hb ++ ((items.map f).flatten ++ rest))) : ∃ st',
      unpack env (n + 1) upd (.array id hdr item sl) src (st.withPart id p) =
        (match checkDataSize d ((items.map f).flatten).length with
        | .ok _ => .ok [.list (items.map g)] st'
        | .error e => .err e st') ∧
      Moved src (hb.length + ((items.map f).flatten).length) st st' ∧
      (checkDataSize d ((items.map f).flatten).length = .ok () →
        (st'.cells id).size = hb.length + ((items.map f).flatten).length) := by
  have hs0 : Shows src (st.withPart id p) (hb ++ ((items.map f).flatten ++ rest)) := hs
  obtain ⟨s1, h1, m1, c1, l1⟩ := structUnpackOpt_shows hp hk hs0
  have hgp : getPart id s1 = .ok p s1 := by simp [getPart, c1]
  obtain ⟨s2, h2, g2⟩ := hpre s1
  have hfr := preunpack_fr h2
  have m2 : Moved src hb.length (st.withPart id p) s2 := ⟨hfr.1.trans m1.1, by rw [hfr.2]; exact m1.2.1, by rw [hfr.2]; exact m1.2.2⟩
  obtain ⟨s3, h3, g3, m3⟩ := unpackItems_run (src := src) (st0 := st.withPart id p) items hitem hb rest s2 g2 hs0 m2
  have hcount : ((items.length : Int)).toNat = items.length := by simp
  simp only [unpack, bind, M.bind, h1, M.lift, hu, hgp, h2, hcount, pure, M.pure, ← l1, h3,
    Nat.add_sub_cancel_left]
  cases h4 : checkDataSize d ((items.map f).flatten).length with
  | error e => exact ⟨s3, rfl, m3, by simp⟩
  | ok u =>
    refine ⟨s3.withSize id (hb.length + ((items.map f).flatten).length), rfl, m3, fun _ => by simp⟩

end Verif
