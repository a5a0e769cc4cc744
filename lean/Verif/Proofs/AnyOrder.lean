import Verif.Proofs.StoreWrites
/-
Lemmas on byte orders: the serializer of a documented class can be put into any of them.
-/
namespace Verif
open Spec Sem

variable {bo : ByteOrder} {cf : ClassId → Bool}

theorem noObj {env : Env} : ObjWrites env (fun _ _ => Option.none) := fun _ _ _ h => by cases h

/-- A struct serializer whose format is one in every byte order. -/
def AnyMode (st : StructSer) : Prop := st.Valid ∧ (parse false st.baseFormat).isSome = true

theorem anyMode_wbo {st : StructSer} (h : AnyMode st) (b : ByteOrder) : ∃ st', st.withByteOrder b = .ok st' := by
  obtain ⟨c, h, _⟩ := C36_struct_with_byte_order st b h.1 (by
    cases hb : b.isNative
    · exact h.2
    · obtain ⟨t, ht⟩ := Option.isSome_iff_exists.1 h.2
      rw [show parse true st.baseFormat = some t from parseAux_mode ht]; rfl)
  exact ⟨c, h⟩

theorem basic_anyMode {t : Tok} {st : StructSer} (h : BasicSer bo t st) : AnyMode st := ⟨h.valid, by rw [h.std]; rfl⟩

theorem add_base {x y z : StructSer} {u : List Tok} (h : x.add y = .ok z)
    (hu : parse x.byteOrder.isNative (foldOverlaps false x.baseFormat y.baseFormat) = some u) :
    z.baseFormat = foldOverlaps false x.baseFormat y.baseFormat := by
  have key : ∀ a, StructSer.baseFormat ⟨x.byteOrder.value ++ foldOverlaps false x.baseFormat y.baseFormat, a⟩ = foldOverlaps false x.baseFormat y.baseFormat :=
    fun a => (StructSer.of_parse (a := a) hu).2.2.1
  have acts : ∀ {as z}, StructSer.mkActions (foldOverlaps false x.baseFormat y.baseFormat) x.byteOrder as = .ok z →
      z.baseFormat = foldOverlaps false x.baseFormat y.baseFormat := by
    intro as z h
    unfold StructSer.mkActions at h
    dsimp only at h
    split at h
    · split at h <;> (cases h; exact key _)
    · cases h
  unfold StructSer.add at h
  simp only at h
  split at h
  · split at h
    · unfold StructSer.mkPlain at h
      dsimp only at h
      split at h
      · cases h; exact key _
      · cases h
    · cases h
  · exact acts h
  · exact acts h
  · exact acts h

theorem sum_anyMode {x y z : StructSer} (h : SumIn bo x y z) (hx : AnyMode x) (hy : AnyMode y) : AnyMode z := by
  refine ⟨h.facts.valid, ?_⟩
  have h1 := StructSer.parse_base h.xok.fmt
  have h2 := StructSer.parse_base h.yok.fmt
  rw [h.ybo, ← h.xbo] at h2
  obtain ⟨u, hu, _⟩ := foldOverlaps_agree h1 h2 (.inl h.single)
  obtain ⟨t1, ht1⟩ := Option.isSome_iff_exists.1 hx.2
  obtain ⟨t2, ht2⟩ := Option.isSome_iff_exists.1 hy.2
  obtain ⟨t, ht, _⟩ := foldOverlaps_agree ht1 ht2 (.inl h.single)
  rw [add_base h.sum hu, ht]; rfl

/-- A serializer that can be put into any byte order. -/
def AnyOrder (s : Ser) : Prop := Simple s ∧ (∀ st, s = .struct st → AnyMode st) ∧ ∀ b, ∃ s', s.withByteOrder b = .ok s'

theorem anyMode_order {st : StructSer} (h : AnyMode st) : AnyOrder (.struct st) :=
  ⟨rfl, fun _ e => by cases e; exact h, fun b => by
    obtain ⟨st', h⟩ := anyMode_wbo h b
    exact ⟨_, by simp only [Ser.withByteOrder, h]; rfl⟩⟩

theorem item_anyOrder {t : Tok} {s : Ser} (h : IsItem bo t s) : AnyOrder s := by
  obtain ⟨st, rfl, h⟩ := h
  exact anyMode_order (basic_anyMode h)

theorem intSer_any (w : Size) (b : ByteOrder) : ∃ st, (intSer bo (w.code false)).withByteOrder b = .ok st := by
  cases w <;> cases bo <;> cases b <;> exact ⟨_, rfl⟩

theorem sized_any {w w2 : Size} {h : StructSer} (e : (intSer bo (w.code false)).add (intSer bo (w2.code false)) = .ok h) (b : ByteOrder) :
    ∃ st, h.withByteOrder b = .ok st := by
  cases w <;> cases w2 <;> cases bo <;> cases e <;> cases b <;> exact ⟨_, rfl⟩

theorem array_any {id : SerId} {hdr : Option StructSer} {item : Ser} {sl : Int} (h1 : ∀ st, hdr = some st → ∀ b, ∃ st', st.withByteOrder b = .ok st')
    (h2 : ∀ b, ∃ s', item.withByteOrder b = .ok s') : AnyOrder (.array id hdr item sl) := by
  refine ⟨rfl, nofun, fun b => ?_⟩
  obtain ⟨i, hi⟩ := h2 b
  cases hdr with
  | none => exact ⟨_, by simp only [Ser.withByteOrder, hi]; rfl⟩
  | some st =>
    obtain ⟨st', hs⟩ := h1 st rfl b
    exact ⟨_, by simp only [Ser.withByteOrder, hi, hs]; rfl⟩

theorem self_any {s : Ser} (h1 : Simple s) (h2 : ∀ st, s ≠ .struct st) (h : ∀ b, s.withByteOrder b = .ok s) : AnyOrder s :=
  ⟨h1, fun st e => absurd e (h2 st), fun b => ⟨s, h b⟩⟩

theorem is_any : ∀ (f : Fmt) {s : Ser}, f.Is cf bo s → AnyOrder s
  | .int .., _, h => item_anyOrder h
  | .bool, _, h => item_anyOrder h
  | .half, _, h => item_anyOrder h
  | .single, _, h => item_anyOrder h
  | .double, _, h => item_anyOrder h
  | .pascal _, _, h => item_anyOrder h
  | .chars _, _, h => item_anyOrder h
  | .via n f g r make, s, h => by
    have h0 := h
    obtain ⟨st, rfl, hd, h⟩ := h
    obtain ⟨t, ⟨_, e, h2⟩, _⟩ := is_direct hd h
    cases e
    exact anyMode_order ⟨(is_fieldOf (f := .via n f g r make) h0).1.2 _ rfl |>.1, (basic_anyMode h2).2⟩
  | .counted w, _, h => by
    obtain ⟨id, rfl⟩ := h
    refine ⟨rfl, nofun, fun b => ?_⟩
    obtain ⟨st, hs⟩ := intSer_any (bo := bo) w b
    exact ⟨_, by simp only [Ser.withByteOrder, hs]; rfl⟩
  | .until _, _, h => by obtain ⟨id, rfl⟩ := h; exact self_any rfl nofun fun _ => rfl
  | .net, _, h => by obtain ⟨id, rfl⟩ := h; exact self_any rfl nofun fun _ => rfl
  | .rest, _, h => by obtain ⟨id, rfl⟩ := h; exact self_any rfl nofun fun _ => rfl
  | .text f en de, _, h => by obtain ⟨y, rfl, h⟩ := h; exact self_any rfl nofun fun _ => rfl
  | .fixed n item, _, h => by
    rcases h with ⟨st, ser, rfl, hb, hi, hm⟩ | ⟨id, y, rfl, hnb, hi⟩
    · refine ⟨rfl, nofun, fun b => ?_⟩
      obtain ⟨st', h1⟩ := anyMode_wbo ((is_any item hi).2.1 st rfl) b
      have h2 : item.Is cf b (.struct st') := is_wbo item hi (by simp only [Ser.withByteOrder, h1]; rfl)
      obtain ⟨t, ht, _⟩ := is_basic_toks hb h2
      obtain ⟨ser', h3⟩ : ∃ ser', st'.mul n = .ok ser' := by
        cases n with
        | zero =>
          refine ⟨none, ?_⟩
          simp only [StructSer.mul, StructSer.mulImpl]
          cases st'.actions <;> rfl
        | succ n =>
          obtain ⟨c, h, _⟩ := mul_toks (a := st') (n := n + 1) (by omega) (by rw [ht.toks]; simp) ht.single
          exact ⟨_, h⟩
      exact ⟨.staticArr n st' ser', by simp only [Ser.withByteOrder, h1, mkStaticArr, bind, Except.bind, h3]⟩
    · exact array_any nofun (is_any item hi).2.2
  | .list w item, _, h => by
    obtain ⟨id, y, rfl, hi⟩ := h
    exact array_any (fun st e => by cases e; exact fun b => intSer_any w b) (is_any item hi).2.2
  | .sized w w2 item, _, h => by
    obtain ⟨id, y, hd, rfl, ha, hi⟩ := h
    exact array_any (fun st e => by cases e; exact fun b => sized_any ha b) (is_any item hi).2.2
  | .tup items, _, h => by obtain ⟨id, id', inner, ss, rfl, h⟩ := h; exact self_any rfl nofun fun _ => rfl
  | .obj _, _, h => by obtain ⟨id, rfl⟩ := h; exact self_any rfl nofun fun _ => rfl
  | .me, _, h => by obtain ⟨id, rfl⟩ := h; exact self_any rfl nofun fun _ => rfl
  | .choice .., _, h => by
    obtain ⟨os, ds, h1, h2, ⟨h3, rfl⟩ | ⟨a, st, h3, h4, rfl⟩⟩ := h
    · exact self_any rfl nofun fun _ => rfl
    · exact self_any rfl nofun fun _ => rfl

theorem field_any {f : Field} (hg : f.sound = true) {s : Ser} (h : f.Is cf bo s) : AnyOrder s := by
  cases f with
  | value a f => exact is_any f h
  | pad => exact item_anyOrder h
  | «when» a c f d =>
    obtain ⟨y, rfl, h⟩ := h
    simp only [Field.sound, Field.good, Bool.and_eq_true] at hg
    refine ⟨rfl, nofun, fun b => ?_⟩
    obtain ⟨y', hy⟩ := (is_any f h).2.2 b
    have h1 := (is_stores (env := ⟨⟨true, fun _ _ => Option.none, fun _ => 0, fun _ => Option.none, fun _ => 0, fun _ => Option.none⟩, fun _ => Option.none⟩) noObj f b y' hg.1 (is_wbo f h hy)).one
    exact ⟨.cond y' c [d], by simp only [Ser.withByteOrder, hy, bind, Except.bind, h1]; rfl⟩

theorem fields_any : ∀ {fs : List Field} {ss : List Ser}, (∀ f ∈ fs, f.sound = true) → Field.IsL cf bo fs ss → ∀ s ∈ ss, AnyOrder s
  | [], _, _, h, s, hs => by cases h; cases hs
  | f :: fs, _, hg, h, s, hs => by
    obtain ⟨x, xs, rfl, h1, h2⟩ := h
    rcases List.mem_cons.1 hs with rfl | hs
    · exact field_any (hg f (by simp)) h1
    · exact fields_any (fun g h => hg g (by simp [h])) h2 s hs

theorem merge_any {ss ps : List Ser} (h : Merge (SumIn bo) ss ps) (hs : ∀ s ∈ ss, AnyOrder s) : ∀ s ∈ ps, AnyOrder s := by
  induction h with
  | refl => exact hs
  | null _ ih => exact ih fun s h => hs s (by
    simp only [List.mem_append, List.mem_cons] at h ⊢
    exact h.imp id .inr)
  | join hj _ ih =>
    rename_i pre post ys x y z _
    refine ih fun s h => ?_
    simp only [List.mem_append, List.mem_cons] at h
    rcases h with h | rfl | h
    · exact hs s (by simp [h])
    · exact anyMode_order (sum_anyMode hj ((hs (.struct x) (by simp)).2.1 x rfl) ((hs (.struct y) (by simp)).2.1 y rfl))
    · exact hs s (by simp [h])

theorem wboList_any {b : ByteOrder} : ∀ {ss : List Ser}, (∀ s ∈ ss, AnyOrder s) →
    ∃ ss', Ser.withByteOrderList b ss = .ok ss' ∧ ∀ s ∈ ss', Simple s
  | [], _ => ⟨[], rfl, nofun⟩
  | s :: ss, h => by
    obtain ⟨s', h1⟩ := (h s (by simp)).2.2 b
    obtain ⟨ss', h2, h3⟩ := wboList_any (b := b) (ss := ss) fun x hx => h x (by simp [hx])
    refine ⟨s' :: ss', by simp only [Ser.withByteOrderList, h1, h2]; rfl, fun x hx => ?_⟩
    rcases List.mem_cons.1 hx with rfl | hx
    · exact simple_wbo (h s (by simp)).1 h1
    · exact h3 x hx

theorem shape_any {s : Ser} (h : ∀ x ∈ parts s, AnyOrder x) (hs : Simple s ∨ ∃ id xs, s = .compound id xs) (b : ByteOrder) :
    ∃ s', s.withByteOrder b = .ok s' := by
  rcases hs with hs | ⟨id, xs, rfl⟩
  · rcases parts_simple hs with ⟨_, rfl⟩ | hp
    · exact ⟨_, rfl⟩
    · exact (h s (by rw [hp]; simp)).2.2 b
  · obtain ⟨ss', h1, h2⟩ := wboList_any (b := b) h
    refine ⟨.compound (b.num :: id) ss', ?_⟩
    simp only [parts] at h1
    have : ss'.any Ser.isCompound = false := by
      rw [List.any_eq_false]
      intro x hx
      have := h2 x hx
      cases x <;> first | (cases this; done) | simp [Ser.isCompound]
    simp only [Ser.withByteOrder, h1, bind, Except.bind, mkCompound, this]
    rfl

/-- The serializer of a documented class can be put into any byte order. -/
theorem documented_any {ctx : HintCtx} {M : Nat} {d : ClassDoc} {o : ClassObj} (h : Documented ctx M d o) (hg : d.sound = true) (b : ByteOrder) :
    ∃ s, o.info.serializer.withByteOrder b = .ok s := by
  obtain ⟨_, hs⟩ := documented_own h hg
  obtain ⟨ss, h1, h2, _, h3⟩ := hs Option.none _ rfl
  simp only [ClassDoc.sound, Bool.and_eq_true, List.all_eq_true] at hg
  exact shape_any (merge_any h2 (fields_any hg.1.1 h1)) h3 b

/-- The lone part of a documented class. -/
theorem lone_part (env : Env) {d : ClassDoc} {s : Ser} {ss : List Ser} (hg : d.sound = true) (h : Field.IsL cf bo d.fields ss)
    (hm : Merge (SumIn bo) ss (parts s)) (hs : Simple s ∨ ∃ id xs, s = .compound id xs) :
    s.sized = true ∧ ∀ p, ∃ s' q, pre s p = .ok (s', q) := by
  rcases hs with hs | ⟨_, _, rfl⟩
  · rcases parts_simple hs with ⟨_, rfl⟩ | hps
    · exact ⟨rfl, fun p => ⟨_, _, rfl⟩⟩
    · by_cases hstr : ∃ st, s = .struct st
      · obtain ⟨st, rfl⟩ := hstr; exact ⟨rfl, fun p => ⟨_, _, rfl⟩⟩
      · have := merge_lone hm hps (fun st e => hstr ⟨st, e⟩) (fun x hx => (fieldsL_fieldOf h x hx).2)
        subst this
        simp only [ClassDoc.sound, Bool.and_eq_true, List.all_eq_true] at hg
        obtain ⟨⟨hg, _⟩, hlone⟩ := hg
        generalize d.fields = fs at h hlone hg
        match fs, h, hlone, hg with
        | f :: fs, h, hlone, hg =>
          obtain ⟨x, xs, e, h1, h2⟩ := h
          cases e
          have : fs = [] := by
            cases fs with
            | nil => rfl
            | cons => obtain ⟨_, _, e, _⟩ := h2; cases e
          subst this
          have hgf := hg f (by simp)
          cases f with
          | value a f =>
            have hw := is_stores (env := env) noObj f bo s hgf h1
            refine ⟨?_, fun p => ?_⟩
            · rcases hw.szd with h3 | ⟨id, rfl⟩
              · exact h3
              · have := is_selfT h1
                subst this
                cases hlone
            · obtain ⟨s', q, h, _⟩ := hw.enc p
              exact ⟨s', q, h⟩
          | pad => obtain ⟨st, rfl, _⟩ := h1; exact ⟨rfl, fun p => ⟨_, _, rfl⟩⟩
          | «when» => cases hlone
  · exact ⟨rfl, fun p => ⟨_, _, rfl⟩⟩

variable {env : Env} {ctx : HintCtx} {M : Nat}

/-- The serializer of an object, in its own byte order if it has one. -/
theorem documented_ser {c : ClassId} {own : Option ByteOrder} {d : ClassDoc} {o : ClassObj} (ho : env.classes c = some o.info)
    (h : Documented ctx M d o) (hg : d.sound = true) : ∃ ser, objSer env c own = .ok (o.info, ser) ∧
      ∃ ss, Field.IsL ctx.clsFinal (own.getD d.byteOrder) d.fields ss ∧ Merge (SumIn (own.getD d.byteOrder)) ss (parts ser) ∧
        Apart (parts ser) ∧ (Simple ser ∨ ∃ id xs, ser = .compound id xs) := by
  obtain ⟨_, hs⟩ := documented_own h hg
  cases own with
  | none => exact ⟨_, by simp only [objSer, ho], hs Option.none _ rfl⟩
  | some b =>
    obtain ⟨s, h⟩ := documented_any h hg b
    exact ⟨s, by simp only [objSer, ho, h]; rfl, hs (some b) s h⟩

theorem obj_stores {docs : ClassId → Option ClassDoc} (hd : Describes env ctx M docs) : ∀ (k : Nat) (c : ClassId) (v : Val) (b : Bytes),
    storeObj true env.plat docs k c v = some b → ∃ K, ∀ n ≥ K,
      (∀ id c', Gives (enc env n (.structured id c') Option.none [v]) b) ∧
      (encObj env (enc env n) v = .stuck ∨ ∃ t s, encObj env (enc env n) v = .ok (⟨b, t⟩, s))
  | 0, c, v, b, h => by cases h
  | k + 1, c, v, b, h => by
    simp only [storeObj] at h
    split at h
    · rename_i c' own attrs
      split at h
      · rename_i d hdc
        split at h
        · rename_i vs hp
          obtain ⟨hg, o, ho, hdo⟩ := hd c' d hdc
          obtain ⟨ha, _⟩ := documented_own hdo hg
          obtain ⟨ser, hobj, ss, his, hm, hap, hsh⟩ := documented_ser (own := own) ho hdo hg
          have hg' := hg
          simp only [ClassDoc.sound, Bool.and_eq_true, List.all_eq_true] at hg'
          have hWk : ObjWrites env (storeObj true env.plat docs k) := fun c v b hv => by
            obtain ⟨K, hK⟩ := obj_stores hd k c v b hv
            exact ⟨K, fun n hn => (hK n hn).1⟩
          obtain ⟨hl, K, hK⟩ := fields_stores hWk ⟨c', false, attrs⟩ his hg'.1.1 h
          obtain ⟨s', q, hs1, hs2⟩ := whole_enc hm hap (fun x hx => (fieldsL_fieldOf his x hx).2) hsh hl hK
          have hsz := (lone_part env hg his hm hsh).1
          have key : ∀ n ≥ K + 2, (encObj env (enc env n) (.obj c' own attrs) = .stuck ∨
              ∃ t, encObj env (enc env n) (.obj c' own attrs) = .ok (⟨b, t⟩, ser)) := by
            intro n hn
            simp only [encObj, hobj, Out.ofE, Out.ok_bind, hs1, ha, pick_getAttrs hp]
            rcases hs2 n hn with h1 | ⟨t, h1⟩
            · rw [h1]; exact .inl rfl
            · rw [h1]; exact .inr ⟨_, rfl⟩
          refine ⟨K + 3, fun n hn => ⟨fun id _ => ?_, ?_⟩⟩
          · obtain ⟨m, rfl⟩ : ∃ m, n = m + 1 := ⟨n - 1, by omega⟩
            simp only [enc]
            rcases key m (by omega) with h1 | ⟨t, h1⟩
            · rw [h1]; exact .inl rfl
            · rw [h1]
              simp only [Out.ok_bind, hsz, not_true_eq_false, if_false]
              exact .ok
          · rcases key n (by omega) with h1 | ⟨t, h1⟩
            · exact .inl h1
            · exact .inr ⟨_, _, h1⟩
        · cases h
      · cases h
    · cases h

end Verif
