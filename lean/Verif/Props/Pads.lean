import Verif.Proofs.PadNames
/-
C28: padding fields.
-/
namespace Verif
open Spec Sem Samples

variable {ctx : HintCtx} {n : Nat} {id : SerId} {w : World} {d : ClassDecl} {o ob : ClassObj}

/-- **C28** (several pads).  Every pad in a class body, although all are called `_`, is declared under a name of its own. -/
theorem C28_every_pad (h : createClass ctx n id w d = .ok o) {named : List (Name × Hint)} (hn : PadsNamed d.padStart d.anns named)
    (hid : ∀ a ∈ d.anns, IsIdentifier a.1) (hf : w.PadsFresh d.padStart) {i : Nat} {hint : Hint} (hi : d.anns[i]? = some ("_", hint)) :
    ∃ a c, named[i]? = some (a, hint) ∧ PadHint c hint ∧ a ∈ o.decls.map (·.1) ∧ lastDecl o.decls a = hint ∧
      (∀ i' a' h', i' ≠ i → named[i']? = some (a', h') → a' ≠ a) := by
  obtain ⟨j, c, hj, hat, hp⟩ := padsNamed_at hn i hint hi
  obtain ⟨n1, n2⟩ := padsNamed_names hn hid
  have hmem : padName j ∈ named.map (·.1) := List.mem_map.2 ⟨_, List.mem_of_getElem? hat, rfl⟩
  have huniq : ∀ i' a' h', i' ≠ i → named[i']? = some (a', h') → a' ≠ padName j := by
    rintro i' a' h' hne hat' rfl
    exact hne (n2 i' i j h' hint hat' hat)
  have hlast : lastDecl named (padName j) = hint := by
    exact lastDecl_once hat (fun i' h' e => n2 i' i j h' hint e hat)
  obtain ⟨body, hb, hc⟩ := (createClass_made h).chain
  have hbody := metaDict_named hn hb
  have hget : body.get (padName j) = some hint := by
    rw [hbody, get_update_last, if_pos hmem, hlast]
  have hnod : (Dict.keys body).Nodup := by rw [hbody]; exact nodup_update (by simp [Dict.keys])
  have fin : ∀ {anns : Dict Hint} {pre : List (Name × Hint)}, (Dict.keys anns).Nodup → anns.get (padName j) = some hint →
      o.decls = pre ++ anns → padName j ∈ o.decls.map (·.1) ∧ lastDecl o.decls (padName j) = hint := by
    intro anns pre h1 h2 h3
    obtain ⟨e1, e2⟩ := lastDecl_nodup h1 h2
    rw [h3, lastDecl_append, if_pos e2, List.map_append]
    exact ⟨List.mem_append_right _ e2, e1⟩
  have key : padName j ∈ o.decls.map (·.1) ∧ lastDecl o.decls (padName j) = hint := by
    rcases hc with ⟨_, h2, h3, _⟩ | ⟨b, ob, _, hw, _, h4, _, h6⟩
    · exact fin (pre := structuredAnns) hnod hget (by unfold ClassObj.decls; rw [h2]; simp)
    · have hd : o.decls = ob.decls ++ o.anns := by unfold ClassObj.decls; rw [h4]; simp
      rcases h6 with ⟨_, h7⟩ | ⟨args, hints, _, h8, h9⟩
      · rw [← h7] at hnod hget
        exact fin hnod hget hd
      · refine fin (anns := o.anns) ?_ ?_ hd
        · rw [h9]; exact nodup_update hnod
        · rw [h9, get_update_last, if_neg, hget]
          intro hm
          obtain ⟨c', o', hw', hm'⟩ := specHints_keys h8 _ hm
          exact (hf c' o' hw' j hj).2 hm'
  exact ⟨padName j, c, hat, hp, key.1, key.2, huniq⟩

/-- **C28** (inherited pads).  They stay, unless the base class is generic and specialized. -/
theorem C28_inherited_pad_partial (h : DerivedFrom ctx n id w d o ob) {named : List (Name × Hint)} (hn : PadsNamed d.padStart d.anns named)
    (hid : ∀ a ∈ d.anns, IsIdentifier a.1) (hf : w.PadsFresh d.padStart) {j : Nat} (hj : padName j ∈ ob.decls.map (·.1))
    (hg : ∀ b, structuredBase d.bases = .ok (some b) → origArgs o.origBases b = none) :
    padName j ∈ o.decls.map (·.1) ∧ lastDecl o.decls (padName j) = lastDecl ob.decls (padName j) := by
  have hd := h.decls
  obtain ⟨hc, b, hb, hw⟩ := h
  have hnot : padName j ∉ List.map (·.1) o.anns := by
    obtain ⟨body, hm, hch⟩ := (createClass_made hc).chain
    have hbody := metaDict_named hn hm
    have e : o.anns = body := by
      rcases hch with ⟨_, _, h3, _⟩ | ⟨b', ob', hb', _, _, _, _, h6⟩
      · exact h3
      · rcases h6 with ⟨_, h7⟩ | ⟨args, hints, h7, _⟩
        · exact h7
        · rw [hg b' hb'] at h7; cases h7
    rw [e, hbody, mem_update]
    simp only [List.map_nil, List.not_mem_nil, false_or]
    intro hm
    obtain ⟨x, hx, hxe⟩ := List.mem_map.1 hm
    have := (padsNamed_names hn hid).1 x hx j hxe
    exact (hf b ob hw j this).1 hj
  rw [hd, lastDecl_append, if_neg hnot, List.map_append]
  exact ⟨List.mem_append_left _ hj, rfl⟩

/-- **C28** (not attributes).  A pad is neither an attribute nor an argument of `__init__`. -/
theorem C28_not_attr (h : createClass ctx n id w d = .ok o) {a : Name} {k : Nat} {hint : Hint} (hp : PadHint k hint)
    (hl : lastDecl o.decls a = hint) : a ∉ o.info.attrs := by
  rw [C27_attrs h, mem_attrsOf]
  rintro ⟨_, _, m, i, s, hs, hpad⟩
  rw [hl, (padHint_transform (ctx := ctx) hp).choose_spec.2.2.1] at hs
  obtain ⟨st, e, _, _, _, h5⟩ := padHint_only hp hs
  cases e
  rw [h5] at hpad
  cases hpad

/-- **C28** (place).  A pad is a field of `k` bytes, at its place among the fields of the class; in the serializer it is
an item `kx` of a struct serializer, which has the basic fields next to it before and behind it. -/
theorem C28_place (h : createClass ctx n id w d = .ok o) (hb : BasicFields ctx o) {a : Name} {k : Nat} {hint : Hint} (hp : PadHint k hint)
    (ha : a ∈ o.decls.map (·.1)) (hl : lastDecl o.decls a = hint) :
    ∃ fields pre post st, FieldsOf ctx n o d.byteOrder fields ∧ fields = pre ++ (a, .struct st) :: post ∧ st.toks = [⟨k, .pad⟩] ∧
      ∃ (preP : List Ser) (z : StructSer) (postP x1 x2 : List Ser) (t1 t2 : List StructSer),
        PadAt k (parts o.info.serializer) preP z (t1.flatMap StructSer.toks) (t2.flatMap StructSer.toks) postP ∧
        (pre.map (·.2)).filter (fun s => !s.isNull) = x1 ++ t1.map Ser.struct ∧ Laid x1 preP ∧
        (post.map (·.2)).filter (fun s => !s.isNull) = t2.map Ser.struct ++ x2 ∧ Laid x2 postP := by
  obtain ⟨fields, hfo, hlaid⟩ := C34_class h hb
  obtain ⟨st0, _, ht, hev, _⟩ := padHint_transform (ctx := ctx) hp
  obtain ⟨p, hp1, hp2⟩ := hfo.names
  have hmem : a ∈ fields.map (·.1) := by
    rw [hp2, List.mem_filter, mem_firsts]
    refine ⟨ha, (hp1 a).2 ?_⟩
    rw [hl, hev]
    exact ⟨1, [], _, ht 0 []⟩
  obtain ⟨⟨a', s⟩, hf, rfl⟩ := List.mem_map.1 hmem
  obtain ⟨i, s0, e1, e2⟩ := hfo.sers _ hf
  simp only at e1 e2
  rw [hl, hev] at e1
  obtain ⟨st1, e3, e4, e5, e6, _⟩ := padHint_only hp e1
  cases e3
  obtain ⟨st, rfl, e7, e8⟩ := padHint_wbo e4 e6 e2
  obtain ⟨pre, post, hsplit⟩ := List.append_of_mem hf
  refine ⟨fields, pre, post, st, hfo, hsplit, e7, ?_⟩
  rw [hsplit, List.map_append, List.filter_append, List.map_cons, List.filter_cons_of_pos (by rfl)] at hlaid
  obtain ⟨preP, z, postP, x1, x2, t1, t2, g1, g2, g3, g4, g5, g6, _⟩ := laid_at hlaid rfl
  refine ⟨preP, z, postP, x1, x2, t1, t2, ⟨g1, ?_⟩, g2, g4, g3, g5⟩
  rw [e7] at g6
  exact g6

/-- **C28** (written as zeros).  When an object packs, the pad at `PadAt` is `k` zero bytes, behind the bytes of the parts in
front of it and of the items in front of it. -/
theorem C28_zeros {env : Env} {m k : Nat} {cls : ClassId} {ci : ClassInfo} {attrs : List (Name × Val)} {pre post : List Ser} {z : StructSer}
    {t1 t2 : List Tok} (hci : env.classes cls = some ci) (hat : PadAt k (parts ci.serializer) pre z t1 t2 post) {st st' : St} {b : Bytes}
    (h : Obj.pack env (m + 1) (.obj cls none attrs) st = .ok b st') :
    ∃ vals b0 c st0 x y, getAttrs attrs ci.attrs = .ok vals ∧
      packLoop (pack env m) (partPrep (parts ci.serializer) ⟨cls, false, attrs⟩) pre vals st = .ok (b0, c) st0 ∧
      b = b0 ++ x ++ List.replicate k 0 ++ y ∧ x.length = offsetAfter z t1 := by
  obtain ⟨⟨b', ser⟩, s1, h1, h⟩ := M.bind_ok h
  cases h
  simp only [objPack] at h1
  obtain ⟨⟨ci', ser'⟩, s2, h2, h6⟩ := M.bind_ok h1
  obtain ⟨h2, e2⟩ := lift_ok.1 h2
  rw [e2] at h6
  simp only [objSer, hci] at h2
  cases h2
  obtain ⟨s, s3, h3, h7⟩ := M.bind_ok h6
  obtain ⟨vals, s4, h4, h8⟩ := M.bind_ok h7
  obtain ⟨hv, e4⟩ := lift_ok.1 h4
  rw [e4] at h8
  obtain ⟨bb, s5, h5, h9⟩ := M.bind_ok h8
  cases h9
  clear h1 h6 h7 h8 h4
  have items : ∀ {n : Nat} {vs : List Val} {bz : Bytes} {sa sb : St}, pack env n (.struct z) vs sa = .ok bz sb →
      ∃ x y, bz = x ++ List.replicate k 0 ++ y ∧ x.length = offsetAfter z t1 := by
    intro n vs bz sa sb hz
    cases n with
    | zero => cases hz
    | succ n =>
      rw [pack] at hz
      obtain ⟨hz, _⟩ := lift_ok.1 hz
      unfold StructSer.pack structPack at hz
      split at hz
      · rw [hat.items.pack] at hz
        exact packToks_pad hz
      · cases hz
  rcases parts_struct hat.parts with ⟨e, rfl, rfl⟩ | ⟨i, e⟩
  · rw [e] at h3
    cases h3
    obtain ⟨x, y, h6, h7⟩ := items h5
    exact ⟨vals, [], 0, st, x, y, hv, rfl, by simpa using h6, h7⟩
  · have hparts : parts ci.serializer = pre ++ .struct z :: post := hat.parts
    rw [e] at h3
    have : s = (if needsPreprocess (parts ci.serializer) then .specialized i ⟨cls, false, attrs⟩ (pre ++ .struct z :: post)
        else .compound i (pre ++ .struct z :: post)) ∧ s3 = st := by
      rw [hparts]
      cases h3
      exact ⟨rfl, rfl⟩
    obtain ⟨hs, e3⟩ := this
    rw [e3] at h5
    have hloop : ∃ r sl, packLoop (pack env m) (partPrep (parts ci.serializer) ⟨cls, false, attrs⟩) (pre ++ .struct z :: post) vals st = .ok r sl ∧ r.1 = b := by
      unfold partPrep
      by_cases hp : needsPreprocess (parts ci.serializer) = true
      · rw [if_pos hp] at hs ⊢
        rw [hs] at h5
        rw [pack] at h5
        obtain ⟨r, sl, h6, h5⟩ := M.bind_ok h5
        obtain ⟨_, _, _, h5⟩ := M.bind_ok h5
        cases h5
        exact ⟨r, sl, h6, rfl⟩
      · rw [if_neg hp] at hs ⊢
        rw [hs] at h5
        rw [pack] at h5
        obtain ⟨r, sl, h6, h5⟩ := M.bind_ok h5
        obtain ⟨_, _, _, h5⟩ := M.bind_ok h5
        cases h5
        exact ⟨r, sl, h6, rfl⟩
    obtain ⟨r, sl, h6, rfl⟩ := hloop
    have hpr : ∀ st, partPrep (parts ci.serializer) ⟨cls, false, attrs⟩ (.struct z) st = .ok (.struct z) st := by
      intro st
      unfold partPrep
      split <;> rfl
    obtain ⟨b0, c0, st0, vs', bz, st1, b1, e1, e2, e5⟩ := packLoop_at hpr h6
    obtain ⟨x, y, h8, h9⟩ := items e2
    exact ⟨vals, b0, c0, st0, x, y ++ b1, hv, e1, by rw [e5, h8]; simp, h9⟩

/-- The parts of the serializer of a class one after the other. -/
theorem decObj_compound {env : Env} {m : Nat} {cls : ClassId} {ci : ClassInfo} (hci : env.classes cls = some ci) {i : SerId} {ss : List Ser}
    (e : ci.serializer = .compound i ss) (src : PSrc) :
    decObj env (dec env (m + 1)) cls src = (do
      let r ← readFront env m cls ci ss src
      let v ← .ofE (construct cls ci r.vals)
      .ok (v, ⟨r.vals, r.size, r.pos, touch ci.serializer ++ r.touched⟩, ci.serializer)) := by
  unfold decObj readFront
  rw [hci]
  simp only
  rw [e]
  simp only [preU, pre, parts]
  by_cases hc : needsPreprocess ss = true
  · simp only [hc, if_true]; rfl
  · simp only [hc]; rfl

/-- **C28** (ignored).  If the data with `p` where the pad is reads as an object, it reads as the same object with any other `k`
bytes there.  (The pad is behind the bytes `readFront` uses and the items in front of it.) -/
theorem C28_ignored_partial {env : Env} {own : ClassId → List SerId} (hs : env.settled own) (hnp : env.noPeek)
    (hk : env.allowed ⟨true, false, true, false⟩) {m k : Nat} {cls : ClassId} {ci : ClassInfo} {pre post : List Ser} {z : StructSer}
    {t1 t2 : List Tok} (hci : env.classes cls = some ci) (hat : PadAt k (parts ci.serializer) pre z t1 t2 post) {x p p' y : Bytes}
    {r0 : Dec} (h0 : readFront env m cls ci pre (.buf (x ++ p ++ y)) = .ok r0) (hx : x.length = r0.size + offsetAfter z t1)
    (hp : p.length = k) (hp' : p'.length = k) {st1 st1' : St} {v : Val}
    (h : createUnpack env (m + 1) cls (.buf (x ++ p ++ y)) st1 = .ok v st1') (st2 : St) :
    ∃ st2', createUnpack env (m + 1) cls (.buf (x ++ p' ++ y)) st2 = .ok v st2' := by
  obtain ⟨r, ser, h1, _, _⟩ := createUnpack_inv hs h
  have h1 : decObj env (dec env (m + 1)) cls (.buf (x ++ p ++ y)) = .ok (v, r, ser) := h1
  suffices h2 : decObj env (dec env (m + 1)) cls (.buf (x ++ p' ++ y)) = .ok (v, r, ser) by
    obtain ⟨st', g, _⟩ := createUnpack_ok (src := .buf (x ++ p' ++ y)) (st := st2) h2
    exact ⟨st', g⟩
  rcases parts_struct hat.parts with ⟨e, rfl, rfl⟩ | ⟨i, e⟩
  · have : r0.size = 0 := by
      unfold readFront at h0
      split at h0 <;> (cases h0; rfl)
    have e2 : dec env (m + 1) (assignVals ci.attrs) (.struct z) none (.buf (x ++ p ++ y)) = dec env (m + 1) (assignVals ci.attrs) (.struct z) none (.buf (x ++ p' ++ y)) :=
      dec_pad (size := 0) (pos := 0) hat.items (by omega) hp hp'
    rw [decObj, hci] at h1 ⊢
    simp only at h1 ⊢
    rw [e] at h1 ⊢
    simp only [preU] at h1 ⊢
    obtain ⟨q, g1, h1⟩ := Out.ofE_ok' h1
    cases g1
    change (dec env (m + 1) (assignVals ci.attrs) (.struct z) none (.buf (x ++ p' ++ y)) >>= _) = _
    rw [← e2]
    exact h1
  · rw [decObj_compound hci e] at h1 ⊢
    obtain ⟨a, e1, h1⟩ := Out.bind_ok' h1
    have hpk := hnp _ _ hci
    have hal := hk _ _ hci
    rw [e] at hpk hal
    have n1 : Ser.noPeekList pre = true := noPeekList_mem.2 fun s hs => noPeekList_mem.1 hpk s (List.mem_append_left _ hs)
    have n2 : Ser.allowedList ⟨true, false, true, false⟩ pre = true := allowedList_mem.2 fun s hs => allowedList_mem.1 hal s (List.mem_append_left _ hs)
    have e2 : readFront env m cls ci (pre ++ .struct z :: post) (.buf (x ++ p' ++ y)) = .ok a := by
      unfold readFront at h0 e1 ⊢
      split at h0
      · next hc =>
        rw [if_pos hc] at e1 ⊢
        exact decLoopSpec_pad hnp hk hat.items hp hp' pre _ _ _ _ _ _ n1 n2 e1 h0 hx
      · next hc =>
        rw [if_neg hc] at e1 ⊢
        exact decLoop_pad hnp hk hat.items hp hp' pre _ _ _ _ n1 n2 e1 h0 hx
    rw [e2]
    exact h1

/-- What `C28_ignored_partial` asks of `pre` is so whenever the whole was read. -/
theorem readFront_ok {env : Env} {m : Nat} {cls : ClassId} {ci : ClassInfo} {pre post : List Ser} {src : PSrc} {r : Dec}
    (h : readFront env m cls ci (pre ++ post) src = .ok r) : ∃ r0, readFront env m cls ci pre src = .ok r0 := by
  unfold readFront at h ⊢
  split at h
  · next hc => rw [if_pos hc]; exact decLoopSpec_front _ _ _ _ _ _ h
  · next hc => rw [if_neg hc]; exact decLoop_front _ _ _ _ h

end Verif

namespace Verif.Samples
open Spec

def padH (k : Int) : Hint := match mkPad k with
  | .ok h => h
  | .error _ => .noneT

/-- Two pads, with the annotations written in some way. -/
def twoPads (f : Hint → Hint) : ClassDecl :=
  { bases := [.structured], byteOrder := .le, padStart := 4
    anns := [("_", f (padH 1)), ("a", f uint8H), ("_", f (padH 3)), ("b", f uint16H)] }

/-- `class Padded2(Structured, byte_order=LITTLE_ENDIAN): a: uint8; _: pad[3]; b: uint16; c: char[b'\0']; _: pad[1]` -/
def padded2Decl : ClassDecl :=
  { bases := [.structured], byteOrder := .le, padStart := 4
    anns := [("a", uint8H), ("_", padH 3), ("b", uint16H), ("c", .annot (.plain "bytes") [.ser (.terminated [9] 0)]), ("_", padH 1)] }

/-- The class made by `padded2Decl`. -/
def padded2 : ClassObj :=
  match createClass hctx 3 [10] world0 padded2Decl with
  | .ok o => o
  | .error _ => ⟨[], [], [], ⟨[], .null, .default, .ok⟩⟩

def padEnv : Env := ⟨plat, fun c => if c = 10 then some padded2.info else none⟩

theorem padEnv_info {c : ClassId} {ci : ClassInfo} (h : padEnv.classes c = some ci) : c = 10 ∧ ci = padded2.info := by
  simp only [padEnv] at h
  split at h
  · next e => cases h; exact ⟨e, rfl⟩
  · cases h

theorem padEnv_settled : padEnv.settled (fun _ => []) := by
  intro c ci h
  obtain ⟨rfl, rfl⟩ := padEnv_info h
  refine ⟨rfl, rfl, ?_, ?_⟩
  · intro i hi; cases hi
  · intro d _ i hi; cases hi

end Verif.Samples

namespace Verif
open Spec Sem Samples

/-- The hypotheses of `C28_every_pad` and `C28_not_attr` hold of `Padded`. -/
example : PadsNamed paddedDecl.padStart paddedDecl.anns
    [("a", uint8H), ("4_pad_", padH 3), ("b", uint16H), ("c", .annot (.plain "bytes") [.ser (.dynChar [9] ⟨['B'], none⟩)]),
      ("x", .plain "int"), ("5_pad_", padH 1)] ∧
    (∀ a ∈ paddedDecl.anns, IsIdentifier a.1) ∧ world0.PadsFresh 4 ∧ lastDecl padded.decls "5_pad_" = padH 1 ∧ PadHint 1 (padH 1) := by
  refine ⟨?_, ?_, ?_, by rfl, ⟨by omega, by rfl⟩⟩
  · refine .other (by decide) (.pad (j := 3) ⟨by omega, by rfl⟩ (.other (by decide) (.other (by decide) (.other (by decide)
      (.pad (j := 1) ⟨by omega, by rfl⟩ (.nil _))))))
  · intro a ha
    simp only [paddedDecl, List.mem_cons, List.not_mem_nil, or_false] at ha
    rcases ha with rfl | rfl | rfl | rfl | rfl | rfl <;> (intro c cs e; cases e; rfl)
  · intro c o h; cases h

/-- A class derived from `Padded` with a pad of its own has all three. -/
example : let w : World := fun c => if c = 10 then some padded else none
    let d : ClassDecl := { bases := [.cls 10], byteOrder := .le, padStart := 6, anns := [("_", padH 2), ("d", uint8H)] }
    w.PadsFresh 6 ∧ (createClass hctx 3 [12] w d).map (fun o => o.info.serializer) = .ok (.compound [1, 12]
      [.struct ⟨"<B3xH".toList, none⟩, .dynChar [1, 9] ⟨"<B".toList, none⟩, .struct ⟨"<3xB".toList, none⟩]) ∧
    (createClass hctx 3 [12] w d).map (fun o => o.info.attrs) = .ok ["a", "b", "c", "d"] := by
  refine ⟨?_, by rfl, by rfl⟩
  intro c o h j hj
  simp only at h
  split at h
  · cases h
    have key : ∀ x ∈ ["serializer", "attrs", "_attrgetter", "byte_order", "a", "4_pad_", "b", "c", "x", "5_pad_"], padName j ≠ x := by
      intro x hx e
      have hcase : x = padName 4 ∨ x = padName 5 ∨ IsIdentifier x := by
        simp only [List.mem_cons, List.not_mem_nil, or_false] at hx
        rcases hx with rfl | rfl | rfl | rfl | rfl | rfl | rfl | rfl | rfl | rfl <;>
          first
            | exact .inl rfl
            | exact .inr (.inl rfl)
            | (right; right; intro c cs e; cases e; rfl)
      rcases hcase with h1 | h1 | h1
      · have := padName_inj (e.trans h1); omega
      · have := padName_inj (e.trans h1); omega
      · exact padName_not_identifier j (e ▸ h1)
    refine ⟨fun hm => key _ hm rfl, fun hm => key (padName j) ?_ rfl⟩
    exact List.mem_append_right ["serializer", "attrs", "_attrgetter", "byte_order"] hm
  · cases h

/-- The pads of `Padded2` are where `C28_zeros` and `C28_ignored_partial` say. -/
example : padEnv.settled (fun _ => []) ∧ padEnv.noPeek ∧ padEnv.allowed ⟨true, false, true, false⟩ ∧ padEnv.classes 10 = some padded2.info ∧
    PadAt 3 (parts padded2.info.serializer) [] ⟨"<B3xH".toList, none⟩ [⟨1, .int false .one⟩] [⟨1, .int false .two⟩]
      [.terminated [9] 0, .struct ⟨"<x".toList, none⟩] ∧
    PadAt 1 (parts padded2.info.serializer) [.struct ⟨"<B3xH".toList, none⟩, .terminated [9] 0] ⟨"<x".toList, none⟩ [] [] [] := by
  refine ⟨padEnv_settled, ?_, ?_, by rfl, ⟨by rfl, ToksAgree.refl _⟩, ⟨by rfl, ToksAgree.refl _⟩⟩
  · intro c ci h; obtain ⟨rfl, rfl⟩ := padEnv_info h; rfl
  · intro c ci h; obtain ⟨rfl, rfl⟩ := padEnv_info h; rfl

/-- Both pads are written as zeros and ignored. -/
example : let v : Val := .obj 10 none [("a", .int 7), ("b", .int 513), ("c", .bytes [104, 105])]
    result (Obj.pack padEnv 9 v st0) = .ok [7, 0, 0, 0, 1, 2, 104, 105, 0, 0] ∧
    result (createUnpack padEnv 9 10 (.buf [7, 0, 0, 0, 1, 2, 104, 105, 0, 0]) st0) = .ok v ∧
    result (createUnpack padEnv 9 10 (.buf [7, 9, 8, 255, 1, 2, 104, 105, 0, 66]) st0) = .ok v := ⟨by rfl, by rfl, by rfl⟩

/-! ### Where it fails -/

/-- **C28** fails for `_: pad[0]`, which is a null serializer and not a pad: it becomes an attribute and an argument of `__init__`,
for which there is no value when reading. -/
theorem C28_pad0_is_false : ∃ o, mkPad 0 = .ok (padH 0) ∧
    createClass hctx 3 [10] world0 { bases := [.structured], anns := [("a", uint8H), ("_", padH 0), ("b", uint8H)] } = .ok o ∧
    o.info.attrs = ["a", "_", "b"] ∧
    result (createUnpack ⟨plat, fun c => if c = 10 then some o.info else none⟩ 9 10 (.buf [1, 2]) st0) = .error .valueError :=
  ⟨_, by rfl, by rfl, by rfl, by rfl⟩

/-- **C28** fails when annotations are strings (`from __future__ import annotations`): the pads are then all called `_`, and only one
is left, with the place of the first and the size of the last. -/
theorem C28_postponed_is_false :
    (createClass hctx 3 [10] world0 (twoPads .fwd)).map (fun o => o.info.serializer) = .ok (.struct ⟨"<3xBH".toList, none⟩) ∧
    (createClass hctx 3 [10] world0 (twoPads fun h => h)).map (fun o => o.info.serializer) = .ok (.struct ⟨"<xB3xH".toList, none⟩) :=
  ⟨by rfl, by rfl⟩

/-- **C28** fails when a lookahead union peeks at the pad: the content of the pad decides what is read.
`class Peek(Structured, byte_order=LITTLE_ENDIAN): u: Annotated[uint8 | int8, LookaheadDecider(uint16, .., {1: uint8}, int8)]; _: pad[1]` -/
theorem C28_peeked_is_false :
    let env : Env := ⟨plat, fun c => if c = 10 then some
      { attrs := ["u"], byteOrder := .le
        serializer := .compound [1, 10] [.lookahead [2] (.struct ⟨"<H".toList, none⟩) (fun _ => .ok (.int 1)) [.int 255] [.struct ⟨"<B".toList, none⟩]
          (.struct ⟨"<b".toList, none⟩), .struct ⟨"<x".toList, none⟩] } else none⟩
    result (createUnpack env 9 10 (.buf [255, 0]) st0) = .ok (.obj 10 none [("u", .int 255)]) ∧
    result (createUnpack env 9 10 (.buf [255, 1]) st0) = .ok (.obj 10 none [("u", .int (-1))]) := ⟨by rfl, by rfl⟩

end Verif
