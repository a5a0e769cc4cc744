import Verif.Proofs.ArrayBasic
/-
C18 (fixed length arrays), C19 (counted arrays), C20 (data-size headers).

Arrays of basic types are the objects `staticArr` and `dynArr`, all others the object `array`.  What one item does on
its own is given by `ItemPacks` and `ItemReads`; `packGiven`/`unpackGiven` are `prepack`/`preunpack` followed by
`pack`/`unpack*`, as a class does with each of its fields.
-/
namespace Verif
open Spec Samples Sem

/-! ### C18 -/

/-- **C18** (wrong length).  No method packs a list of another length, whatever the items and the state are. -/
theorem C18_wrong_length (env : Env) (n : Nat) (id : SerId) (hdr : Option StructSer) (item : Ser) (sl : Int) (h0 : 0 ≤ sl)
    (v : Val) (items : List Val) (hv : pyIter v = .ok items) (hl : (items.length : Int) ≠ sl) (st st' : St) :
    (∀ b, pack env n (.array id hdr item sl) [v] st ≠ .ok b st') ∧
    (∀ off, packInto env n (.array id hdr item sl) off [v] st ≠ .ok () st') ∧
    packWrite env n (.array id hdr item sl) [v] st ≠ .ok () st' := by
  have hh : ∀ k, headerPackValues hdr sl items.length k = .error .valueError := fun k => by
    simp [headerPackValues, h0, hl]
  have h1 : ∀ n b st', pack env n (.array id hdr item sl) [v] st ≠ .ok b st' := by
    intro n b st' h
    cases n with
    | zero => cases h
    | succ n =>
      simp only [pack] at h
      obtain ⟨p, s1, _, h⟩ := M.bind_ok h
      obtain ⟨i, s2, _, h⟩ := M.bind_ok h
      obtain ⟨w, s3, hw, h⟩ := M.bind_ok h
      cases hw
      obtain ⟨is, s4, hi, h⟩ := M.bind_ok h
      rw [hv] at hi
      cases hi
      obtain ⟨⟨d, z⟩, s5, _, h⟩ := M.bind_ok h
      obtain ⟨hvs, s6, h6, h⟩ := M.bind_ok h
      rw [hh] at h6
      cases h6
  refine ⟨fun b => h1 n b st', ?_, ?_⟩
  · intro off h
    cases n with
    | zero => cases h
    | succ n =>
      simp only [packInto] at h
      obtain ⟨w, s3, hw, h⟩ := M.bind_ok h
      cases hw
      obtain ⟨p, s1, _, h⟩ := M.bind_ok h
      obtain ⟨i, s2, _, h⟩ := M.bind_ok h
      obtain ⟨is, s4, hi, h⟩ := M.bind_ok h
      rw [hv] at hi
      cases hi
      obtain ⟨z, s5, _, h⟩ := M.bind_ok h
      obtain ⟨hvs, s6, h6, h⟩ := M.bind_ok h
      rw [hh] at h6
      cases h6
  · intro h
    cases n with
    | zero => cases h
    | succ n =>
      simp only [packWrite] at h
      obtain ⟨b, s1, hb, _⟩ := M.bind_ok h
      exact h1 _ _ _ hb

/-- **C18** (wrong length).  If the items themselves can be packed the exception is `ValueError`. -/
theorem C18_wrong_length_error (env : Env) (n : Nat) (id : SerId) (hdr : Option StructSer) (item i : Ser) (sl : Int) (h0 : 0 ≤ sl)
    (p : PObj) (G : St → Prop) (f : Val → Bytes) (items : List Val) (hpre : ∀ st, ∃ st', item.prepack p st = .ok i st' ∧ G st')
    (hitem : ∀ v ∈ items, ItemPacks env n i G v (f v)) (hl : (items.length : Int) ≠ sl) (st : St) :
    result (packGiven env (n + 1) (.array id hdr item sl) p [.list items] st) = .error .valueError := by
  obtain ⟨st', h⟩ := array_pack (id := id) (hdr := hdr) (sl := sl) hpre hitem st
  rw [h]
  simp [headerPackValues, h0, hl, bind, Except.bind, result]

/-- **C18** (packing).  A list of the right length is packed as its items, one after the other. -/
theorem C18_pack (env : Env) (n : Nat) (id : SerId) (item i : Ser) (p : PObj) (G : St → Prop) (f : Val → Bytes) (items : List Val)
    (hpre : ∀ st, ∃ st', item.prepack p st = .ok i st' ∧ G st')
    (hitem : ∀ v ∈ items, ItemPacks env n i G v (f v)) (st : St) :
    result (packGiven env (n + 1) (.array id none item items.length) p [.list items] st) = .ok (items.map f).flatten := by
  obtain ⟨st', h⟩ := array_pack (id := id) (hdr := none) (sl := items.length) hpre hitem st
  rw [h]
  simp [headerPackValues, hdrNum, bind, Except.bind, packOpt, result]

theorem unpackItems_length {unpackN : Ser → Src → M (List Val)} {item : Ser} {src : Src}
    (h1 : ∀ src st vs st', unpackN item src st = .ok vs st' → vs.length = 1) : ∀ k size st r st',
    unpackItems unpackN item src size k st = .ok r st' → r.1.length = k := by
  intro k
  induction k with
  | zero => intro size st r st' h; cases h; rfl
  | succ k ih =>
    intro size st r st' h
    rw [unpackItems] at h
    obtain ⟨vs, s1, g1, h⟩ := M.bind_ok h
    obtain ⟨z, s2, _, h⟩ := M.bind_ok h
    obtain ⟨r', s3, g3, h⟩ := M.bind_ok h
    cases h
    simp [h1 _ _ _ _ g1, ih _ _ _ _ g3, Nat.add_comm]

/-- **C18** (unpacking, partial).  What comes back is a list of exactly the declared length, if each item yields one
value.  Empty `char[uint8]` items yield none: `C18_unpack_is_false`. -/
theorem C18_unpack_partial (env : Env) (n : Nat) (upd : Upd) (id : SerId) (hdr : Option StructSer) (item : Ser) (sl : Int) (h0 : 0 ≤ sl)
    (hone : ∀ p i s s', item.preunpack p s = .ok i s' → ∀ src st vs st', unpack env n noUpd i src st = .ok vs st' → vs.length = 1)
    (src : Src) (st st' : St) (vs : List Val) (h : unpack env (n + 1) upd (.array id hdr item sl) src st = .ok vs st') :
    ∃ items, vs = [.list items] ∧ (items.length : Int) = sl := by
  simp only [unpack] at h
  obtain ⟨hv, s1, _, h⟩ := M.bind_ok h
  obtain ⟨⟨c, d⟩, s2, hc, h⟩ := M.bind_ok h
  obtain ⟨p, s3, _, h⟩ := M.bind_ok h
  obtain ⟨i, s4, hi, h⟩ := M.bind_ok h
  obtain ⟨⟨items, z⟩, s5, hr, h⟩ := M.bind_ok h
  obtain ⟨u, s6, _, h⟩ := M.bind_ok h
  obtain ⟨u', s7, _, h⟩ := M.bind_ok h
  cases h
  have hl := unpackItems_length (fun src st vs st' => hone p i _ _ hi src st vs st') _ _ _ _ _ hr
  have hc' : c = sl := by
    unfold headerUnpackValues at hc
    simp only [h0, ↓reduceIte] at hc
    split at hc
    · cases hx : (do Except.ok (sl, ← needInt (← first hv)) : Except Err (Int × Int)) with
      | error e => rw [hx] at hc; cases hc
      | ok r =>
        rw [hx] at hc
        cases hc
        obtain ⟨a, _, hx⟩ := Except.bind_ok' hx
        obtain ⟨b, _, hx⟩ := Except.bind_ok' hx
        cases hx; rfl
    · cases hc; rfl
  refine ⟨items, rfl, ?_⟩
  subst hc'
  simp only at hl
  omega

/-- **C18** (basic types, wrong length).  Every method raises `ValueError` and changes nothing. -/
theorem C18_basic_wrong_length (env : Env) (n : Nat) (count : Int) (item : StructSer) (ser : Option StructSer) (v : Val) (items : List Val)
    (hv : pyIter v = .ok items) (hl : (items.length : Int) ≠ count) (st : St) :
    pack env (n + 1) (.staticArr count item ser) [v] st = .err .valueError st ∧
    (∀ off, packInto env (n + 1) (.staticArr count item ser) off [v] st = .err .valueError st) ∧
    packWrite env (n + 1) (.staticArr count item ser) [v] st = .err .valueError st := by
  have h : staticArrPrep count [v] = .error .valueError := by
    simp [staticArrPrep, first, bind, Except.bind, pyLen_pyIter hv, hl]
  refine ⟨?_, fun off => ?_, ?_⟩ <;> simp only [pack, packInto, packWrite, bind, M.bind, M.lift, h]

/-- **C18** (basic types, packing).  A list of the right length is packed as its items, each packed on its own, one
after the other; if one cannot be packed, neither can the array. -/
theorem C18_basic_pack (env : Env) (n : Nat) (item : StructSer) (ser : Option StructSer) (h1 : item.oneValue)
    (hs : SingleItem item.baseFormat) (v : Val) (items : List Val) (hv : pyIter v = .ok items)
    (hm : item.mul items.length = .ok ser) (st : St) :
    result (pack env (n + 1) (.staticArr items.length item ser) [v] st) = packEach env.plat item items := by
  obtain ⟨t, ht, hn⟩ := h1
  have h : staticArrPrep items.length [v] = .ok items := by
    simp [staticArrPrep, first, bind, Except.bind, pyLen_pyIter hv, hv]
  simp only [pack, bind, M.bind, M.lift, h, mul_pack_each ht hn hs hm]
  cases packEach env.plat item items <;> rfl

theorem runActions_length {as : List Action} {vs ws : List Val} (h : StructSer.runActions as vs = .ok ws) (hl : as.length = vs.length) :
    ws.length = vs.length := by
  induction as generalizing vs ws with
  | nil => cases vs with
    | nil => cases h; rfl
    | cons v vs => cases hl
  | cons a as ih => cases vs with
    | nil => cases hl
    | cons v vs =>
      simp only [StructSer.runActions] at h
      obtain ⟨w, _, h⟩ := Except.bind_ok' h
      obtain ⟨ws', h2, h⟩ := Except.bind_ok' h
      cases h
      simp [ih h2 (by simpa using hl)]

theorem applyActions_length {s : StructSer} (hs : ∀ as, s.actions = some as → as.length = s.numValues) {vs ws : List Val}
    (hl : vs.length = s.numValues) (h : s.applyActions vs = .ok ws) : ws.length = s.numValues := by
  unfold StructSer.applyActions at h
  cases ha : s.actions with
  | none => rw [ha] at h; cases h; exact hl
  | some as =>
    rw [ha] at h
    rw [runActions_length h (by rw [hs as ha, hl]), hl]

/-- A struct serializer reads as many values as its format says. -/
theorem structUnpackM_length {env : Env} {s : StructSer} (hs : ∀ as, s.actions = some as → as.length = s.numValues) {src : Src}
    {st st' : St} {vs : List Val} (h : structUnpackM env s src st = .ok vs st') : vs.length = s.numValues := by
  have key : ∀ {x : Except Err (List Val)}, (∀ ws, x = .ok ws → ws.length = s.numValues) →
      ∀ {st st'}, M.lift (x >>= s.applyActions) st = .ok vs st' → vs.length = s.numValues := by
    intro x hx st st' h
    cases hx' : x >>= s.applyActions with
    | error e => rw [hx'] at h; cases h
    | ok ws =>
      rw [hx'] at h; cases h
      obtain ⟨a, h1, h2⟩ := Except.bind_ok' hx'
      exact applyActions_length hs (hx a h1) h2
  have hu : ∀ b ws, structUnpack env.plat s.byteOrder s.toks b = .ok ws → ws.length = s.numValues := by
    intro b ws h
    unfold structUnpack at h
    split at h
    · cases h; exact unpackToks_length ..
    · cases h
  cases src with
  | buf b => exact key (hu _) h
  | «at» b off =>
    refine key (fun ws h => ?_) h
    unfold structUnpackFrom at h
    split at h
    · cases h; exact unpackToks_length ..
    · cases h
  | io =>
    simp only [structUnpackM] at h
    obtain ⟨d, s1, _, h⟩ := M.bind_ok h
    exact key (hu _) h

theorem numValues_mul {item : StructSer} {t : Tok} (ht : item.toks = [t]) (hn : t.numVals = 1)
    (hs : SingleItem item.baseFormat) (ha : ∀ as, item.actions = some as → as.length = 1) {k : Nat} {ser : Option StructSer}
    (hm : item.mul k = .ok ser) : hdrNum ser = k ∧ ∀ s, ser = some s → ∀ as, s.actions = some as → as.length = s.numValues := by
  by_cases hk : k = 0
  · subst hk
    cases hm
    exact ⟨rfl, by simp⟩
  · obtain ⟨c, m1, m2, m3, m4, m5, m6⟩ := mul_toks (n := k) (by omega) (by simp [ht]) hs
    rw [m1] at hm
    cases hm
    have hnv : c.numValues = k := by
      show numVals c.toks = k
      rw [m3.vals, numVals_rep, ht]
      simp [numVals, hn]
    refine ⟨hnv, ?_⟩
    rintro s ⟨⟩ as has
    rw [m5] at has
    cases hia : item.actions with
    | none => rw [hia] at has; cases has
    | some ias =>
      rw [hia] at has
      cases has
      rw [hnv, rep, List.length_flatten, List.map_replicate, ha ias hia]
      simp

/-- **C18** (basic types, unpacking).  What comes back is a list of exactly the declared length. -/
theorem C18_basic_unpack (env : Env) (n : Nat) (upd : Upd) (count : Nat) (item : StructSer) (ser : Option StructSer) (h1 : item.oneValue)
    (hs : SingleItem item.baseFormat) (ha : ∀ as, item.actions = some as → as.length = 1) (hm : item.mul count = .ok ser)
    (src : Src) (st st' : St) (vs : List Val) (h : unpack env (n + 1) upd (.staticArr count item ser) src st = .ok vs st') :
    ∃ items, vs = [.list items] ∧ items.length = count := by
  obtain ⟨t, ht, hn⟩ := h1
  obtain ⟨k1, k2⟩ := numValues_mul ht hn hs ha hm
  simp only [unpack] at h
  obtain ⟨items, s1, h1, h⟩ := M.bind_ok h
  cases h
  refine ⟨items, rfl, ?_⟩
  cases ser with
  | none => cases h1; exact k1
  | some s => rw [← k1]; exact structUnpackM_length (k2 s rfl) h1

/-- Two `Point`s as `array[Header[2], Point]`, and the `uint16` array `array[Header[2], uint16]`. -/
example :
    result (packGiven Samples.env 4 (.array [8] none (.structured [12] 0) 2) ⟨0, false, []⟩ [.list [point 1 2, point 3 4]] st0)
      = .ok [1, 0, 2, 3, 0, 4] ∧
    (∀ v ∈ [point 1 2, point 3 4], ∃ b, ItemPacks Samples.env 3 (.structured [12] 0) (fun _ => True) v b) ∧
    (intSer .le 'H').oneValue ∧ SingleItem (intSer .le 'H').baseFormat ∧
    (intSer .le 'H').mul 2 = .ok (some ⟨"<2H".toList, none⟩) ∧
    result (pack Samples.env 1 (.staticArr 2 (intSer .le 'H') (some ⟨"<2H".toList, none⟩)) [.list [.int 1, .int 2]] st0)
      = .ok [1, 0, 2, 0] := by
  refine ⟨by rfl, ?_, ⟨⟨1, .int false .two⟩, by rfl, by rfl⟩, ⟨[], 'H', by rfl, by simp, by rfl⟩, by rfl, by rfl⟩
  intro v hv
  simp only [List.mem_cons, List.not_mem_nil, or_false] at hv
  rcases hv with rfl | rfl
  · exact ⟨_, itemPacks_of_enc (r := ⟨[1, 0, 2], []⟩) (by rfl) (by rfl)⟩
  · exact ⟨_, itemPacks_of_enc (r := ⟨[3, 0, 4], []⟩) (by rfl) (by rfl)⟩

/-- **C18 is false in full** (`pack_into`).  The `ValueError` comes after the items have been written. -/
theorem C18_pack_into_is_false :
    let st : St := ⟨fun _ => {}, [9, 9, 9, 9], ⟨[], 0⟩⟩
    let r := packInto Samples.env 4 (.array [8] none (.structured [12] 0) 2) 0 [.list [point 1 2]]
      (st.withPart [8] ⟨0, false, []⟩)
    result r = .error .valueError ∧ (after r).buf = [1, 0, 2, 9] := ⟨by rfl, by rfl⟩

/-- **C18 is false in full** (unpacking).  `array[Header[2], char[uint8]]` read with `unpack_from` returns an empty
list for two empty strings. -/
theorem C18_unpack_is_false :
    result (unpackGiven Samples.env 3 (.array [8] none (.dynChar [9] u8) 2) ⟨0, false, []⟩ (.at [0, 0] 0) st0)
      = .ok [.list []] := by rfl

/-! ### C19 -/

theorem count_numValues {ch : Char} {w : Nat} (h : (ch, false, w) ∈ intTypes) (bo : ByteOrder) : (intSer bo ch).numValues = 1 := by
  obtain ⟨wd, h1, _⟩ := intSer_facts h bo
  simp [StructSer.numValues, h1, numVals, Tok.numVals]

/-- **C19** (packing).  The number of items in the count type, then directly the items. -/
theorem C19_pack {ch : Char} {w : Nat} (h : (ch, false, w) ∈ intTypes) (bo : ByteOrder) (env : Env) (n : Nat) (id : SerId)
    (item i : Ser) (p : PObj) (G : St → Prop) (f : Val → Bytes) (items : List Val) (hl : items.length < 256 ^ w)
    (hpre : ∀ st, ∃ st', item.prepack p st = .ok i st' ∧ G st')
    (hitem : ∀ v ∈ items, ItemPacks env n i G v (f v)) (st : St) :
    result (packGiven env (n + 1) (.array id (some (intSer bo ch)) item (-1)) p [.list items] st)
      = .ok (intBytes env.plat bo w items.length ++ (items.map f).flatten) := by
  obtain ⟨st', hr⟩ := array_pack (id := id) (hdr := some (intSer bo ch)) (sl := -1) hpre hitem st
  rw [hr]
  simp [headerPackValues, hdrNum, count_numValues h, bind, Except.bind, packOpt, result,
    intBytes_pack h env.plat bo _ (inRange_count.2 hl)]

/-- **C19** (too many).  A list the count cannot express raises `struct.error`. -/
theorem C19_too_long {ch : Char} {w : Nat} (h : (ch, false, w) ∈ intTypes) (bo : ByteOrder) (env : Env) (n : Nat) (id : SerId)
    (item i : Ser) (p : PObj) (G : St → Prop) (f : Val → Bytes) (items : List Val) (hl : 256 ^ w ≤ items.length)
    (hpre : ∀ st, ∃ st', item.prepack p st = .ok i st' ∧ G st')
    (hitem : ∀ v ∈ items, ItemPacks env n i G v (f v)) (st : St) :
    result (packGiven env (n + 1) (.array id (some (intSer bo ch)) item (-1)) p [.list items] st) = .error .structError := by
  obtain ⟨st', hr⟩ := array_pack (id := id) (hdr := some (intSer bo ch)) (sl := -1) hpre hitem st
  rw [hr]
  simp [headerPackValues, hdrNum, count_numValues h, bind, Except.bind, packOpt, result,
    C13_out_of_range h env.plat (items.length : Int) (fun hi => by have := inRange_count.1 hi; omega)]

/-- **C19** (unpacking).  The same list comes back, through every method, whatever follows; exactly the bytes of the
array are used and `size` is their number. -/
theorem C19_unpack {ch : Char} {w : Nat} (h : (ch, false, w) ∈ intTypes) (bo : ByteOrder) (env : Env) (n : Nat) (upd : Upd) (id : SerId)
    (item i : Ser) (p : PObj) (G : St → Prop) (f : Val → Bytes) (items : List Val) (hl : items.length < 256 ^ w)
    (hpre : ∀ st, ∃ st', item.preunpack p st = .ok i st' ∧ G st')
    (hitem : ∀ v ∈ items, ItemReads env n i G (f v) v) (src : Src) (st : St) (rest : Bytes)
    (hs : Shows src st (intBytes env.plat bo w items.length ++ ((items.map f).flatten ++ rest))) :
    ∃ st', unpack env (n + 1) upd (.array id (some (intSer bo ch)) item (-1)) src (st.withPart id p) = .ok [.list items] st' ∧
      Moved src (w + ((items.map f).flatten).length) st st' ∧
      (Ser.array id (some (intSer bo ch)) item (-1)).readSize st' = .ok (w + ((items.map f).flatten).length) st' := by
  obtain ⟨st', h1, h2, h3⟩ := array_unpack (upd := upd) (id := id) (hdr := some (intSer bo ch)) (sl := -1) (d := -1) (g := fun v => v)
    (hv := [.int items.length]) hpre hitem (by exact intBytes_pack h env.plat bo _ (inRange_count.2 hl))
    (by exact isCount_kept (intSer_isCount h bo) _)
    (by simp [headerUnpackValues, hdrNum, count_numValues h, first, needInt, Val.asIndex, Val.strip, bind, Except.bind]) hs
  have hc : checkDataSize (-1) ((items.map f).flatten).length = .ok () := by simp [checkDataSize]
  rw [hc] at h1
  rw [List.map_id' items] at h1
  rw [intBytes_length] at h2 h3
  refine ⟨st', h1, h2, ?_⟩
  simp only [Ser.readSize, getCellSize, h3 hc]

/-- **C19** (basic types, packing, partial).  The same for arrays of basic types, if the item type needs no alignment
padding behind the count.  With native alignment it is false: `C01_full_is_false`. -/
theorem C19_basic_pack_partial {ch : Char} {w : Nat} (h : (ch, false, w) ∈ intTypes) (env : Env) (n : Nat) (id : SerId)
    (item : StructSer) (h1 : item.oneValue) (hs : SingleItem item.baseFormat)
    (hp : packedTight (intSer item.byteOrder ch) item = true) (v : Val) (items : List Val) (hv : pyIter v = .ok items)
    (hl : items.length < 256 ^ w) (st : St) :
    result (pack env (n + 1) (.dynArr id (intSer item.byteOrder ch) item) [v] st)
      = (packEach env.plat item items).map (intBytes env.plat item.byteOrder w items.length ++ ·) := by
  obtain ⟨t, ht, hn⟩ := h1
  have hbo : (intSer item.byteOrder ch).byteOrder = item.byteOrder := by
    obtain ⟨_, _, _, h3, _⟩ := intSer_facts h item.byteOrder; exact h3
  have := dynArr_each (P := env.plat) (intSer_isCount h item.byteOrder) ht hn hs hbo hp hv
  rw [intBytes_pack h env.plat _ _ (inRange_count.2 hl)] at this
  simp only [pack, bind, M.bind]
  cases hd : dynArrPrep (intSer item.byteOrder ch) item [v] with
  | error e =>
    rw [hd] at this
    simp only [bind, Except.bind] at this
    cases hpe : packEach env.plat item items with
    | error e' => rw [hpe] at this; cases this; rfl
    | ok b => rw [hpe] at this; cases this
  | ok r =>
    rw [hd] at this
    simp only [bind, Except.bind] at this
    simp only [M.lift, setSize_run, this]
    cases packEach env.plat item items <;> rfl

/-- **C19** (basic types, unpacking, partial).  The list comes back with each item as it is stored (so with the
item's own rounding and conversion), through every method. -/
theorem C19_basic_unpack_partial {ch : Char} {w : Nat} (h : (ch, false, w) ∈ intTypes) (env : Env) (n : Nat) (upd : Upd) (id : SerId)
    (item : StructSer) (h1 : item.oneValue) (hs : SingleItem item.baseFormat) (ha : ∀ as, item.actions = some as → as.length = 1)
    (hp : packedTight (intSer item.byteOrder ch) item = true) (items ws : List Val)
    (hl : items.length < 256 ^ w) (hk : KeptEach env.plat item items ws) (b rest : Bytes) (hb : packEach env.plat item items = .ok b)
    (src : Src) (st : St) (hsrc : Shows src st (intBytes env.plat item.byteOrder w items.length ++ b ++ rest)) :
    ∃ st', unpack env (n + 1) upd (.dynArr id (intSer item.byteOrder ch) item) src st = .ok [.list ws] st' ∧
      Moved src (w + b.length) st st' := by
  obtain ⟨t, ht, hn⟩ := h1
  have hbo : (intSer item.byteOrder ch).byteOrder = item.byteOrder := by
    obtain ⟨_, _, _, h3, _⟩ := intSer_facts h item.byteOrder; exact h3
  have he := dynArr_each (P := env.plat) (v := .list items) (intSer_isCount h item.byteOrder) ht hn hs hbo hp rfl
  rw [intBytes_pack h env.plat _ _ (inRange_count.2 hl), hb] at he
  have hd := dynArr_kept (env := env) (intSer_isCount h item.byteOrder) ht hn hs hbo hp ha (v := .list items) rfl hk he hsrc.views
  have hdec : dec env (n + 1) upd (.dynArr id (intSer item.byteOrder ch) item) none (src.sem st)
      = .ok ⟨[.list ws], (intBytes env.plat item.byteOrder w items.length ++ b).length,
          (src.sem st).ahead (intBytes env.plat item.byteOrder w items.length ++ b).length, []⟩ := by
    rw [Sem.dec]
    exact congrArg Out.ofE hd
  obtain ⟨st', g1, g2, _⟩ := unpack_of_dec hdec
  refine ⟨st', g1, ?_⟩
  have := moved_of_adv g2
  simpa using this

/-- `array[Header[uint8], uint16]` in a little-endian class; and the hypotheses of `C19_unpack` for `Point`s. -/
example : ('B', false, 1) ∈ intTypes ∧ (intSer .le 'H').oneValue ∧ SingleItem (intSer .le 'H').baseFormat ∧
    (intSer .le 'H').byteOrder = .le ∧ packedTight (intSer .le 'B') (intSer .le 'H') = true ∧
    result (pack Samples.env 1 (.dynArr [8] (intSer .le 'B') (intSer .le 'H')) [.list [.int 1, .int 2]] st0)
      = .ok [2, 1, 0, 2, 0] ∧
    result (unpack Samples.env 1 noUpd (.dynArr [8] (intSer .le 'B') (intSer .le 'H')) (.at [7, 2, 1, 0, 2, 0, 5] 1) st0)
      = .ok [.list [.int 1, .int 2]] ∧
    result (unpackGiven Samples.env 5 (.array [8] (some u8) (.structured [12] 0) (-1)) ⟨0, false, []⟩ (.buf [2, 1, 0, 2, 3, 0, 4]) st0)
      = .ok [.list [point 1 2, point 3 4]] := by
  refine ⟨by decide, ⟨⟨1, .int false .two⟩, by rfl, by rfl⟩, ⟨[], 'H', by rfl, by simp, by rfl⟩, by rfl, by rfl, by rfl, by rfl, by rfl⟩

/-- **C19 is false in full** (with other fields).  A counted array of a basic type declares that it takes no values
(`num_values` is 0), so a class in which it is one of several fields can never be packed. -/
theorem C19_with_fields_is_false (env : Env) (n : Nat) (cid : SerId) (before behind : List Ser) (id : SerId) (cnt item : StructSer)
    (p : PObj) (vs : List Val) (st st' : St) (b : Bytes) :
    pack env n (.compound cid (before ++ .dynArr id cnt item :: behind)) vs st ≠ .ok b st' ∧
    pack env n (.specialized cid p (before ++ .dynArr id cnt item :: behind)) vs st ≠ .ok b st' := by
  have hloop : ∀ (pre : Ser → M Ser) (_ : pre (.dynArr id cnt item) = pure (.dynArr id cnt item)) (n : Nat) (before : List Ser)
      (vs : List Val) (st st' : St) r, packLoop (pack env n) pre (before ++ .dynArr id cnt item :: behind) vs st ≠ .ok r st' := by
    intro pre hpre n before
    induction before with
    | nil =>
      intro vs st st' r h
      simp only [List.nil_append, packLoop, hpre] at h
      obtain ⟨s', s1, h1, h⟩ := M.bind_ok h
      cases h1
      obtain ⟨x, s2, h2, h⟩ := M.bind_ok h
      cases n with
      | zero => cases h2
      | succ n =>
        simp only [pack, Ser.numValues, List.take_zero, dynArrPrep, first] at h2
        obtain ⟨_, _, h3, _⟩ := M.bind_ok h2
        cases h3
    | cons s ss ih =>
      intro vs st st' r h
      simp only [List.cons_append, packLoop] at h
      obtain ⟨s', s1, h1, h⟩ := M.bind_ok h
      obtain ⟨x, s2, h2, h⟩ := M.bind_ok h
      obtain ⟨z, s3, h3, h⟩ := M.bind_ok h
      obtain ⟨y, s4, h4, h⟩ := M.bind_ok h
      exact ih _ _ _ _ h4
  constructor <;> intro h
  · cases n with
    | zero => cases h
    | succ n =>
      simp only [pack] at h
      obtain ⟨r, s1, h1, _⟩ := M.bind_ok h
      exact hloop pure rfl n before vs st s1 r h1
  · cases n with
    | zero => cases h
    | succ n =>
      simp only [pack] at h
      obtain ⟨r, s1, h1, _⟩ := M.bind_ok h
      exact hloop (fun s => s.prepack p) (by simp only [Ser.prepack]) n before vs st s1 r h1

/-- **C19** (counts that are no numbers).  If the length of an array of basic types or of a string is read as something that is not an
integer, `TypeError` is raised. -/
theorem C19_no_number (env : Env) (n : Nat) (upd : Upd) (id : SerId) (cnt item : StructSer) (src : Src) (st st' : St) (v : Val)
    (hv : structUnpackM env cnt src st = .ok [v] st') (hi : v.asIndex = none) :
    result (unpack env (n + 1) upd (.dynArr id cnt item) src st) = .error .typeError ∧
    result (unpack env (n + 1) upd (.dynChar id cnt) src st) = .error .typeError := by
  constructor
  · simp only [unpack]
    rw [M.bind_eq hv]
    simp [needInt, hi, M.lift, bind, M.bind, result]
  · simp only [unpack, dynCharUnpack]
    rw [M.bind_eq hv]
    simp [first, needInt, hi, M.lift, bind, M.bind, Except.bind, result]

/-- The length is read as a float. -/
example : (∃ st', structUnpackM env ⟨['d'], none⟩ (.buf [0, 0, 0, 0, 0, 0, 0xF0, 0x3F, 5]) st0 = .ok [.float 0x3FF0000000000000] st') ∧
    (Val.float 0x3FF0000000000000).asIndex = none := ⟨⟨_, rfl⟩, rfl⟩

/-! ### C20 -/

/-- **C20** (packing, counted).  The header holds the number of items and the byte size of the packed items. -/
theorem C20_pack (env : Env) (n : Nat) (id : SerId) (hdr : StructSer) (hn : hdr.numValues = 2)
    (item i : Ser) (p : PObj) (G : St → Prop) (f : Val → Bytes) (items : List Val)
    (hpre : ∀ st, ∃ st', item.prepack p st = .ok i st' ∧ G st')
    (hitem : ∀ v ∈ items, ItemPacks env n i G v (f v)) (st : St) :
    result (packGiven env (n + 1) (.array id (some hdr) item (-1)) p [.list items] st)
      = (hdr.pack env.plat [.int items.length, .int ((items.map f).flatten).length]).map (· ++ (items.map f).flatten) := by
  obtain ⟨st', hr⟩ := array_pack (id := id) (hdr := some hdr) (sl := -1) hpre hitem st
  rw [hr]
  simp only [headerPackValues, hdrNum, Option.elim, hn, bind, Except.bind, packOpt]
  simp only [show ¬ (0 : Int) ≤ -1 by decide, ↓reduceIte]
  cases hdr.pack env.plat [.int items.length, .int ((items.map f).flatten).length] <;> rfl

/-- **C20** (packing, fixed length).  The header holds the byte size of the packed items. -/
theorem C20_pack_fixed (env : Env) (n : Nat) (id : SerId) (hdr : StructSer) (hn : hdr.numValues = 1)
    (item i : Ser) (p : PObj) (G : St → Prop) (f : Val → Bytes) (items : List Val)
    (hpre : ∀ st, ∃ st', item.prepack p st = .ok i st' ∧ G st')
    (hitem : ∀ v ∈ items, ItemPacks env n i G v (f v)) (st : St) :
    result (packGiven env (n + 1) (.array id (some hdr) item items.length) p [.list items] st)
      = (hdr.pack env.plat [.int ((items.map f).flatten).length]).map (· ++ (items.map f).flatten) := by
  obtain ⟨st', hr⟩ := array_pack (id := id) (hdr := some hdr) (sl := items.length) hpre hitem st
  rw [hr]
  simp only [headerPackValues, hdrNum, Option.elim, hn, bind, Except.bind, packOpt, Int.natCast_nonneg, ↓reduceIte, ne_eq,
    not_true_eq_false]
  cases hdr.pack env.plat [.int ((items.map f).flatten).length] <;> rfl

/-- **C20** (unpacking).  Whatever size `d ≥ 0` the header stores, the array is read if `d` is the number of bytes the
items used, and `ValueError` is raised otherwise; for counted arrays (`sl = -1`, the header holds the count and `d`) and
for fixed ones (the header holds `d`). -/
theorem C20_unpack (env : Env) (n : Nat) (upd : Upd) (id : SerId) (hdr : StructSer) (d : Nat)
    (item i : Ser) (p : PObj) (G : St → Prop) (f : Val → Bytes) (g : Val → Val) (items : List Val) (sl : Int) (hv : List Val)
    (hhdr : (sl = -1 ∧ hdr.numValues = 2 ∧ hv = [.int items.length, .int d]) ∨
      (sl = items.length ∧ hdr.numValues = 1 ∧ hv = [.int d]))
    (hpre : ∀ st, ∃ st', item.preunpack p st = .ok i st' ∧ G st')
    (hitem : ∀ v ∈ items, ItemReads env n i G (f v) (g v)) (hb : Bytes) (hp : hdr.pack env.plat hv = .ok hb)
    (hk : hdr.kept env.plat hv = .ok hv) (src : Src) (st : St) (rest : Bytes)
    (hs : Shows src st (hb ++ ((items.map f).flatten ++ rest))) :
    result (unpack env (n + 1) upd (.array id (some hdr) item sl) src (st.withPart id p)) =
      if d = ((items.map f).flatten).length then .ok [.list (items.map g)] else .error .valueError := by
  have hu : headerUnpackValues (some hdr) sl hv = .ok ((items.length : Int), (d : Int)) := by
    rcases hhdr with ⟨rfl, h2, rfl⟩ | ⟨rfl, h2, rfl⟩
    · simp [headerUnpackValues, hdrNum, h2, needInt, Val.asIndex, Val.strip, bind, Except.bind]
    · simp [headerUnpackValues, hdrNum, h2, first, needInt, Val.asIndex, Val.strip, bind, Except.bind]
  obtain ⟨st', h1, _, _⟩ := array_unpack (upd := upd) (id := id) (hdr := some hdr) (sl := sl) (d := d) hpre hitem hp hk hu hs
  rw [h1]
  by_cases hd : d = ((items.map f).flatten).length
  · simp [checkDataSize, hd, result]
  · have : ¬ (d : Int) = (((items.map f).flatten).length : Int) := by omega
    simp only [checkDataSize, Int.natCast_nonneg, ne_eq, this, not_false_eq_true, and_self, ↓reduceIte, hd, result]

/-- `array[Header[uint8, uint16], Point]` in a little-endian class: the size 6 is written, read, and any other is rejected. -/
example :
    let hdr : StructSer := ⟨"<BH".toList, none⟩
    hdr.numValues = 2 ∧ hdr.kept plat [.int 2, .int 6] = .ok [.int 2, .int 6] ∧
    result (packGiven Samples.env 4 (.array [8] (some hdr) (.structured [12] 0) (-1)) ⟨0, false, []⟩
      [.list [point 1 2, point 3 4]] st0) = .ok [2, 6, 0, 1, 0, 2, 3, 0, 4] ∧
    result (unpackGiven Samples.env 4 (.array [8] (some hdr) (.structured [12] 0) (-1)) ⟨0, false, []⟩
      (.buf [2, 6, 0, 1, 0, 2, 3, 0, 4]) st0) = .ok [.list [point 1 2, point 3 4]] ∧
    result (unpackGiven Samples.env 4 (.array [8] (some hdr) (.structured [12] 0) (-1)) ⟨0, false, []⟩
      (.buf [2, 7, 0, 1, 0, 2, 3, 0, 4]) st0) = .error .valueError :=
  ⟨by rfl, by rfl, by rfl, by rfl, by rfl⟩

end Verif
