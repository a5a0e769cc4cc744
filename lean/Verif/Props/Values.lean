import Verif.Spec.Values
import Verif.Props.Arrays
/-
C11 (`num_values` is the number of values).
-/
namespace Verif
open Spec Samples

variable {env : Env}

theorem countedOpts_mem {b : Bool} : ∀ {opts : List Ser}, CountedOpts b opts → ∀ s ∈ opts, Counted b s ∧ s.numValues = 1
  | [], _, s, hs => by simp at hs
  | t :: ts, h, s, hs => by
    simp only [CountedOpts] at h
    rcases List.mem_cons.1 hs with rfl | hs
    · exact h.1
    · exact countedOpts_mem h.2 s hs

/-- `prepack`/`preunpack` do not change the number of values. -/
theorem counted_prepack {b : Bool} {s s' : Ser} {p : PObj} {st st' : St} (hc : Counted b s) (h : s.prepack p st = .ok s' st') :
    Counted b s' ∧ s'.numValues = s.numValues := by
  cases s with
  | cond ser c ds =>
    simp only [Counted] at hc
    simp only [Ser.prepack, M.lift] at h
    split at h
    · rename_i a h1
      cases h
      obtain ⟨r, _, h2⟩ := Except.bind_ok' h1
      rcases condPick_cases h2 with rfl | rfl
      · exact ⟨hc.1, by simp [Ser.numValues]⟩
      · exact ⟨by simp [Counted], by simp [Ser.numValues, hc.2]⟩
    · cases h
  | selfT id => cases h; exact ⟨by simp [Counted], by simp [Ser.numValues]⟩
  | compound id ss =>
    simp only [Ser.prepack] at h
    cases h
    simp only [Counted] at hc
    split
    · exact ⟨hc, by simp [Ser.numValues]⟩
    · exact ⟨hc, rfl⟩
  | _ => cases h; exact ⟨hc, rfl⟩

theorem counted_preunpack {b : Bool} {s s' : Ser} {p : PObj} {st st' : St} (hc : Counted b s) (h : s.preunpack p st = .ok s' st') :
    Counted b s' ∧ s'.numValues = s.numValues := by
  cases s with
  | selfT id =>
    simp only [Ser.preunpack, M.lift] at h
    split at h
    · rename_i a h1
      cases h
      obtain ⟨r, _, h2⟩ := Except.bind_ok' h1
      cases h2
      exact ⟨by simp [Counted], by simp [Ser.numValues]⟩
    · cases h
  | _ => exact counted_prepack (p := p) hc h

theorem unionPick_mem' {keys : List Val} {opts : List Ser} {d s : Ser} {r : Val} (h : unionPick keys opts d r = .ok s) :
    s ∈ opts ∨ (s = d ∧ d ≠ .null) := by
  unfold unionPick at h
  split at h
  · cases h
  · split at h
    · rename_i s' hl
      cases h
      unfold lookupOpt at hl
      simp only [Option.map_eq_some_iff] at hl
      obtain ⟨⟨k, o⟩, h1, rfl⟩ := hl
      have := List.mem_of_find?_eq_some h1
      exact .inl (List.of_mem_zip this).2
    · split at h
      · cases h
      · rename_i hd
        cases h
        exact .inr ⟨rfl, hd⟩

theorem getSerializer_counted {b : Bool} {packing : Bool} {id : SerId} {keys : List Val} {opts : List Ser} {d s : Ser} {r : Val}
    {st st' : St} (hc : CountedOpts b opts ∧ (d = .null ∨ (Counted b d ∧ d.numValues = 1)))
    (h : getSerializer packing id keys opts d r st = .ok s st') : Counted b s ∧ s.numValues = 1 := by
  unfold getSerializer at h
  obtain ⟨o, s1, h1, h⟩ := M.bind_ok h
  obtain ⟨p, s2, _, h⟩ := M.bind_ok h
  have ho : Counted b o ∧ o.numValues = 1 := by
    simp only [M.lift] at h1
    split at h1
    · rename_i a hp
      cases h1
      rcases unionPick_mem' hp with hm | ⟨rfl, hd⟩
      · exact countedOpts_mem hc.1 o hm
      · rcases hc.2 with h0 | h0
        · exact absurd h0 hd
        · exact h0
    · cases h1
  split at h
  · obtain ⟨k1, k2⟩ := counted_prepack ho.1 h; exact ⟨k1, by rw [k2, ho.2]⟩
  · obtain ⟨k1, k2⟩ := counted_preunpack ho.1 h; exact ⟨k1, by rw [k2, ho.2]⟩

theorem srcIsBuf_next (src : Src) (k : Nat) : (src.next k).isBuf = src.isBuf := by cases src <;> rfl

theorem unicodeDecode_length {de : Bytes → Except Err PyStr} {vs ws : List Val} (h : unicodeDecode de vs = .ok ws) : ws.length = 1 := by
  unfold unicodeDecode at h
  obtain ⟨v, _, h⟩ := Except.bind_ok' h
  split at h
  · obtain ⟨s, _, h⟩ := Except.bind_ok' h
    cases h; rfl
  · cases h

theorem unionUnpack_length {n : Nat} {id : SerId} {s : Ser} {src : Src} {st st' : St} {vs : List Val}
    (ih : ∀ src st vs st', unpack env n noUpd s src st = .ok vs st' → src.isBuf = b → vs.length = s.numValues) (hb : src.isBuf = b)
    (h : unionUnpack (unpack env n noUpd) id s src st = .ok vs st') : vs.length = s.numValues := by
  unfold unionUnpack at h
  split at h
  · obtain ⟨z, s1, _, h⟩ := M.bind_ok h
    obtain ⟨_, s2, _, h⟩ := M.bind_ok h
    exact ih _ _ _ _ h hb
  · obtain ⟨z, s1, h1, h⟩ := M.bind_ok h
    obtain ⟨_, s2, _, h⟩ := M.bind_ok h
    obtain ⟨_, s2, _, h⟩ := M.bind_ok h
    cases h
    exact ih _ _ _ _ h1 hb

theorem terminatedUnpack_length {id : SerId} {t : Byte} {src : Src} {st st' : St} {vs : List Val}
    (h : terminatedUnpack id t src st = .ok vs st') : vs.length = 1 := by
  cases src with
  | buf b =>
    unfold terminatedUnpack at h
    cases hf : findTerm t b with
    | none => simp only [hf] at h; cases h
    | some k => simp only [hf] at h; cases h; rfl
  | «at» b off =>
    unfold terminatedUnpack at h
    cases hf : findTerm t (b.drop off) with
    | none => simp only [hf] at h; cases h
    | some k => simp only [hf] at h; cases h; rfl
  | io =>
    unfold terminatedUnpack at h
    obtain ⟨s0, s1, h0, h⟩ := M.bind_ok h
    cases hf : termReadLoop t ((s0.io.data.drop s0.io.pos).length + 1) (s0.io.data.drop s0.io.pos) [] 0 with
    | none => simp only [hf] at h; cases h
    | some k => simp only [hf] at h; cases h; rfl

/-- **C11** (unpacking, partial).  A serializer whose parts are `Counted` yields `num_values` values, for every input,
source and state.  Missing, and false: counted arrays of basic types (`C11_full_is_false`) and empty length-prefixed
strings read by `unpack_from` or `unpack_read` (`C14_empty_unpack_is_false`). -/
theorem C11_unpack_partial (env : Env) (n : Nat) : ∀ (upd : Upd) (s : Ser) (src : Src) (st st' : St) (vs : List Val),
    Counted src.isBuf s → unpack env n upd s src st = .ok vs st' → vs.length = s.numValues := by
  induction n with
  | zero => intro upd s src st st' vs _ h; cases h
  | succ n ih =>
    intro upd s src st st' vs hc h
    have loop : ∀ (ss : List Ser) (size : Nat) (st st' : St) r, CountedList src.isBuf ss →
        unpackLoop (unpack env n noUpd) src size ss st = .ok r st' → r.1.length = Ser.numValuesList ss := by
      intro ss
      induction ss with
      | nil => intro size st st' r _ h; cases h; rfl
      | cons t ts iht =>
        intro size st st' r hl h
        simp only [CountedList] at hl
        rw [unpackLoop] at h
        obtain ⟨ws, s1, h1, h⟩ := M.bind_ok h
        obtain ⟨z, s2, _, h⟩ := M.bind_ok h
        obtain ⟨r', s3, h3, h⟩ := M.bind_ok h
        cases h
        simp [Ser.numValuesList, ih _ _ _ _ _ _ (by rw [srcIsBuf_next]; exact hl.1) h1, iht _ _ _ _ hl.2 h3]
    have loopS : ∀ (ss : List Ser) (p : PObj) (done size : Nat) (st st' : St) r, CountedList src.isBuf ss →
        unpackLoopSpec (unpack env n noUpd) upd src p done size ss st = .ok r st' → r.1.length = Ser.numValuesList ss := by
      intro ss
      induction ss with
      | nil => intro p done size st st' r _ h; cases h; rfl
      | cons t ts iht =>
        intro p done size st st' r hl h
        simp only [CountedList] at hl
        rw [unpackLoopSpec] at h
        obtain ⟨t', s0, h0, h⟩ := M.bind_ok h
        obtain ⟨k1, k2⟩ := counted_preunpack hl.1 h0
        obtain ⟨ws, s1, h1, h⟩ := M.bind_ok h
        obtain ⟨p', s2, _, h⟩ := M.bind_ok h
        obtain ⟨z, s2, _, h⟩ := M.bind_ok h
        obtain ⟨r', s3, h3, h⟩ := M.bind_ok h
        cases h
        simp [Ser.numValuesList, ih _ _ _ _ _ _ (by rw [srcIsBuf_next]; exact k1) h1, iht _ _ _ _ _ _ hl.2 h3, k2]
    cases s with
    | null => cases h; rfl
    | struct s => exact structUnpackM_length hc h
    | dynChar id s =>
      simp only [Counted] at hc
      cases src with
      | buf b =>
        simp only [unpack, dynCharUnpack] at h
        obtain ⟨_, _, _, h⟩ := M.bind_ok h
        obtain ⟨_, _, _, h⟩ := M.bind_ok h
        obtain ⟨_, _, _, h⟩ := M.bind_ok h
        cases h; rfl
      | _ => cases hc
    | consuming id => cases src <;> (cases h; rfl)
    | terminated id t =>
      exact terminatedUnpack_length h
    | net id =>
      simp only [unpack, netUnpack] at h
      obtain ⟨_, _, _, h⟩ := M.bind_ok h
      obtain ⟨_, _, _, h⟩ := M.bind_ok h
      obtain ⟨c, _, _, h⟩ := M.bind_ok h
      have fin : ∀ {count size : Nat} {st}, (do
          setSize id (size + count)
          match src with
          | .buf b => pure [.bytes ((b.drop size).take count)]
          | .at b off => M.lift (structUnpackFrom env.plat .default [⟨count, .str⟩] b (off + size))
          | .io => do
            let d ← ioRead count
            pure [.bytes d] : M (List Val)) st = .ok vs st' → vs.length = 1 := by
        intro count size st h
        obtain ⟨_, _, _, h⟩ := M.bind_ok h
        cases src with
        | buf b => cases h; rfl
        | «at» b off =>
          simp only [M.lift, structUnpackFrom] at h
          split at h
          · rename_i a h1
            cases h
            split at h1
            · cases h1; rw [unpackToks_length]; rfl
            · cases h1
          · cases h
        | io =>
          obtain ⟨_, _, _, h⟩ := M.bind_ok h
          cases h; rfl
      by_cases hc : 128 ≤ c
      · rw [if_pos hc] at h
        obtain ⟨_, _, _, h⟩ := M.bind_ok h
        obtain ⟨_, _, _, h⟩ := M.bind_ok h
        obtain ⟨_, _, _, h⟩ := M.bind_ok h
        obtain ⟨_, _, _, h⟩ := M.bind_ok h
        exact fin h
      · rw [if_neg hc] at h
        exact fin h
    | unicode inner en de =>
      simp only [unpack] at h
      obtain ⟨ws, s1, _, h⟩ := M.bind_ok h
      simp only [M.lift] at h
      split at h
      · rename_i a h1
        cases h
        exact unicodeDecode_length h1
      · cases h
    | array id hdr item sl =>
      simp only [unpack] at h
      obtain ⟨_, _, _, h⟩ := M.bind_ok h
      obtain ⟨_, _, _, h⟩ := M.bind_ok h
      obtain ⟨_, _, _, h⟩ := M.bind_ok h
      obtain ⟨_, _, _, h⟩ := M.bind_ok h
      obtain ⟨_, _, _, h⟩ := M.bind_ok h
      obtain ⟨_, _, _, h⟩ := M.bind_ok h
      obtain ⟨_, _, _, h⟩ := M.bind_ok h
      cases h; rfl
    | staticArr count item ser =>
      simp only [unpack] at h
      obtain ⟨_, _, _, h⟩ := M.bind_ok h
      cases h; rfl
    | dynArr id cnt item => exact absurd hc (by simp [Counted])
    | tuple id inner =>
      simp only [unpack] at h
      obtain ⟨_, _, _, h⟩ := M.bind_ok h
      obtain ⟨i, _, _, h⟩ := M.bind_ok h
      split at h
      · cases h; rfl
      · obtain ⟨_, _, _, h⟩ := M.bind_ok h
        cases h; rfl
    | lookback id de ks os d =>
      simp only [Counted] at hc
      simp only [unpack] at h
      obtain ⟨_, _, _, h⟩ := M.bind_ok h
      obtain ⟨_, _, _, h⟩ := M.bind_ok h
      obtain ⟨s', _, hg, h⟩ := M.bind_ok h
      obtain ⟨k1, k2⟩ := getSerializer_counted hc hg
      have := unionUnpack_length (b := src.isBuf) (fun src' st vs st' hu hb => ih _ _ _ _ _ _ (by rw [hb]; exact k1) hu) rfl h
      rw [this, k2]; rfl
    | lookahead id ra de ks os d =>
      simp only [Counted] at hc
      simp only [unpack] at h
      obtain ⟨_, _, _, h⟩ := M.bind_ok h
      obtain ⟨_, _, _, h⟩ := M.bind_ok h
      obtain ⟨_, _, _, h⟩ := M.bind_ok h
      obtain ⟨s', _, hg, h⟩ := M.bind_ok h
      obtain ⟨k1, k2⟩ := getSerializer_counted hc hg
      have := unionUnpack_length (b := src.isBuf) (fun src' st vs st' hu hb => ih _ _ _ _ _ _ (by rw [hb]; exact k1) hu) rfl h
      rw [this, k2]; rfl
    | cond s c ds => cases h
    | skip ws => cases h; rfl
    | structured id c =>
      simp only [unpack] at h
      obtain ⟨⟨v, ser⟩, _, _, h⟩ := M.bind_ok h
      obtain ⟨_, _, _, h⟩ := M.bind_ok h
      obtain ⟨_, _, _, h⟩ := M.bind_ok h
      cases h; rfl
    | selfT id => cases h
    | compound id ss =>
      simp only [Counted] at hc
      simp only [unpack] at h
      obtain ⟨r, _, h1, h⟩ := M.bind_ok h
      obtain ⟨_, _, _, h⟩ := M.bind_ok h
      cases h
      exact loop ss 0 _ _ _ hc h1
    | specialized id p ss =>
      simp only [Counted] at hc
      simp only [unpack] at h
      obtain ⟨r, _, h1, h⟩ := M.bind_ok h
      obtain ⟨_, _, _, h⟩ := M.bind_ok h
      cases h
      exact loopS ss p 0 0 _ _ _ hc h1

/-- **C11** (as used in a class, partial).  The same after `preunpack`. -/
theorem C11_given_partial (env : Env) (n : Nat) (s : Ser) (p : PObj) (src : Src) (st st' : St) (vs : List Val)
    (hc : Counted src.isBuf s) (h : unpackGiven env n s p src st = .ok vs st') : vs.length = s.numValues := by
  unfold unpackGiven at h
  obtain ⟨s', s1, h1, h⟩ := M.bind_ok h
  obtain ⟨k1, k2⟩ := counted_preunpack hc h1
  rw [← k2]
  exact C11_unpack_partial env n _ _ _ _ _ _ k1 h

/-- The serializers of `Msg` (read by `unpack`) and `Alt` are covered; `Msg` yields three values. -/
example :
    Counted true (.compound [1] [.struct u8, .dynChar [10] u8, .array [11] (some u8) (.structured [12] 0) (-1)]) ∧
    Counted true (.lookback [60] kindOf [.int 0, .int 1] [.struct u8, .dynChar [61] u8] .null) ∧
    result (unpackGiven Samples.env 5 (.compound [1] [.struct u8, .dynChar [10] u8, .array [11] (some u8) (.structured [12] 0) (-1)])
      ⟨1, true, []⟩ (.buf [9, 2, 97, 98, 1, 1, 0, 2]) st0) = .ok [.int 9, .bytes [97, 98], .list [point 1 2]] ∧
    Ser.numValues (.compound [1] [.struct u8, .dynChar [10] u8, .array [11] (some u8) (.structured [12] 0) (-1)]) = 3 := by
  refine ⟨?_, ?_, by rfl, by rfl⟩
  · simp [Counted, CountedList, u8]
  · simp [Counted, CountedOpts, u8]
    exact ⟨by decide, by rfl⟩

/-- C11 as stated, for unpacking. -/
def C11_Full : Prop := ∀ (env : Env) (n : Nat) (s : Ser) (p : PObj) (src : Src) (st st' : St) (vs : List Val),
  unpackGiven env n s p src st = .ok vs st' → vs.length = s.numValues

/-- **C11 is false in full.**  `array[Header[uint8], uint8]` declares no value and yields one. -/
theorem C11_full_is_false : ¬ C11_Full := by
  intro h
  have := h Samples.env 4 (.dynArr [8] u8 u8) ⟨0, true, []⟩ (.buf [1, 5]) st0 _ [.list [.int 5]] (by rfl)
  exact absurd this (by decide)

/-- **C11 is false in full** (adding).  `'h' + 'hI'` has two values, not three. -/
theorem C11_add_is_false :
    ∃ a b c : StructSer, a.add b = .ok c ∧ c.numValues ≠ a.numValues + b.numValues :=
  ⟨⟨['h'], none⟩, ⟨['h', 'I'], none⟩, ⟨['2', 'h'], none⟩, by rfl, by decide⟩

end Verif
