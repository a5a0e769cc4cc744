import Verif.Props.Choices
import Verif.Proofs.PeekAhead
/-
C22 for read-ahead types of every kind: strings, arrays of basic types, classes.
-/
namespace Verif
open Spec Samples Sem

/-- **C22** (read-ahead types of one serializer: basic types, strings of every kind, text, arrays of basic types).
Unpacking the union is unpacking the chosen type with the buffer and the stream as they were before.  For
`char[char.NET]` read from a stream the bytes it claims must be there: see `C22_full_is_false`. -/
theorem C22_leaf {id : SerId} {ra : Ser} {dec : Decider} {keys : List Val} {opts : List Ser} {d o : Ser} {p : PObj}
    {r : Val} {rs : List Val} (env : Env) (n : Nat) (st s1 : St) (src : Src) (k : Nat)
    (hl : ra.leaf = true) (hn : ra.noPeek = true)
    (h1 : unpack env n noUpd ra src (st.withPart id p) = .ok (r :: rs) s1)
    (hz : ra.readSize s1 = .ok k s1) (hk : ra.isNet = true → src = .io → st.io.pos + k ≤ st.io.data.length)
    (hr : r.hashable = true) (hc : Chosen keys opts d r o)
    (hs : ∀ st o' s1, o.preunpack p st = .ok o' s1 → HasSize o' ∧ o'.isCompound = false) :
    ∃ s2, s2.buf = st.buf ∧ s2.io = st.io ∧ s2.cells = s1.cells ∧
      SameOutcome (unpackGiven env (n + 1) (.lookahead id ra dec keys opts d) p src st) (unpackGiven env n o p src s2) := by
  obtain ⟨x, hd, hp, hkeep⟩ := peek_run (dec_leaf n noUpd ra none _ hl) h1
  have hsz : x.size = k := by
    have := hp.size (leaf_sized ra hl)
    rw [hz] at this
    cases this
    rfl
  subst hsz
  refine C22_unpack env n st s1 src x.size h1 (hp.adv.moved ?_) hz ?_ hr hc hs
  · rintro rfl
    exact dec_leaf_pos n noUpd ra none _ _ x hl hn hd (fun hi => hk hi rfl)
  · rw [hkeep id (fun h => h)]
    simp [St.withPart]

/-- Non-vacuous: a terminated string, text and a `char[char.NET]` as read-ahead types, from a stream that is then read from
the same place. -/
example :
    let io : St := { st0 with io := ⟨[9, 97, 0, 5], 1⟩ }
    let u : Ser := .lookahead [8] (.terminated [9] 0) kindOf [.bytes [97]] [.struct u8] .null
    (Ser.terminated [9] 0).leaf = true ∧ (Ser.terminated [9] 0).noPeek = true ∧
    result (unpack Samples.env 4 noUpd (.terminated [9] 0) .io (io.withPart [8] ⟨0, true, []⟩)) = .ok [.bytes [97]] ∧
    result (unpackGiven Samples.env 5 u ⟨0, true, []⟩ .io io) = .ok [.int 97] ∧
    result (unpackGiven Samples.env 5 u ⟨0, true, []⟩ (.at [9, 97, 0, 5] 1) io) = .ok [.int 97] :=
  ⟨by rfl, by rfl, by rfl, by rfl, by rfl⟩

example :
    let io : St := { st0 with io := ⟨[1, 97], 0⟩ }
    let u : Ser := .lookahead [8] (.net [9]) kindOf [.bytes [97]] [.struct u8] .null
    result (unpack Samples.env 4 noUpd (.net [9]) .io (io.withPart [8] ⟨0, true, []⟩)) = .ok [.bytes [97]] ∧
    result ((Ser.net [9]).readSize (after (unpack Samples.env 4 noUpd (.net [9]) .io (io.withPart [8] ⟨0, true, []⟩)))) = .ok 2 ∧
    result (unpackGiven Samples.env 5 u ⟨0, true, []⟩ .io io) = .ok [.int 1] :=
  ⟨by rfl, by rfl, by rfl⟩

/-- **C22** (keys that cannot be looked up).  When the read-ahead type gives a list or an object, `TypeError` is raised,
default or not. -/
theorem C22_unhashable {id : SerId} {ra : Ser} {dec : Decider} {keys : List Val} {opts : List Ser} {d : Ser} {p : PObj}
    {r : Val} {rs : List Val} (env : Env) (n : Nat) (st s1 : St) (src : Src) (hz : src = .io → HasSize ra)
    (h1 : unpack env n noUpd ra src (st.withPart id p) = .ok (r :: rs) s1) (hr : Unhashable r) :
    ∃ s2, unpackGiven env (n + 1) (.lookahead id ra dec keys opts d) p src st = .err .typeError s2 := by
  have hrw : ∃ s2, src.rewind ra s1 = .ok () s2 := by
    cases src with
    | buf b => exact ⟨s1, rfl⟩
    | «at» b off => exact ⟨s1, rfl⟩
    | io =>
      obtain ⟨k, hk⟩ := readSize_hasSize (hz rfl) s1
      refine ⟨{ s1 with io := s1.io.seekCur (-(k : Int)) }, ?_⟩
      show (ra.readSize >>= _) s1 = _
      rw [M.bind_eq hk]
      rfl
  obtain ⟨s2, h2⟩ := hrw
  refine ⟨s2, ?_⟩
  show (unpack env n noUpd ra src >>= _) (st.withPart id p) = _
  rw [M.bind_eq h1]
  show (src.rewind ra >>= _) s1 = _
  rw [M.bind_eq h2]
  show (getSerializer false id keys opts d r >>= _) _ = _
  unfold getSerializer unionPick
  rw [unhashable_not hr]
  rfl

/-- **C22 is false for classes and arrays.**  Whatever the map and the data, a union whose read-ahead type is a class or an
array is never unpacked: what is read ahead is no key of a dictionary. -/
theorem C22_container_is_false {id : SerId} {ra : Ser} {dec : Decider} {keys : List Val} {opts : List Ser} {d : Ser} {p : PObj}
    (env : Env) (n : Nat) (st s1 : St) (src : Src) (vs : List Val) (hc : ra.readsContainer = true) :
    unpackGiven env n (.lookahead id ra dec keys opts d) p src st ≠ .ok vs s1 := by
  intro h
  cases n with
  | zero => cases h
  | succ n =>
    replace h : (unpack env n noUpd ra src >>= _) (st.withPart id p) = _ := h
    obtain ⟨hv, s2, h1, h⟩ := M.bind_ok h
    obtain ⟨v, rfl, hr⟩ := container_unhashable hc h1
    obtain ⟨r, s3, h2, h⟩ := M.bind_ok h
    cases h2
    obtain ⟨_, _, _, h⟩ := M.bind_ok h
    obtain ⟨_, _, h3, h⟩ := M.bind_ok h
    unfold getSerializer unionPick at h3
    rw [hr] at h3
    cases h3

/-- Non-vacuous: `Point` as read-ahead type, every key mapped to `uint8` by the default, and an array. -/
example :
    let u : Ser → Ser := fun ra => .lookahead [8] ra kindOf [] [] (.struct u8)
    (Ser.structured [9] 0).readsContainer = true ∧ (Ser.staticArr 1 u8 (some u8)).readsContainer = true ∧
    result (unpack Samples.env 6 noUpd (.structured [9] 0) (.buf [1, 0, 2, 0, 5]) st0) = .ok [point 1 2] ∧
    result (unpackGiven Samples.env 7 (u (.structured [9] 0)) ⟨0, true, []⟩ (.buf [1, 2, 3, 4, 5]) st0) = .error .typeError ∧
    result (unpackGiven Samples.env 7 (u (.staticArr 1 u8 (some u8))) ⟨0, true, []⟩ (.buf [1, 2, 3, 4, 5]) st0) =
      .error .typeError ∧
    result (unpackGiven Samples.env 7 (u (.struct u8)) ⟨0, true, []⟩ (.buf [1, 2, 3, 4, 5]) st0) = .ok [.int 1] :=
  ⟨by rfl, by rfl, by rfl, by rfl, by rfl, by rfl⟩

end Verif
