import Verif.Proofs.ShortReads
import Verif.Samples

/-!
C65: streams that return fewer bytes than asked for.
-/
namespace Verif
open Samples Short

/-- **C65**.  Whatever the stream returns at each call, reading an object has the outcome it has with complete reads, or raises
`struct.error`.  Terminated strings need at least 256 bytes from a call that does not return all it was asked for, .NET strings 32767. -/
theorem C65_partial {env : Env} {k : Nat} (he : env.readable k false) (n : Nat) (cls : ClassId) {cuts : List Nat} (hc : ∀ c ∈ cuts, k ≤ c) (st : St) :
    SameOrShort (Short.createUnpack env Option.none n cls (cuts.map some) st) (createUnpack env n cls .io st) := by
  rcases fine_create he n cls _ st (cut_map hc) with ⟨h, -⟩ | ⟨-, e, st', h, he⟩
  · exact .inl h
  · exact .inr ⟨st', stop_false he ▸ h⟩

/-- **C65** (no wrong objects).  So an object that is read is the one in the stream, and the stream is left behind it. -/
theorem C65_object_partial {env : Env} {k : Nat} (he : env.readable k false) {n : Nat} {cls : ClassId} {cuts : List Nat} {cuts' : List (Option Nat)}
    (hc : ∀ c ∈ cuts, k ≤ c) {st st' : St} {v : Val} (h : Short.createUnpack env Option.none n cls (cuts.map some) st = (.ok v st', cuts')) :
    createUnpack env n cls .io st = .ok v st' := by
  rcases C65_partial he n cls hc st with h' | ⟨s, h'⟩
  · rw [← h', h]
  · rw [h] at h'; cases h'

/-- **C65** (reading into an object). -/
theorem C65_into_object_partial {env : Env} {k : Nat} (he : env.readable k false) {v : Val}
    (ho : ∀ cls bo attrs ci ser, v = .obj cls bo attrs → objSer env cls bo = .ok (ci, ser) → ser.readable k false = true) (n : Nat) {cuts : List Nat}
    (hc : ∀ c ∈ cuts, k ≤ c) (st : St) : SameOrShort (Short.objUnpack env Option.none n v (cuts.map some) st) (Obj.unpack env n v .io st) := by
  rcases fine_objUnpack he n ho _ st (cut_map hc) with ⟨h, -⟩ | ⟨-, e, st', h, he⟩
  · exact .inl h
  · exact .inr ⟨st', stop_false he ▸ h⟩

/-- **C65** (streams that do not block).  If calls of `read` may also return `None`, the outcome is the one with complete reads, or `struct.error`,
`TypeError` or `ValueError` is raised, for classes without .NET strings and read-to-end strings. -/
theorem C65_none_partial {env : Env} {k : Nat} (he : env.readable k true) (n : Nat) (cls : ClassId) {cuts : List (Option Nat)}
    (hc : ∀ c, some c ∈ cuts → k ≤ c) (st : St) : SameOrRaises (Short.createUnpack env Option.none n cls cuts st) (createUnpack env n cls .io st) := by
  rcases fine_create he n cls _ st (cut_none hc) with ⟨h, -⟩ | ⟨-, e, st', h, he⟩
  · exact .inl h
  · exact .inr ⟨e, st', h, stop_any he⟩

/-- **C65** (streams that do not block, reading into an object). -/
theorem C65_none_into_object_partial {env : Env} {k : Nat} (he : env.readable k true) {v : Val}
    (ho : ∀ cls bo attrs ci ser, v = .obj cls bo attrs → objSer env cls bo = .ok (ci, ser) → ser.readable k true = true) (n : Nat)
    {cuts : List (Option Nat)} (hc : ∀ c, some c ∈ cuts → k ≤ c) (st : St) :
    SameOrRaises (Short.objUnpack env Option.none n v cuts st) (Obj.unpack env n v .io st) := by
  rcases fine_objUnpack he n ho _ st (cut_none hc) with ⟨h, -⟩ | ⟨-, e, st', h, he⟩
  · exact .inl h
  · exact .inr ⟨e, st', h, stop_any he⟩

/-- **C65** (any class).  No condition on the classes if calls return 32767 bytes or all they were asked for. -/
theorem C65_large (env : Env) (n : Nat) (cls : ClassId) {cuts : List Nat} (hc : ∀ c ∈ cuts, 32767 ≤ c) (st : St) :
    SameOrShort (Short.createUnpack env Option.none n cls (cuts.map some) st) (createUnpack env n cls .io st) :=
  C65_partial (readable_large env (Nat.le_refl _)) n cls hc st

/-- **C65** (complete reads).  With a stream that returns all it can, every class is read as from any other stream. -/
theorem C65_complete (env : Env) (n : Nat) (cls : ClassId) (st : St) :
    Short.createUnpack env Option.none n cls [] st = (createUnpack env n cls .io st, []) ∧
    ∀ bo attrs, Short.objUnpack env Option.none n (.obj cls bo attrs) [] st = (Obj.unpack env n (.obj cls bo attrs) .io st, []) := by
  have he := readable_large (k := 32767) env (Nat.le_refl _)
  constructor
  · rcases fine_create he n cls [] st nofun with ⟨h1, h2⟩ | ⟨h, -⟩
    · exact Prod.ext h1 (List.suffix_nil.1 h2)
    · exact absurd rfl h
  · intro bo attrs
    have h : Fine 32767 false (Short.objUnpack env Option.none n (.obj cls bo attrs)) (Obj.unpack env n (.obj cls bo attrs) .io) :=
      fine_objUnpack he n fun _ _ _ _ _ _ _ => ser_readable_large _ (Nat.le_refl _)
    rcases h [] st nofun with ⟨h1, h2⟩ | ⟨h, -⟩
    · exact Prod.ext h1 (List.suffix_nil.1 h2)
    · exact absurd rfl h

/-- **C65** (what is no object). -/
theorem C65_no_object (env : Env) (n : Nat) {v : Val} (hv : ∀ c b as, v ≠ .obj c b as) (cuts : List (Option Nat)) (st : St) :
    Short.objUnpack env Option.none n v cuts st = (.err .attributeError st, cuts) := by
  cases v with
  | obj c b as => exact absurd rfl (hv c b as)
  | _ => rfl

namespace Samples

/-- `class Part(Structured): a: char[uint8]; b: uint16` (little endian), with `char[b'\0']` and `char[NET]` for `a` and
`uint8` for `b`, and `class Part(Structured): a: uint8; b: char[math.inf]` -/
def partClasses : ClassId → Option ClassInfo
  | 1 => some { attrs := ["a", "b"], byteOrder := .le, serializer := .compound [1] [.dynChar [2] ⟨['<', 'B'], Option.none⟩, .struct ⟨['<', 'H'], Option.none⟩] }
  | 2 => some { attrs := ["a", "b"], byteOrder := .le, serializer := .compound [3] [.terminated [4] 0, .struct ⟨['<', 'B'], Option.none⟩] }
  | 3 => some { attrs := ["a", "b"], byteOrder := .le, serializer := .compound [5] [.net [6], .struct ⟨['<', 'B'], Option.none⟩] }
  | 4 => some { attrs := ["a", "b"], byteOrder := .le, serializer := .compound [7] [.struct ⟨['<', 'B'], Option.none⟩, .consuming [8]] }
  | _ => Option.none

def parts : Env := ⟨plat, partClasses⟩

/-- A stream with this data. -/
def streamOf (d : Bytes) : St := { st0 with io := ⟨d, 0⟩ }

end Samples

-- one byte, one byte, then two at a time: the string, the number
example : result (Short.createUnpack parts Option.none 3 1 [some 1, some 2, some 2] (streamOf [2, 97, 98, 1, 2])).1 =
    .ok (.obj 1 Option.none [("a", .bytes [97, 98]), ("b", .int 513)]) := by rfl
example : result (Short.createUnpack parts Option.none 3 1 [some 1, some 1] (streamOf [2, 97, 98, 1, 2])).1 = .error .structError ∧
    result (Short.createUnpack parts Option.none 3 1 [some 1, some 2, some 1] (streamOf [2, 97, 98, 1, 2])).1 = .error .structError := ⟨by rfl, by rfl⟩
-- no data yet
example : result (Short.createUnpack parts Option.none 3 1 [some 1, Option.none] (streamOf [2, 97, 98, 1, 2])).1 = .error .typeError ∧
    result (Short.createUnpack parts Option.none 3 2 [Option.none] (streamOf [97, 98, 0, 5])).1 = .error .valueError ∧
    result (Short.createUnpack parts Option.none 3 4 [some 1, Option.none] (streamOf [97, 98, 0, 5])).1 = .error .typeError ∧
    result (Short.createUnpack parts Option.none 3 4 [some 1, some 1, some 0] (streamOf [7, 98, 99, 100])).1 =
      .ok (.obj 4 Option.none [("a", .int 7), ("b", .bytes [98, 99, 100])]) := ⟨by rfl, by rfl, by rfl, by rfl⟩
example : Env.readable ⟨plat, fun c => if c = 1 then partClasses 1 else Option.none⟩ 0 true := by
  intro c ci h
  by_cases hc : c = 1
  · simp only [hc, if_true] at h; cases h; rfl
  · simp only [hc, if_false] at h; cases h
example : result (Short.createUnpack parts Option.none 3 2 [] (streamOf [97, 98, 0, 5])).1 =
    .ok (.obj 2 Option.none [("a", .bytes [97, 98]), ("b", .int 5)]) := by rfl

set_option maxRecDepth 4000 in
/-- **C65 is false in full** (terminated strings).  A chunk without the terminator counts as 256 bytes however short it is (`strings.py:242`): the next
field is read from the wrong place. -/
theorem C65_terminated_is_false :
    result (Short.createUnpack parts Option.none 3 2 [some 1] (streamOf ([97, 98, 0, 5] ++ List.replicate 254 0 ++ [77]))).1 =
      .ok (.obj 2 Option.none [("a", .bytes [97, 98]), ("b", .int 77)]) ∧
    result (createUnpack parts 3 2 .io (streamOf ([97, 98, 0, 5] ++ List.replicate 254 0 ++ [77]))) =
      .ok (.obj 2 Option.none [("a", .bytes [97, 98]), ("b", .int 5)]) := ⟨by rfl, by rfl⟩

/-- **C65 is false in full** (.NET strings).  The length of what was read is not looked at (`strings.py:346`): the string is cut and the rest of it taken for
the next field. -/
theorem C65_net_is_false :
    result (Short.createUnpack parts Option.none 3 3 [some 1, some 1] (streamOf [2, 97, 98, 5])).1 = .ok (.obj 3 Option.none [("a", .bytes [97]), ("b", .int 98)]) ∧
    result (createUnpack parts 3 3 .io (streamOf [2, 97, 98, 5])) = .ok (.obj 3 Option.none [("a", .bytes [97, 98]), ("b", .int 5)]) := ⟨by rfl, by rfl⟩

/-- **C65 is false in full** (`None` for a .NET string).  `None` becomes the value of the field, and the string is taken for the next field. -/
theorem C65_none_net_is_false :
    result (Short.createUnpack parts Option.none 3 3 [some 1, Option.none] (streamOf [2, 97, 98, 5])).1 =
      .ok (.obj 3 Option.none [("a", .none), ("b", .int 97)]) ∧
    result (createUnpack parts 3 3 .io (streamOf [2, 97, 98, 5])) = .ok (.obj 3 Option.none [("a", .bytes [97, 98]), ("b", .int 5)]) := ⟨by rfl, by rfl⟩

/-- **C65** (`None` for a read-to-end string).  If the first `read()` gives `None` there is no string: `TypeError`. -/
theorem C65_none_rest (env : Env) (ns : Option Err) (n : Nat) (upd : Upd) (id : SerId) (cuts : List (Option Nat)) (st : St) :
    result (Short.unpack env ns (n + 1) upd (.consuming id) (Option.none :: cuts) st).1 = .error .typeError := by
  rfl

/-- **C65 is false in full** (`None` behind part of a read-to-end string).  `read()` returns what there was. -/
theorem C65_none_rest_is_false :
    result (Short.createUnpack parts Option.none 3 4 [some 1, some 1, Option.none] (streamOf [7, 98, 99, 100])).1 =
      .ok (.obj 4 Option.none [("a", .int 7), ("b", .bytes [98])]) ∧
    result (createUnpack parts 3 4 .io (streamOf [7, 98, 99, 100])) = .ok (.obj 4 Option.none [("a", .int 7), ("b", .bytes [98, 99, 100])]) :=
  ⟨by rfl, by rfl⟩

end Verif
