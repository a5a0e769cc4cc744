import Verif.Proofs.NoSeek
import Verif.Props.ShortReads

/-!
C66: streams that have no position.
-/
namespace Verif
open Samples Short

/-- **C66**.  Classes without terminated strings, .NET strings and unions that read ahead are read from a stream whose `tell` and `seek`
raise `e` exactly as from one that can be moved, however much each call of `read` returns. -/
theorem C66_partial {env : Env} (he : env.forward) (e : Err) (n : Nat) (cls : ClassId) (cuts : List (Option Nat)) (st : St) :
    Short.createUnpack env (some e) n cls cuts st = Short.createUnpack env Option.none n cls cuts st := by
  rcases alike_create (b := false) (e := e) he n cls cuts st with h | ⟨h, -⟩
  · exact h
  · cases h

/-- **C66** (reading into an object). -/
theorem C66_into_object_partial {env : Env} (he : env.forward) (e : Err) (n : Nat) {v : Val}
    (ho : ∀ cls bo attrs ci ser, v = .obj cls bo attrs → objSer env cls bo = .ok (ci, ser) → ser.forward false = true) (cuts : List (Option Nat)) (st : St) :
    Short.objUnpack env (some e) n v cuts st = Short.objUnpack env Option.none n v cuts st := by
  rcases alike_objUnpack (b := false) (e := e) he n ho cuts st with h | ⟨h, -⟩
  · exact h
  · cases h

/-- **C66** (buffered pipes).  If every call of `read` returns all that is asked for, the outcome is that of `BytesIO` with the same data. -/
theorem C66_buffered_partial {env : Env} (he : env.forward) (e : Err) (n : Nat) (cls : ClassId) (st : St) :
    Short.createUnpack env (some e) n cls [] st = (createUnpack env n cls .io st, []) := by
  rw [C66_partial he]
  exact (C65_complete env n cls st).1

/-- **C66** (pipes and sockets).  Otherwise the outcome is that of `BytesIO`, or `struct.error`. -/
theorem C66_pipe_partial {env : Env} (he : env.forward) (e : Err) (n : Nat) (cls : ClassId) (cuts : List Nat) (st : St) :
    SameOrShort (Short.createUnpack env (some e) n cls (cuts.map some) st) (createUnpack env n cls .io st) := by
  rw [C66_partial he]
  exact C65_partial (k := 0) (forward_readable he 0) n cls (fun _ _ => Nat.zero_le _) st

/-- **C66** (pipes that do not block).  With `None` from some calls of `read`, and no read-to-end strings, also `TypeError` or `ValueError`. -/
theorem C66_none_partial {env : Env} (he : env.forward) (hr : env.readable 0 true) (e : Err) (n : Nat) (cls : ClassId) (cuts : List (Option Nat)) (st : St) :
    SameOrRaises (Short.createUnpack env (some e) n cls cuts st) (createUnpack env n cls .io st) := by
  rw [C66_partial he]
  exact C65_none_partial hr n cls (fun _ _ => Nat.zero_le _) st

/-- **C66** (any class).  Every class is read as from a stream that can be moved, or the exception of `tell` and `seek` is raised. -/
theorem C66_any (env : Env) (e : Err) (n : Nat) (cls : ClassId) (cuts : List (Option Nat)) (st : St) :
    SameOrUnsupported e (Short.createUnpack env (some e) n cls cuts st) (Short.createUnpack env Option.none n cls cuts st) := by
  rcases alike_create (b := true) (e := e) (fun _ _ _ => forward_true _) n cls cuts st with h | ⟨-, h⟩
  · exact .inl h
  · exact .inr h

/-- **C66** (any object). -/
theorem C66_any_object (env : Env) (e : Err) (n : Nat) (v : Val) (cuts : List (Option Nat)) (st : St) :
    SameOrUnsupported e (Short.objUnpack env (some e) n v cuts st) (Short.objUnpack env Option.none n v cuts st) := by
  rcases alike_objUnpack (b := true) (e := e) (fun _ _ _ => forward_true _) n (v := v) (fun _ _ _ _ _ _ _ => forward_true _) cuts st with h | ⟨-, h⟩
  · exact .inl h
  · exact .inr h

/-- **C66** (strings).  Terminated and .NET strings are never read from such a stream: they ask for the position first. -/
theorem C66_strings (env : Env) (e : Err) (n : Nat) (upd : Upd) (id : SerId) (term : Byte) (cuts : List (Option Nat)) (st : St) :
    Short.unpack env (some e) (n + 1) upd (.terminated id term) cuts st = (.err e st, cuts) ∧
    Short.unpack env (some e) (n + 1) upd (.net id) cuts st = (.err e st, cuts) := ⟨rfl, rfl⟩

/-- **C66** (unions that read ahead).  They are never read either: what was read ahead is lost, then the exception is raised. -/
theorem C66_lookahead (env : Env) (e : Err) (n : Nat) (upd : Upd) (id : SerId) (ra : Ser) (d : PObj → Except Err Val) (keys : List Val) (opts : List Ser)
    (dflt : Ser) (cuts cuts' : List (Option Nat)) (st st' : St) (v : Val) (vs : List Val)
    (h : Short.unpack env (some e) n noUpd ra cuts st = (.ok (v :: vs) st', cuts')) :
    Short.unpack env (some e) (n + 1) upd (.lookahead id ra d keys opts dflt) cuts st = (.err e st', cuts') := by
  unfold Short.unpack
  show R.bind (Short.unpack env (some e) n noUpd ra) _ cuts st = _
  unfold R.bind
  rw [h]
  rfl

namespace Samples

/-- `class Kind(Structured): a: Annotated[int | bytes, LookaheadDecider(uint8, …, {1: uint16})]` -/
def kindClasses : ClassId → Option ClassInfo
  | 1 => partClasses 1
  | 4 => some { attrs := ["a"], byteOrder := .le, serializer := (Ser.lookahead [7] (Ser.struct ⟨['<', 'B'], Option.none⟩) (fun _ => .ok (.int 1)) [.int 1]
      [Ser.struct ⟨['<', 'H'], Option.none⟩] Ser.null) }
  | _ => Option.none

def kinds : Env := ⟨plat, kindClasses⟩

/-- What `tell` raises on a pipe. -/
def unsupported : Err := .user 1

end Samples

-- a string with its length and a number are read from a pipe
example : Env.forward ⟨plat, fun c => if c = 1 then partClasses 1 else Option.none⟩ := by
  intro c ci h
  by_cases hc : c = 1
  · simp only [hc, if_true] at h; cases h; rfl
  · simp only [hc, if_false] at h; cases h
example : result (Short.createUnpack parts (some unsupported) 3 1 [some 1, some 2, some 2] (streamOf [2, 97, 98, 1, 2])).1 =
    .ok (.obj 1 Option.none [("a", .bytes [97, 98]), ("b", .int 513)]) := by rfl
example : result (Short.createUnpack parts (some unsupported) 3 1 [] (streamOf [2, 97, 98, 1, 2])).1 =
    .ok (.obj 1 Option.none [("a", .bytes [97, 98]), ("b", .int 513)]) := by rfl
example : result (Short.createUnpack parts (some unsupported) 3 1 [some 1, some 1] (streamOf [2, 97, 98, 1, 2])).1 = .error .structError := by rfl

example : result (Short.createUnpack parts (some unsupported) 3 1 [some 1, Option.none] (streamOf [2, 97, 98, 1, 2])).1 = .error .typeError := by rfl

/-- **C66 is false in full** (terminated strings, .NET strings, unions that read ahead). -/
theorem C66_is_false :
    result (Short.createUnpack parts (some unsupported) 3 2 [] (streamOf [97, 98, 0, 5])).1 = .error unsupported ∧
    result (createUnpack parts 3 2 .io (streamOf [97, 98, 0, 5])) = .ok (.obj 2 Option.none [("a", .bytes [97, 98]), ("b", .int 5)]) ∧
    result (Short.createUnpack parts (some unsupported) 3 3 [] (streamOf [2, 97, 98, 5])).1 = .error unsupported ∧
    result (createUnpack parts 3 3 .io (streamOf [2, 97, 98, 5])) = .ok (.obj 3 Option.none [("a", .bytes [97, 98]), ("b", .int 5)]) ∧
    result (Short.createUnpack kinds (some unsupported) 3 4 [] (streamOf [1, 2])).1 = .error unsupported ∧
    result (createUnpack kinds 3 4 .io (streamOf [1, 2])) = .ok (.obj 4 Option.none [("a", .int 513)]) := ⟨by rfl, by rfl, by rfl, by rfl, by rfl, by rfl⟩

end Verif
