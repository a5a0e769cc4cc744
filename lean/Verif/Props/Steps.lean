import Verif.Proofs.Steps
import Verif.Props.Reading
import Verif.Props.ShortReads

/-!
C04, streams: how far a stream has moved after unpacking.
-/
namespace Verif
open Samples Stride

/-- **C04** (streams, partial).  Right after a successful `create_unpack_read` the `size` of the serializer is the number of bytes the stream has moved, also
when unions read ahead.  Missing: .NET strings, see `C04_stream_net_partial` and `C04_stream_is_false`. -/
theorem C04_stream_partial {env : Env} {own : ClassId → List SerId} (hs : env.settled own) (he : env.steps true) {n : Nat} {cls : ClassId}
    {ci : ClassInfo} (hci : env.classes cls = some ci) (hsz : ci.serializer.sized = true) {v : Val} {st st' : St}
    (h : createUnpack env n cls .io st = .ok v st') :
    ∃ size, ci.serializer.readSize st' = .ok size st' ∧ st'.io.pos = st.io.pos + size := by
  obtain ⟨r, ser, h1, h2, h3⟩ := createUnpack_inv hs h
  obtain ⟨ci', hc', rfl⟩ := decObj_ser h1
  rw [hci] at hc'; cases hc'
  refine ⟨r.size, h3 hsz, ?_⟩
  rw [h2.ioPos rfl]
  rcases decObj_goes he (dec_goes he n) h1 with e | ⟨e, _⟩
  · exact e
  · cases e

/-- **C04** (streams with .NET strings, partial).  In programs that do not read ahead: the stream has moved by the size, or the size reaches behind the end
of the data. -/
theorem C04_stream_net_partial {env : Env} {own : ClassId → List SerId} (hs : env.settled own) (he : env.steps false) {n : Nat} {cls : ClassId}
    {ci : ClassInfo} (hci : env.classes cls = some ci) (hsz : ci.serializer.sized = true) {v : Val} {st st' : St}
    (h : createUnpack env n cls .io st = .ok v st') :
    ∃ size, ci.serializer.readSize st' = .ok size st' ∧ (st'.io.pos = st.io.pos + size ∨ st.io.data.length < st.io.pos + size) := by
  obtain ⟨r, ser, h1, h2, h3⟩ := createUnpack_inv hs h
  obtain ⟨ci', hc', rfl⟩ := decObj_ser h1
  rw [hci] at hc'; cases hc'
  refine ⟨r.size, h3 hsz, ?_⟩
  rw [h2.ioPos rfl]
  rcases decObj_goes he (dec_goes he n) h1 with e | ⟨_, e⟩
  · exact .inl e
  · exact .inr e

namespace Samples

theorem flat_steps : flatEnv.steps true := by
  intro c ci h
  match c with
  | 0 | 1 | 2 => cases h; rfl
  | c + 3 => cases h

/-- `class Named(Structured): name: char[char.NET]` -/
def netClass : ClassInfo := { attrs := ["name"], byteOrder := .default, serializer := .net [1] }

def netEnv : Env := ⟨plat, fun c => if c = 1 then some netClass else Option.none⟩

theorem netEnv_settled : netEnv.settled (fun _ => []) := by
  intro c ci h
  by_cases hc : c = 1
  · simp only [netEnv, hc, if_true] at h
    cases h
    exact ⟨rfl, rfl, nofun, nofun⟩
  · simp only [netEnv, hc, if_false] at h; cases h

theorem netEnv_steps : netEnv.steps false := by
  intro c ci h
  by_cases hc : c = 1
  · simp only [netEnv, hc, if_true] at h
    cases h
    rfl
  · simp only [netEnv, hc, if_false] at h; cases h

end Samples

-- eleven bytes of a stream that has more, with a union that reads ahead
example : flatEnv.settled flatOwn ∧ flatEnv.steps true ∧
    (match createUnpack flatEnv 9 1 .io (streamOf [7, 2, 6, 3, 0, 255, 4, 0, 1, 2, 21, 9]) with | .ok _ st => st.io.pos | _ => 0) = 11 ∧
    ∃ ci, flatEnv.classes 1 = some ci ∧ ci.serializer.sized = true := ⟨flat_settled, flat_steps, by decide +kernel, _, rfl, rfl⟩
example : netEnv.settled (fun _ => []) ∧ netEnv.steps false ∧ netEnv.classes 1 = some netClass ∧ netClass.serializer.sized = true ∧
    result (createUnpack netEnv 9 1 .io (streamOf [2, 97, 98, 5])) = .ok (.obj 1 Option.none [("name", .bytes [97, 98])]) :=
  ⟨netEnv_settled, netEnv_steps, by rfl, by rfl, by rfl⟩

/-- **C04 is false** for a .NET string cut short in a stream: the size is that of the whole string. -/
theorem C04_stream_is_false :
    result (createUnpack netEnv 9 1 .io (streamOf [5, 97, 98])) = .ok (.obj 1 Option.none [("name", .bytes [97, 98])]) ∧
    (after (createUnpack netEnv 9 1 .io (streamOf [5, 97, 98]))).io.pos = 3 ∧
    result (netClass.serializer.readSize (after (createUnpack netEnv 9 1 .io (streamOf [5, 97, 98])))) = .ok 6 := ⟨by rfl, by rfl, by rfl⟩

end Verif
