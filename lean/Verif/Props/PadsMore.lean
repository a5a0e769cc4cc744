import Verif.Props.Pads
import Verif.Props.Reading

/-!
C28: padding is ignored at an offset and in streams too.
-/
namespace Verif
open Spec Sem Samples

/-- **C28** (ignored, at an offset).  As `C28_ignored_partial`, for `create_unpack_from` with any bytes `w` in front: without
length-prefixed and terminated strings, where reading at an offset is reading the rest of the buffer (C03). -/
theorem C28_from_partial {env : Env} {own : ClassId → List SerId} (hs : env.settled own) (hnp : env.noPeek)
    (hk : env.allowed ⟨true, false, true, false⟩) (hst : env.steady false) {m k : Nat} {cls : ClassId} {ci : ClassInfo}
    {pre post : List Ser} {z : StructSer} {t1 t2 : List Tok} (hci : env.classes cls = some ci)
    (hat : PadAt k (parts ci.serializer) pre z t1 t2 post) {w x p p' y : Bytes} {r0 : Dec}
    (h0 : readFront env m cls ci pre (.buf (x ++ p ++ y)) = .ok r0) (hx : x.length = r0.size + offsetAfter z t1)
    (hp : p.length = k) (hp' : p'.length = k) {st1 st1' : St} {v : Val}
    (h : createUnpack env (m + 1) cls (.at (w ++ (x ++ p ++ y)) w.length) st1 = .ok v st1') (st2 : St) :
    ∃ st2', createUnpack env (m + 1) cls (.at (w ++ (x ++ p' ++ y)) w.length) st2 = .ok v st2' := by
  have e1 := C03_from_partial env own hs hst (m + 1) cls (w ++ (x ++ p ++ y)) w.length (by simp) st1 st1
  rw [h, List.drop_left] at e1
  cases hb : createUnpack env (m + 1) cls (.buf (x ++ p ++ y)) st1 with
  | err e s => rw [hb] at e1; cases e1
  | ok v' s =>
    rw [hb] at e1
    cases e1
    obtain ⟨s2, g⟩ := C28_ignored_partial hs hnp hk hci hat h0 hx hp hp' hb st2
    have e2 := C03_from_partial env own hs hst (m + 1) cls (w ++ (x ++ p' ++ y)) w.length (by simp) st2 st2
    rw [List.drop_left, g] at e2
    cases hc : createUnpack env (m + 1) cls (.at (w ++ (x ++ p' ++ y)) w.length) st2 with
    | err e s => rw [hc] at e2; cases e2
    | ok v' s => rw [hc] at e2; cases e2; exact ⟨s, rfl⟩

/-- **C28** (ignored, in a stream).  As `C28_ignored_partial`, for `create_unpack_read` at any position: without
length-prefixed strings, where reading a stream is reading the rest of its data (C03).  Both streams move by the same. -/
theorem C28_read_partial {env : Env} {own : ClassId → List SerId} (hs : env.settled own) (hnp : env.noPeek)
    (hk : env.allowed ⟨true, false, true, false⟩) (hst : env.steady true) {m k : Nat} {cls : ClassId} {ci : ClassInfo}
    {pre post : List Ser} {z : StructSer} {t1 t2 : List Tok} (hci : env.classes cls = some ci)
    (hat : PadAt k (parts ci.serializer) pre z t1 t2 post) {x p p' y : Bytes} {r0 : Dec}
    (h0 : readFront env m cls ci pre (.buf (x ++ p ++ y)) = .ok r0) (hx : x.length = r0.size + offsetAfter z t1)
    (hp : p.length = k) (hp' : p'.length = k) {st1 st1' st2 : St} {v : Val}
    (h1 : st1.io.data.drop st1.io.pos = x ++ p ++ y) (h2 : st2.io.data.drop st2.io.pos = x ++ p' ++ y)
    (h : createUnpack env (m + 1) cls .io st1 = .ok v st1') :
    ∃ st2', createUnpack env (m + 1) cls .io st2 = .ok v st2' := by
  obtain ⟨e1, _⟩ := C03_read_partial env own hs hst (m + 1) cls st1 st1
  rw [h, h1] at e1
  cases hb : createUnpack env (m + 1) cls (.buf (x ++ p ++ y)) st1 with
  | err e s => rw [hb] at e1; cases e1
  | ok v' s =>
    rw [hb] at e1
    cases e1
    obtain ⟨s2, g⟩ := C28_ignored_partial hs hnp hk hci hat h0 hx hp hp' hb st2
    obtain ⟨e2, _⟩ := C03_read_partial env own hs hst (m + 1) cls st2 st2
    rw [h2, g] at e2
    cases hc : createUnpack env (m + 1) cls .io st2 with
    | err e s => rw [hc] at e2; cases e2
    | ok v' s => rw [hc] at e2; cases e2; exact ⟨s, rfl⟩

/-- `Padded2` in a stream and, without its string, at an offset: the pads are ignored. -/
example : let v : Val := .obj 10 none [("a", .int 7), ("b", .int 513), ("c", .bytes [104, 105])]
    padEnv.steady true ∧
    result (createUnpack padEnv 9 10 .io { st0 with io := ⟨[1, 7, 0, 0, 0, 1, 2, 104, 105, 0, 0], 1⟩ }) = .ok v ∧
    result (createUnpack padEnv 9 10 .io { st0 with io := ⟨[1, 7, 9, 8, 255, 1, 2, 104, 105, 0, 66], 1⟩ }) = .ok v := by
  refine ⟨?_, by rfl, by rfl⟩
  intro c ci h; obtain ⟨rfl, rfl⟩ := padEnv_info h; rfl

end Verif
