import Verif.Proofs.WidthsMain
import Verif.Samples

/-!
C67: an unpacked object is no larger than the data.
-/
namespace Verif
open Samples Wide

/-- **C67**.  No list and no byte string in an unpacked object is longer than the data in front of the reader, or than the longest
fixed array, default or callback result of the program (`D`).  Counted arrays need items of at least one byte. -/
theorem C67_partial {env : Env} {S : ClassId → Prop} {D : Nat} (he : env.Slim S D) {n : Nat} {cls : ClassId} {src : Src} {st st' : St} {v : Val}
    (h : createUnpack env n cls src st = .ok v st') : v.Within (max D (src.left st)) := by
  obtain ⟨q, st1, h1, h2⟩ := M.bind_ok h
  cases h2
  exact (took_create he (Nat.le_max_left ..) (fun upd => took_unpack he (Nat.le_max_left ..) n upd) (Nat.le_max_right ..) h1).1

/-- **C67** (unpacking into an object). -/
theorem C67_object_partial {env : Env} {S : ClassId → Prop} {D : Nat} (he : env.Slim S D) {n : Nat} {cls : ClassId} {attrs : List (Name × Val)}
    {src : Src} {st st' : St} {v : Val} (ha : Val.WithinAttrs (max D (src.left st)) attrs)
    (h : Obj.unpack env n (.obj cls none attrs) src st = .ok v st') : v.Within (max D (src.left st)) := by
  obtain ⟨q, st1, h1, h⟩ := M.bind_ok h
  obtain ⟨s, st2, h2, h⟩ := M.bind_ok h
  obtain ⟨vals, st3, h3, h⟩ := M.bind_ok h
  obtain ⟨h4, rfl⟩ := lift_ok' h1
  unfold objSer at h4
  cases hc : env.classes cls with
  | none => rw [hc] at h4; cases h4
  | some ci =>
    rw [hc] at h4
    cases h4
    obtain ⟨k, ke⟩ := slim_preunpack (S := S) (D := D) h2
    have e : src.left st2 = src.left st1 := left_congr ke
    have a := took_unpack he (Nat.le_max_left D (src.left st1)) n _ _ _ _ _ _ (k.slim (he cls ci hc).1)
      (by rw [e]; exact Nat.le_max_right ..) h3
    simp only at h
    split at h
    · cases h; exact withinAttrs_fold ha a.within
    · cases h

/-- **C67** (forward only).  A stream is not left further back than it was. -/
theorem C67_forward_partial {env : Env} {S : ClassId → Prop} {D : Nat} (he : env.Slim S D) {n : Nat} {cls : ClassId} {src : Src} {st st' : St}
    {v : Val} (h : createUnpack env n cls src st = .ok v st') : src.left st' ≤ src.left st := by
  obtain ⟨q, st1, h1, h2⟩ := M.bind_ok h
  cases h2
  exact (took_create he (Nat.le_max_left ..) (fun upd => took_unpack he (Nat.le_max_left ..) n upd) (Nat.le_max_right ..) h1).2.1

/-- **C67** (objects that take a byte).  After an object of a class in `S` there is at least one byte less. -/
theorem C67_solid_partial {env : Env} {S : ClassId → Prop} {D : Nat} (he : env.Slim S D) {n : Nat} {cls : ClassId} (hc : S cls) {st st' : St}
    {v : Val} {ser : Ser} {src : Src} (h : createUnpackWith env (Verif.unpack env n) cls src st = .ok (v, ser) st') {k : Nat} {st'' : St}
    (hk : ser.readSize st' = .ok k st'') : (src.next k).left st' + 1 ≤ src.left st :=
  (took_create he (Nat.le_max_left ..) (fun upd => took_unpack he (Nat.le_max_left ..) n upd) (Nat.le_max_right ..) h).2.2 hc _ _ hk

/-! ### Samples

    class Point(Structured):                             # 0
        x: uint16
        name: char[uint8]
    class Tree(Structured):                              # 1
        kids: array[Header[uint8], Self]
        points: array[Header[uint32], Point]
        raw: array[Header[uint8], uint8]
        pad: array[Header[3], uint8]
    class Empty(Structured):                             # 0
        pass
    class Many(Structured):                              # 1
        items: array[Header[uint32], Empty]
    class Few(Structured):                               # 2
        items: array[Header[uint8], Empty]
-/

def wideClasses : ClassId → Option ClassInfo
  | 0 => some { attrs := ["x", "name"], byteOrder := .default
                serializer := .compound [1] [.struct ⟨['H'], none⟩, .dynChar [2] u8] }
  | 1 => some { attrs := ["kids", "points", "raw", "pad"], byteOrder := .default
                serializer := .compound [3] [.array [4] (some u8) (.selfT [5]) (-1),
                  .array [6] (some ⟨['I'], none⟩) (.structured [7] 0) (-1), .dynArr [8] u8 u8,
                  .staticArr 3 u8 (some ⟨"3B".toList, none⟩)] }
  | _ => none

def wideEnv : Env := ⟨plat, wideClasses⟩

theorem wide_slim : wideEnv.Slim (fun _ => True) 0 := by
  intro c ci hc
  have keep : ∀ (m : Nat) (attrs attrs' : List (Name × Val)), 0 ≤ m → Val.WithinAttrs m attrs →
      (Except.ok attrs : Except Err (List (Name × Val))) = .ok attrs' → Val.WithinAttrs m attrs' :=
    fun _ _ _ _ h e => by cases e; exact h
  have u8s : u8.Slim 0 := slim_of_none rfl
  match c, hc with
  | 0, hc =>
    cases hc
    refine ⟨⟨slim_of_none rfl, trivial, trivial⟩, fun _ => .inl (by show 1 ≤ StructSer.size _; decide), keep⟩
  | 1, hc =>
    cases hc
    refine ⟨⟨⟨trivial, trivial, .inl fun _ => trivial⟩, ⟨trivial, trivial, .inl trivial⟩,
      ⟨u8s, by show ∀ t ∈ u8.toks, t.numVals ≤ t.n; decide, by decide, [], 'B', by decide, by decide, by decide⟩, ?_, trivial⟩,
      fun _ => .inl (.inl ⟨u8, rfl, by decide⟩), keep⟩
    intro s hs
    cases hs
    exact ⟨slim_of_none rfl, .inr (by show ∀ t ∈ StructSer.toks _, t.numVals ≤ t.n; decide)⟩

/-- One child, one point called `a`, two raw bytes. -/
example : result (createUnpack wideEnv 9 1
      (.buf [1, 0, 0, 0, 0, 0, 0, 1, 2, 3, 1, 0, 0, 0, 5, 0, 1, 97, 2, 8, 9, 4, 5, 6]) st0) =
    .ok (.obj 1 none [("kids", .list [.obj 1 none [("kids", .list []), ("points", .list []), ("raw", .list []),
        ("pad", .list [.int 1, .int 2, .int 3])]]),
      ("points", .list [.obj 0 none [("x", .int 5), ("name", .bytes [97])]]),
      ("raw", .list [.int 8, .int 9]), ("pad", .list [.int 4, .int 5, .int 6])]) := by rfl

/-- A count of 4294967295 points needs that many bytes. -/
example : result (createUnpack wideEnv 9 1 (.buf [0, 255, 255, 255, 255, 0, 0]) st0) = .error .structError := by rfl

example : ¬ (Val.list [.int 1, .int 2]).Within 1 := by simp [Val.Within, Val.WithinList]

def manyClasses : ClassId → Option ClassInfo
  | 0 => some { attrs := [], byteOrder := .default, serializer := .null }
  | 1 => some { attrs := ["items"], byteOrder := .default
                serializer := .array [1] (some ⟨['I'], none⟩) (.structured [2] 0) (-1) }
  | 2 => some { attrs := ["items"], byteOrder := .default, serializer := .array [1] (some u8) (.structured [2] 0) (-1) }
  | _ => none

def manyEnv : Env := ⟨plat, manyClasses⟩

/-- Every one of `k` empty objects is read from no bytes. -/
theorem many_items (src : Src) (size : Nat) : ∀ (k : Nat) (st : St), ∃ st',
    unpackItems (Verif.unpack manyEnv 8 noUpd) (.structured [2] 0) src size k st = .ok (List.replicate k (.obj 0 none []), size) st'
  | 0, st => ⟨st, rfl⟩
  | k + 1, st => by
    obtain ⟨st', h⟩ := many_items src size k
      { st with cells := fun j => if j = [2] then { st.cells j with size := 0 } else st.cells j }
    refine ⟨st', ?_⟩
    rw [unpackItems]
    refine (M.bind_eq (show Verif.unpack manyEnv 8 noUpd (.structured [2] 0) (src.next size) st = .ok [.obj 0 none []] _ from rfl)).trans ?_
    refine (M.bind_eq (show Ser.readSize (.structured [2] 0) _ = .ok 0 _ from rfl)).trans ?_
    exact M.bind_eq h

/-- So is a list of them, after its count. -/
theorem many_unpack (k : Nat) (b : Bytes) (hb : structUnpackM manyEnv ⟨['I'], none⟩ (.buf b) =
      (fun st => .ok [.int k] st : M (List Val))) :
    ∃ st', createUnpack manyEnv 9 1 (.buf b) st0 = .ok (.obj 1 none [("items", .list (List.replicate k (.obj 0 none [])))]) st' := by
  obtain ⟨st', h⟩ := many_items (.buf b) 4 k
    { st0 with cells := fun j => if j = [1] then { st0.cells j with part := some ⟨1, true, []⟩ } else st0.cells j }
  have hu : ∀ upd, Verif.unpack manyEnv 9 upd (.array [1] (some ⟨['I'], none⟩) (.structured [2] 0) (-1)) (.buf b)
      { st0 with cells := fun j => if j = [1] then { st0.cells j with part := some ⟨1, true, []⟩ } else st0.cells j } =
      .ok [.list (List.replicate k (.obj 0 none []))]
        { st' with cells := fun j => if j = [1] then { st'.cells j with size := 4 } else st'.cells j } := by
    intro upd
    rw [Verif.unpack]
    refine (M.bind_eq (a := [.int k]) (congrFun hb _)).trans ?_
    refine (M.bind_eq (a := ((k : Int), -1)) rfl).trans ?_
    refine (M.bind_eq (x := getPart [1]) (a := ⟨1, true, []⟩) rfl).trans ?_
    refine (M.bind_eq (x := Ser.preunpack (.structured [2] 0) ⟨1, true, []⟩) (a := .structured [2] 0) rfl).trans ?_
    refine (M.bind_eq h).trans ?_
    refine (M.bind_eq (a := ()) rfl).trans ?_
    exact (M.bind_eq (a := ()) rfl)
  refine ⟨{ st' with cells := fun j => if j = [1] then { st'.cells j with size := 4 } else st'.cells j },
    (M.bind_eq (a := (_, .array [1] (some ⟨['I'], none⟩) (.structured [2] 0) (-1))) ?_).trans rfl⟩
  show (_ >>= _ : M (Val × Ser)) st0 = _
  refine (M.bind_eq (x := Ser.preunpack (.array [1] (some ⟨['I'], none⟩) (.structured [2] 0) (-1)) ⟨1, true, []⟩)
    (a := .array [1] (some ⟨['I'], none⟩) (.structured [2] 0) (-1)) rfl).trans ?_
  refine (M.bind_eq (hu _)).trans ?_
  exact M.bind_eq rfl

/-- **C67 is false in full.**  Objects of a class without fields take no bytes: four bytes are unpacked to a list of 4294967295
objects, so a short file can take all memory. -/
theorem C67_is_false : ∃ (env : Env) (b : Bytes) (vs : List Val), b.length = 4 ∧ vs.length = 4294967295 ∧
    ∃ st', createUnpack env 9 1 (.buf b) st0 = .ok (.obj 1 none [("items", .list vs)]) st' :=
  ⟨manyEnv, [255, 255, 255, 255], List.replicate 4294967295 (.obj 0 none []), rfl, List.length_replicate ..,
    many_unpack 4294967295 _ rfl⟩

/-- The same with a count of one byte. -/
example : result (createUnpack manyEnv 9 2 (.buf [3]) st0) =
    .ok (.obj 2 none [("items", .list [.obj 0 none [], .obj 0 none [], .obj 0 none []])]) := by rfl

end Verif
