import Verif.Props.FormatRaises
/-
Types of one's own in documented programs: the example of the README for `SerializeAs`, and factories.
-/
namespace Verif.Samples
open Spec Sem

/-- Types of one's own are called `MyInt`: calling it wraps the value. -/
def ownCtx : HintCtx := { hctx with call := fun _ v => .ok (.custom 7 v) }

/-- `MyInt(value)` -/
def myInt (v : Val) : Val := .custom 7 v
/-- `lambda value: Tag(value[:1])` -/
def firstByte : Val → Val
  | .bytes b => .custom 8 (.bytes (b.take 1))
  | v => v

/-- `class MyStruct(Structured): kind: uint8; version: Annotated[MyInt, SerializeAs(uint32)];
tags: array[Header[2], Annotated[Tag, SerializeAs(char[2]).with_factory(lambda value: Tag(value[:1]))]]; last: int16` -/
def ownDoc : ClassDoc := ⟨.default, [.value "kind" (.int false .one), .value "version" (.via [82] (.int false .four) "MyInt" true myInt),
  .value "tags" (.fixed 2 (.via [83] (.chars 2) "Tag" false firstByte)), .value "last" (.int true .two)]⟩

def ownDecl : ClassDecl :=
  { bases := [.structured]
    anns := ownDoc.fields.map fun f => (f.name, match f.hint ownCtx 4 with | .ok h => h | .error _ => .noneT) }

def ownClass : ClassObj := match createClass ownCtx 4 [70] world0 ownDecl with
  | .ok o => o
  | .error _ => ⟨[], [], [], ⟨[], .null, .default, .ok⟩⟩

def ownEnv : Env := ⟨plat, fun c => if c = 70 then some ownClass.info else Option.none⟩

theorem own_documented : AllDocumented ownEnv ownCtx 4 (oneDocs ownDoc) where
  documents := by
    intro c d h
    simp only [oneDocs] at h
    split at h
    · rename_i e
      cases h
      refine ⟨by rfl, ownClass, by simp [ownEnv, e], ⟨by rfl, each (by rfl), noSelf (by decide), ?_, 4, [70], world0, ownDecl, by rfl, rfl⟩⟩
      intro p hp
      have : p ∈ [("MyInt", myInt)] := hp
      rw [List.mem_singleton] at this
      subst this
      rfl
    · cases h
  others := by
    intro c h
    simp only [oneDocs] at h
    split at h
    · cases h
    · rename_i e
      simp [ownEnv, e]
  init := by
    intro c ci h
    simp only [ownEnv] at h
    split at h
    · cases h; rfl
    · cases h

theorem own_settled : ownEnv.settled (fun _ => ownClass.info.serializer.keepers) := by
  intro c ci h
  simp only [ownEnv] at h
  split at h
  · rename_i e
    cases h
    subst e
    exact ⟨by rfl, by rfl, fun _ h => h, fun _ _ _ h => h⟩
  · cases h

theorem own_plain : Plain ownEnv := by
  intro c bo ci ser h
  by_cases hc : c = 70
  · subst hc
    cases bo with
    | none => cases h; exact ⟨rfl, rfl⟩
    | some b => cases b <;> cases h <;> exact ⟨rfl, rfl⟩
  · simp [objSer, ownEnv, hc] at h

/-- Objects with a plain integer, or one of the type. -/
def ownObj (v : Val) (a b : Bytes) : Val :=
  .obj 70 Option.none [("kind", .int 3), ("version", v), ("tags", .list [.custom 8 (.bytes a), .custom 8 (.bytes b)]), ("last", .int (-2))]

end Verif.Samples

namespace Verif
open Spec Sem Samples

/-- The types stand for the numbers and bytes that they are made from, and come back as what their type or the factory makes; the
number behind them is aligned as it would be otherwise. -/
example :
    writeObj plat (oneDocs ownDoc) 1 70 (ownObj (.custom 7 (.int 258)) [65] [66, 67]) =
      some [3, 0, 0, 0, 2, 1, 0, 0, 65, 0, 66, 67, 254, 255] ∧
    backObj plat true (oneDocs ownDoc) 1 false 70 (ownObj (.int 258) [65] [66, 67]) = some (ownObj (.custom 7 (.int 258)) [65] [66]) ∧
    writeObj plat (oneDocs ownDoc) 1 70 (ownObj (.custom 7 (.bytes [4])) [65] [66]) = Option.none := ⟨by rfl, by rfl, by rfl⟩

/-- What the parser makes of bytes. -/
example :
    readObj plat (oneDocs ownDoc) 1 70 [3, 9, 9, 9, 2, 1, 0, 0, 65, 5, 66, 67, 254, 255, 8] =
      .ok (ownObj (.custom 7 (.int 258)) [65] [66], 14) ∧
    readObj plat (oneDocs ownDoc) 1 70 [3, 9, 9, 9, 2, 1, 0, 0, 65, 5, 66] = .err .structError := ⟨by rfl, by rfl⟩

/-- `C52_pack_partial`, `C52_unpack_partial` and `C56_unpack_partial` say that this is what happens. -/
theorem own_pack : ∃ K, ∀ n ≥ K, ∀ st, result (Obj.pack ownEnv n (ownObj (.custom 7 (.int 258)) [65] [66, 67]) st) =
    .ok [3, 0, 0, 0, 2, 1, 0, 0, 65, 0, 66, 67, 254, 255] :=
  C52_pack_partial own_documented.documents (k := 1) (c := 70) (by rfl) (calm_of_plain own_plain _)

theorem own_unpack : ∃ K, ∀ n ≥ K, ∀ rest st,
    result (createUnpack ownEnv n 70 (.buf ([3, 0, 0, 0, 2, 1, 0, 0, 65, 0, 66, 67, 254, 255] ++ rest)) st) =
      .ok (ownObj (.custom 7 (.int 258)) [65] [66]) := by
  obtain ⟨K, h⟩ := C52_unpack_partial own_documented.documents own_documented.init (l := false) (k := 1) (c := 70)
    (v := ownObj (.custom 7 (.int 258)) [65] [66, 67]) (by rfl) (by rfl) (calm_of_plain own_plain _)
  exact ⟨K, fun n hn rest st => h n hn rest nofun st⟩

theorem own_short : ∀ n st, result (createUnpack ownEnv n 70 (.buf [3, 9, 9, 9, 2, 1, 0, 0, 65, 5, 66]) st) = .error .recursionError ∨
    result (createUnpack ownEnv n 70 (.buf [3, 9, 9, 9, 2, 1, 0, 0, 65, 5, 66]) st) = .error .structError := by
  intro n st
  refine (C56_unpack_partial own_documented own_settled n 70 [3, 9, 9, 9, 2, 1, 0, 0, 65, 5, 66] st).imp_right fun h => ?_
  have e : readObj plat (oneDocs ownDoc) (n + 1) 70 [3, 9, 9, 9, 2, 1, 0, 0, 65, 5, 66] = .err .structError := by rfl
  rw [show ownEnv.plat = plat from rfl, e] at h
  exact h

end Verif
