import Verif.Props.Threads
import Verif.Props.Footprint
import Verif.Props.Brackets
import Verif.Props.Generics

/-!
C47: unrelated classes whose fields are written with the same hint share the serializer of the hint, because `char[...]`
and `unicode[...]` are cached, as long as `with_byte_order` returns the serializer itself.
-/
namespace Verif
open Samples Threads

namespace Samples

/-- `char[b'\0']` -/
def shortH : Hint := Spec.typed "bytes" (.terminated (hctx.ident .char [.bytes [0]]) 0)

/-- `class Left(Structured): name: char[b'\0']; n: uint8` and `class Right(Structured): m: uint8; name: char[b'\0']; n: uint8` -/
def leftDecl : ClassDecl := { bases := [.structured], anns := [("name", shortH), ("n", uint8H)] }

def rightDecl : ClassDecl := { bases := [.structured], anns := [("m", uint8H), ("name", shortH), ("n", uint8H)] }

/-- The class infos of the two class statements. -/
def leftRight : Env := ⟨plat, fun c => match c with
  | 30 => (createClass hctx 5 [30] world0 leftDecl).toOption.map (·.info)
  | 31 => (createClass hctx 5 [31] world0 rightDecl).toOption.map (·.info)
  | _ => Option.none⟩

end Samples

/-- **C47** (shared serializers).  Two classes that have nothing to do with each other but have a field with the same hint share
its serializer, and two threads that read one object of each from buffers disturb each other. -/
theorem C47_shared_is_false : mkChar hctx (.bytes [0]) = .ok shortH ∧
    (∀ cl cr, leftRight.classes 30 = some cl → leftRight.classes 31 = some cr → [9] ∈ cl.serializer.ids ∧ [9] ∈ cr.serializer.ids) ∧
    replies leftRight (interrupted 1)
      [(.createUnpack 30 (.buf [9, 0, 5, 77]), blank), (.createUnpack 31 (.buf [3, 8, 8, 0, 6]), blank)] =
      [some (.ok (.value (.obj 30 Option.none [("name", .bytes [9]), ("n", .int 77)]))),
       some (.ok (.value (.obj 31 Option.none [("m", .int 3), ("name", .bytes [8, 8]), ("n", .int 6)])))] ∧
    (outcome ((Task.createUnpack 30 (.buf [9, 0, 5, 77])).alone leftRight 9 st0)).1 =
      .ok (.value (.obj 30 Option.none [("name", .bytes [9]), ("n", .int 5)])) := by
  refine ⟨rfl, ?_, ?_, ?_⟩
  · intro cl cr h1 h2
    cases h1; cases h2
    exact ⟨by decide, by decide⟩
  · rfl
  · rfl

end Verif
