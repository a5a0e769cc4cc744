import Verif.RepoTests.Strings
import Verif.Text
/-
`tests/test_structured.py`, `tests/test_serializers.py`
-/
namespace Verif.RepoTests

/-! ### `test_structured.py` -/

/-! `test_multiple_pad` -/
def padsD : List (ClassId × ClassDecl) := [(1, struct [("_", pad 1), ("_", pad 3), ("_", pad 4)]), (2, { bases := [.cls 1], anns := [("_", pad 2)], padStart := 3 })]
example : formatOf (serOf padsD 1) = some "8x" ∧ formatOf (serOf padsD 2) = some "10x" := by decide +kernel

/-! `test_init__` -/
def initD : List (ClassId × ClassDecl) := [(1, struct [("a", int8), ("b", int32), ("c", int16)])]
def initCall (vs : List Val) : Except Err Val := match made initD 1 with
  | some o => callClass 1 o.info vs
  | Option.none => .error (.user 0)
example : failed (initCall [.int 1, .int 2, .int 3, .int 4]) = some .typeError ∧ failed (initCall [.int 1]) = some .typeError := by decide +kernel
example : (match initCall [.int 1, .int 2, .int 3] with
    | .ok (.obj _ _ as) => ["a", "b", "c"].map fun a => match getAttr? as a with | some (.int i) => i | _ => 0
    | _ => []) = [1, 2, 3] := by decide +kernel

/-! `test_byte_order` -/
def orderD (bo : ByteOrder) : List (ClassId × ClassDecl) := [(1, { struct [("a", int8)] with byteOrder := bo })]
example : orders.map (fun bo => formatOf (serOf (orderD bo) 1)) =
    [some "b", some "<b", some ">b", some "=b", some "@b", some "!b"] := by decide +kernel

/-! `test_folding` -/
def foldingD : List (ClassId × ClassDecl) := [(1, struct [("a", int8), ("b", int8), ("c", int32), ("d", int64)])]
example : formatOf (serOf foldingD 1) = some "2biq" := by decide +kernel

/-! `test_types` -/
def typesD : List (ClassId × ClassDecl) := [(1, struct [("_", pad 2), ("__", pad 1), ("a", int8), ("A", uint8), ("b", int16), ("B", uint16),
  ("c", int32), ("C", uint32), ("d", int64), ("D", uint64), ("e", float16), ("f", float32), ("g", float64), ("h", char (.int 2)), ("i", char (.int 1)),
  ("j", pascal 2), ("k", pascal 1), ("l", bool8), ("other_member", .plain "int")])]
example : (attrsOf typesD 1).map String.join = some "aAbBcCdDefghijkl" := by decide +kernel
example : formatOf (serOf typesD 1) = some "3xbBhHiIqQefd2ss2pp?" := by decide +kernel

/-! `test_extending` -/
def extendD : List (ClassId × ClassDecl) := [(1, struct [("a", int8), ("b", int16), ("c", int16)]), (2, { bases := [.cls 1], anns := [("d", int16)] }),
  (3, struct [("a", char (.int 10))]), (4, { bases := [.cls 3], anns := [("b", char (.int 3))] }),
  (5, struct [("a", pascal 10)]), (6, { bases := [.cls 5], anns := [("b", pascal 3)] })]
example : formatOf (serOf extendD 2) = some "b3h" ∧ formatOf (serOf extendD 4) = some "10s3s" ∧ formatOf (serOf extendD 6) = some "10p3p" := by
  decide +kernel
example : failed (createClass ctx 6 [7] (made extendD) { bases := [.cls 3, .cls 5] }) = some .typeError := by decide +kernel

/-! `test_override_types` -/
def overrideD : List (ClassId × ClassDecl) := [(1, struct [("a", int8), ("b", int16)]), (2, { bases := [.cls 1], anns := [("a", int16)] }),
  (3, struct [("a", int8), ("b", int8), ("c", int8)]), (4, { bases := [.cls 3], anns := [("b", .noneT)] })]
example : formatOf (serOf overrideD 2) = some "2h" ∧ formatOf (serOf overrideD 4) = some "2b" ∧ attrsOf overrideD 4 = some ["a", "c"] := by decide +kernel

/-! `test_mismatched_byte_order` -/
def mismatchD : List (ClassId × ClassDecl) := [(1, struct [("a", int8)]), (2, { bases := [.cls 1], anns := [("b", int8)], byteOrder := .le, override := true })]
example : failed (createClass ctx 6 [3] (made mismatchD) { bases := [.cls 1], anns := [("b", int8)], byteOrder := .le }) = some .valueError := by
  decide +kernel
example : formatOf (serOf mismatchD 2) = some "<2b" := by decide +kernel

/-! `test_with_byte_order` -/
def swapD : List (ClassId × ClassDecl) := [(1, struct [("a", uint16)])]
example : passes (do
    let v := new swapD 1 [.int 0xF0]
    check ((← Obj.pack (envOf swapD) 9 (← M.lift (Obj.withByteOrder (envOf swapD) .le v))) == [0xF0, 0])
    check ((← Obj.pack (envOf swapD) 9 (← M.lift (Obj.withByteOrder (envOf swapD) .be v))) == [0, 0xF0])) = true := by decide +kernel

/-! `test_unpack_read`, `test_pack_write` -/
def oneByteD : List (ClassId × ClassDecl) := [(1, struct [("a", int8)])]
example : passes (do
    let env := envOf oneByteD
    let data ← Obj.pack env 9 (new oneByteD 1 [.int 42])
    M.modify fun st => { st with io := ⟨data, 0⟩ }
    check (sameAs env (← Obj.unpack env 9 (new oneByteD 1 [.int 0]) .io) (new oneByteD 1 [.int 42]))) = true := by decide +kernel
example : passes (do
    let data ← Obj.pack (envOf oneByteD) 9 (new oneByteD 1 [.int 42])
    Obj.packWrite (envOf oneByteD) 9 (new oneByteD 1 [.int 42])
    check ((← M.get).io.data == data)) = true := by decide +kernel

/-! `test_pack_unpack`, `test_pack_unpack_into` -/
def paddedD : List (ClassId × ClassDecl) := [(1, struct [("a", int8), ("_", pad 2), ("b", char (.int 6))])]
example : passes (do
    let env := envOf paddedD
    let v := new paddedD 1 [.int 1, .bytes (ascii "Hello!")]
    let data := [1, 0, 0] ++ ascii "Hello!"
    check ((← Obj.pack env 9 v) == data)
    check (sameAs env (← createUnpack env 9 1 (.buf data)) v)
    check (sameAs env (← Obj.unpack env 9 (new paddedD 1 [.int 0, .bytes []]) (.buf data)) v)) = true := by decide +kernel
def intoD : List (ClassId × ClassDecl) := [(1, struct [("a", int8), ("b", char (.int 6))])]
example : passes (do
    let env := envOf intoD
    let v := new intoD 1 [.int 1, .bytes (ascii "Hello!")]
    let size ← ((serOf intoD 1).getD .null).readSize
    M.modify fun st => { st with buf := List.replicate size 0 }
    Obj.packInto env 9 0 v
    let buffer := (← M.get).buf
    check (buffer == (← Obj.pack env 9 v))
    check (sameAs env (← createUnpack env 9 1 (.at buffer 0)) v)
    check (sameAs env (← Obj.unpack env 9 (new intoD 1 [.int 0, .bytes []]) (.at buffer 0)) v)) = true := by decide +kernel

/-! `test_str` -/
def texts : Text := ⟨fun _ => text "Base", fun _ => false, fun _ => [], fun _ => .ok [], fun _ => .ok [], Option.none⟩
def strD : List (ClassId × ClassDecl) := [(1, struct [("a", int8), ("_", pad 3), ("b", char (.int 6))])]
example : (Val.fmt texts (envOf strD) (new strD 1 [.int 10, .bytes (ascii "Hello!")])).toOption = some (text "Base(a=10, b=b'Hello!')") := by decide +kernel

/-! `test_eq` -/
def eqD : List (ClassId × ClassDecl) := [(1, struct [("a", int8), ("b", char (.int 6))]), (2, { bases := [.cls 1] })]
example : let a := new eqD 1 [.int 1, str "Hello!"]
    [new eqD 1 [.int 1, str "Hello!"], new eqD 2 [.int 1, str "Hello!"], new eqD 1 [.int 0, str "Hello!"], new eqD 1 [.int 1, str "banana"]].map
      (sameAs (envOf eqD) a) = [true, false, false, false] := by decide +kernel

/-! `test_structured_hint` -/
def nestedD : List (ClassId × ClassDecl) := [(1, struct [("a", uint32), ("b", char (.int 4))]), (2, struct [("a", uint32), ("b", .cls 1)])]
example : passes (standardTests (envOf nestedD) (new nestedD 2 [.int 1, new nestedD 1 [.int 2, .bytes (ascii "abcd")]])
    ([1, 0, 0, 0, 2, 0, 0, 0] ++ ascii "abcd")) = true := by decide +kernel

/-! `test_fold_overlaps` -/
def plainSer (f : String) : StructSer := ⟨f.toList, Option.none⟩
def sumFormat (a b : String) : Option String := ((plainSer a).add (plainSer b)).toOption.map fun s => String.ofList s.format
example : sumFormat "b" "" = some "b" ∧ sumFormat "4sI" "I" = some "4s2I" ∧ sumFormat "" "b" = some "b" := by decide +kernel

/-! `test_create_serializers` -/
example : failed (createClass ctx 6 [1] (fun _ => Option.none) (struct [("a", .unindexed "array")])) = some .typeError := by decide +kernel

/-! ### `test_serializers.py` -/

/-! `TestStructSerializers.test_errors` -/
example : failed ((plainSer "b").mul (-1)) = some .valueError := by decide +kernel
example : failed ((plainSer "b").add (plainSer "!b")) = some .valueError := by decide +kernel

/-! `TestStructSerializers.test_add` -/
def noActions : StructSer := ⟨['b'], some [noopAction]⟩
example : (match Ser.add ctx.clsFinal [1] (.struct (plainSer "b")) (.struct noActions) with
    | .ok (.struct ⟨f, some as⟩) => (String.ofList f, as.length)
    | _ => ("", 0)) = ("2b", 2) := by decide +kernel
example : Ser.add ctx.clsFinal [1] (.struct noActions) .null = .ok (.struct noActions) := by rfl

/-! `TestStructSerializers.test_eq`, with identical lists of actions taken to be the same -/
def sameLength (as bs : List Action) : Bool := as.length == bs.length
example : StructSer.eq sameLength noActions noActions = true ∧ StructSer.eq sameLength (plainSer "b") noActions = false := by decide +kernel

/-! `TestStructSerializers.test_with_byte_order` -/
example : (noActions.withByteOrder .network).toOption.map (fun s => (String.ofList s.baseFormat, s.byteOrder)) = some ("b", .network) := by decide +kernel

/-! `TestNullSerializer` -/
example : passes (do check ((← pack Samples.env 9 .null []) == [])) = true := by decide +kernel
example : Ser.add ctx.clsFinal [1] (.struct (plainSer "B")) .null = .ok (.struct (plainSer "B")) ∧
    Ser.add ctx.clsFinal [1] .null (.struct (plainSer "B")) = .ok (.struct (plainSer "B")) ∧
    Ser.add ctx.clsFinal [1] (.consuming [2]) .null = .ok (.consuming [2]) ∧
    Ser.add ctx.clsFinal [1] .null (.consuming [2]) = .ok (.consuming [2]) := ⟨rfl, rfl, rfl, rfl⟩

/-! `TestCompoundSerializer.test_add` -/
def base1D : List (ClassId × ClassDecl) := [(1, struct [("a", int8),
  ("b", annotate (.union [int8, char (.int 1)]) [get (mkLookback ctx 6 [9] (fun _ => .ok (.int 0)) [.int 0] [int8] Option.none)])])]
def base1 : Ser := (serOf base1D 1).getD .null
def parts (r : Except Err Ser) : Option Nat := match r with
  | .ok (.compound _ ss) => some ss.length
  | _ => Option.none
example : parts (base1.add ctx.clsFinal [2] base1) = some 4 ∧ parts (base1.add ctx.clsFinal [2] (.struct (plainSer "b"))) = some 3 ∧
    parts (Ser.add ctx.clsFinal [2] (.struct (plainSer "b")) base1) = some 2 := by decide +kernel
/-- The test uses a serializer of its own that reads to the end. -/
example : failed (do
    let final ← base1.add ctx.clsFinal [2] (.consuming [3])
    final.add ctx.clsFinal [4] (.struct (plainSer "B"))) = some .typeError := by decide +kernel

/-! `TestCompoundSerializer.test_preprocess`: preparing a prepared serializer again changes nothing -/
def pobj : PObj := ⟨1, true, []⟩
example : (match base1.preunpack pobj Samples.st0 with
    | .ok s st => match s.preunpack pobj st with
      | .ok (.specialized i _ ss) _ => match s with
        | .specialized j _ ts => i == j && ss.length == ts.length
        | _ => false
      | _ => false
    | _ => false) = true := by decide +kernel

/-! `TestCompoundSerializer.test_finality` -/
def finalD : List (ClassId × ClassDecl) := [(1, struct [("a", uint8), ("b", .ser (.consuming [9]))])]
example : isCompound (serOf finalD 1) = true ∧ (serOf finalD 1).map (Ser.isFinal ctx.clsFinal) = some true := by decide +kernel

/-! `TestUnionSerializer` -/
example : (match mkLookback ctx 6 [9] (fun _ => .ok (.int 0)) [.int 0] [int8] Option.none with
    | .ok (.ser s) => passes do check ((← s.readSize) == 0)
    | _ => false) = true := by decide +kernel
example : failed (mkLookahead ctx 6 [9] (.int 1) (fun _ => .ok (.int 0)) [.int 0] [int8] Option.none) = some .typeError := by decide +kernel
def finalUnionD : List (ClassId × ClassDecl) := [(1, struct [("a", annotate (.union [uint32, float32])
  [get (mkLookback ctx 6 [9] (fun _ => .ok (.int 0)) [.int 0, .int 1] [uint32, .ser (.consuming [8])] Option.none)])])]
example : (serOf finalUnionD 1).map (Ser.isFinal ctx.clsFinal) = some true := by decide +kernel

end Verif.RepoTests
