import Verif.RepoTests.Strings
/-
`tests/test_conditional.py`, `tests/test_unions.py`, `tests/test_tuples.py`, `tests/test_self.py`, `tests/test_generics.py`
-/
namespace Verif.RepoTests

/-- `attrgetter(name)` -/
def attr (name : Name) (p : PObj) : Except Err Val := match getAttr? p.attrs name with
  | some v => .ok v
  | Option.none => .error .attributeError
def float1125 : Val := .float 0x3FF2000000000000
def create (anns : List (Name × Hint)) : Except Err ClassObj := createClass ctx 6 [1] (fun _ => Option.none) (struct anns)

/-! ### `test_conditional.py` -/

/-! `test_errors` -/
def always : Decider := fun _ => .ok (.bool true)
example : failed (create [("a", annotate (.plain "int") [.cond always [.int 0]])]) = some .typeError := by decide +kernel
example : failed (create [("a", annotate uint8 [.cond always []])]) = some .valueError := by decide +kernel
example : failed (create [("a", annotate uint8 [.cond always [.int 1, .int 2]])]) = some .valueError := by decide +kernel

/-! `test_condition` -/
/-- `lambda x: x.version > k` -/
def newer (k : Int) : Decider := fun p => do match ← attr "version" p with
  | .int i => .ok (.bool (decide (k < i)))
  | _ => .error .typeError
def versionD : List (ClassId × ClassDecl) := [(1, { struct [("version", uint8), ("field1", uint32),
  ("field5", annotate int16 [.cond (newer 2) [.int (-1)]]), ("field2", char (.int 2)),
  ("field4", annotate float32 [.cond (newer 1) [.float 0]]), ("field3", uint16)] with byteOrder := .network })]
def version (v f5 : Int) (f4 : Val) : Val := new versionD 1 [.int v, .int 42, .int f5, .bytes (ascii "Hi"), f4, .int 69]
def v1Data : Bytes := [1, 0, 0, 0, 42] ++ ascii "Hi" ++ [0, 69]
def v2Data : Bytes := [2, 0, 0, 0, 42] ++ ascii "Hi" ++ [0x3F, 0x90, 0, 0, 0, 69]
def v3Data : Bytes := [3, 0, 0, 0, 42, 0xFF, 0xD6] ++ ascii "Hi" ++ [0x3F, 0x90, 0, 0, 0, 69]
example : passes (do
    standardTests (envOf versionD) (version 1 (-1) (.float 0)) v1Data
    standardTests (envOf versionD) (version 2 (-1) float1125) v2Data
    standardTests (envOf versionD) (version 3 (-42) float1125) v3Data) = true := by decide +kernel
example : passes (do
    check ((← Obj.pack (envOf versionD) 9 (version 1 (-1) float1125)) == v1Data)
    check ((← Obj.pack (envOf versionD) 9 (version 2 (-42) float1125)) == v2Data)
    check ((← Obj.pack (envOf versionD) 9 (version 1 (-42) float1125)) == v1Data)) = true := by decide +kernel

/-! `test_finality` -/
example : (match create [("a", annotate (.plain "int") [.ser (.consuming [9]), .cond always [.int 0]])] with
    | .ok o => match o.info.serializer with
      | .cond s _ _ => s.isFinal ctx.clsFinal && o.info.serializer.isFinal ctx.clsFinal
      | _ => false
    | _ => false) = true := by decide +kernel

/-! ### `test_unions.py` -/

/-! `test_errors` -/
def zero : Decider := fun _ => .ok (.int 0)
example : failed (mkLookback ctx 6 [1] zero [.int 0] [.plain "int"] (some int32)) = some .typeError := by decide +kernel
example : failed (mkLookback ctx 6 [1] zero [.int 0] [int32] (some (.plain "int"))) = some .typeError := by decide +kernel
example : failed (mkLookback ctx 6 [1] zero [.int 1] [pad 1] Option.none) = some .valueError := by decide +kernel
example : failed (mkLookback ctx 6 [1] zero [.int 1] [int32] (some (pad 1))) = some .valueError := by decide +kernel
example : (match mkLookback ctx 6 [1] (attr "a") [.int 1] [int32] Option.none with
    | .ok (.ser s) => raised do
      let s ← s.prepack ⟨9, false, [("a", .int 0)]⟩
      pack Samples.env 9 s [.int 1]
    | _ => Option.none) = some .valueError := by decide +kernel

/-! `test_lookback`, `test_union_syntax` -/
def lookback (d : Decider) (keys : List Val) (opts : List Hint) (dflt : Option Hint) : Hint := get (mkLookback ctx 6 [70] d keys opts dflt)
def backD : List (ClassId × ClassDecl) := [(1, struct [("a", annotate (.union [int8, char (.int 1)]) [lookback zero [.int 0] [int8] (some int8)])])]
example : (match serOf backD 1 with | some (.lookback ..) => true | _ => false) = true := by decide +kernel
example : passes (standardTests (envOf backD) (new backD 1 [.int 42]) [42]) = true := by decide +kernel

/-! `test_lookahead` -/
/-- `attrgetter('record.sig')` -/
def sigOf : Decider := fun p => do match ← attr "record" p with
  | .obj _ _ as => attr "sig" ⟨0, false, as⟩
  | _ => .error .attributeError
def aheadD : List (ClassId × ClassDecl) := [(1, struct [("sig", char (.int 4))]), (2, { bases := [.cls 1], anns := [("value", uint32)] }),
  (3, { bases := [.cls 1], anns := [("value", float32)] }),
  (4, struct [("record", annotate (.union [.cls 2, .cls 3])
    [get (mkLookahead ctx 6 [71] (char (.int 4)) sigOf [.bytes (ascii "IINT"), .bytes (ascii "FLOA")] [.cls 2, .cls 3] Option.none)])])]
example : passes (do
    standardTests (envOf aheadD) (new aheadD 4 [new aheadD 2 [.bytes (ascii "IINT"), .int 42]]) (ascii "IINT" ++ [42, 0, 0, 0])
    standardTests (envOf aheadD) (new aheadD 4 [new aheadD 3 [.bytes (ascii "FLOA"), float1125]]) (ascii "FLOA" ++ [0, 0, 0x90, 0x3F])) = true := by
  decide +kernel

/-! `test_compound_serializer` -/
def typedD : List (ClassId × ClassDecl) := [(1, struct [("a_type", uint8), ("a", annotate (.union [uint32, float32, char (.int 4)])
  [lookback (attr "a_type") [.int 0, .int 1] [uint32, float32] (some (char (.int 4)))])])]
example : attrsOf typedD 1 = some ["a_type", "a"] ∧ isCompound (serOf typedD 1) = true := by decide +kernel
example : passes (do
    standardTests (envOf typedD) (new typedD 1 [.int 0, .int 42]) [0, 42, 0, 0, 0]
    standardTests (envOf typedD) (new typedD 1 [.int 1, float1125]) [1, 0, 0, 0x90, 0x3F]
    standardTests (envOf typedD) (new typedD 1 [.int 2, .bytes (ascii "FOOD")]) (2 :: ascii "FOOD")) = true := by decide +kernel

/-! ### `test_tuples.py` -/

/-! `test_tuple_detection` -/
def tupleD : List (ClassId × ClassDecl) := [(1, struct [("a", .tup [int8, int16] false)])]
def isTuple (s : Option Ser) : Bool := match s with
  | some (.tuple ..) => true
  | _ => false
example : (match serOf tupleD 1 with | some (.tuple _ s) => formatOf (some s) | _ => Option.none) = some "bh" := by decide +kernel
example : passes (standardTests (envOf tupleD) (new tupleD 1 [.tup [.int 1, .int 2]]) [1, 0, 2, 0]) = true := by decide +kernel

/-! `test_non_detection` -/
example : attrsOf [(1, struct [("a", .tup [int8, .plain "int"] false)])] 1 = some [] ∧ attrsOf [(1, struct [("a", .tup [int8] true)])] 1 = some [] := by
  decide +kernel

/-! `test_generics` -/
def genTupleD : List (ClassId × ClassDecl) := [(1, { bases := [.generic [0, 1], .structured], anns := [("a", .tup [.tvar 0, .tvar 1] false)] }),
  (2, { bases := [.gen 1 [int8, .plain "int"]] }), (3, { bases := [.gen 1 [int8, int16]] })]
example : isNull (serOf genTupleD 1) = true ∧ isNull (serOf genTupleD 2) = true ∧ isTuple (serOf genTupleD 3) = true := by decide +kernel

/-! `test_finality` -/
example : (serOf [(1, struct [("a", .tup [int8, .ser (.consuming [9])] false)])] 1).map (Ser.isFinal ctx.clsFinal) = some true := by decide +kernel

/-! ### `test_self.py` -/

/-! `test_detection` -/
def selfD : List (ClassId × ClassDecl) := [(1, struct [("a", .selfT)]), (2, { bases := [.cls 1], anns := [("b", int8)] }),
  (3, { bases := [.generic [0], .structured], anns := [("a", .tvar 0), ("b", .selfT)] }), (4, { bases := [.gen 3 [int8]] })]
example : (match serOf selfD 1 with | some (.selfT _) => true | _ => false) = true := by decide +kernel
example : raised (createUnpack (envOf selfD) 40 1 (.buf [])) = some .recursionError := by decide +kernel
example : (match serOf selfD 2 with | some (.compound _ (.selfT _ :: _)) => true | _ => false) = true := by decide +kernel
example : (match serOf selfD 4 with | some (.compound _ [s, .selfT _]) => formatOf (some s) | _ => Option.none) = some "b" := by decide +kernel

/-! `test_arrays` -/
def treeD : List (ClassId × ClassDecl) := [(1, struct [("a", array (header uint32) .selfT), ("b", uint8)])]
def node (kids : List Val) (b : Int) : Val := new treeD 1 [.list kids, .int b]
example : passes (standardTests (envOf treeD) (node [node [] 1, node [] 2, node [node [] 42] 3] 0)
    ([3, 0, 0, 0] ++ [0, 0, 0, 0, 1] ++ [0, 0, 0, 0, 2] ++ ([1, 0, 0, 0] ++ [0, 0, 0, 0, 42] ++ [3]) ++ [0])) = true := by decide +kernel
example : (match createUnpack (envOf treeD) 20 1 (.buf ([1, 0, 0, 0] ++ [0, 0, 0, 0, 1] ++ [7])) Samples.st0 with
    | .ok (.obj 1 _ as) _ => match getAttr? as "a" with
      | some (.list [.obj c _ _]) => c == 1
      | _ => false
    | _ => false) = true := by decide +kernel

/-! `test_unions` -/
def selfUnionD : List (ClassId × ClassDecl) := [(1, struct [("type_flag", uint8),
  ("data", annotate (.union [.selfT, uint64]) [lookback (attr "type_flag") [.int 0, .int 1] [.selfT, uint64] Option.none])])]
example : passes (standardTests (envOf selfUnionD) (new selfUnionD 1 [.int 0, new selfUnionD 1 [.int 1, .int 42]])
    ([0] ++ [1] ++ [42, 0, 0, 0, 0, 0, 0, 0])) = true := by decide +kernel

/-! ### `test_generics.py` -/

/-! `TestAliasing`: the variables are `_Size` = 0, `_Byte` = 1, `T` = 2; class 1 is `Item` -/
def tmap : TMap := [(0, uint32), (1, uint8), (2, .cls 1)]
def aliasArgs : Hint → Option (AliasKind × List Nat)
  | .alias k args => some (k, args.map fun a => match a with | .tvar t => t | .alias .. => 100 | .int i => 200 + i.toNat | _ => 300)
  | _ => Option.none
/-- The serializers made are compared by their identity, like the test does with `is`. -/
def idOf : Hint → Option SerId
  | .annot _ [.ser (.dynChar i _)] => some i
  | .annot _ [.ser (.unicode (.dynChar i _) ..)] => some i
  | .annot _ [.ser (.array i ..)] => some i
  | .annot _ [.ser (.dynArr i ..)] => some i
  | _ => Option.none
example : aliasArgs (unicode (.tvar 0)) = some (.unicode, [0, 300]) := by decide +kernel
example : idOf (unicode uint32) = some [900, 73] ∧ idOf (get (resolve ctx 6 6 tmap (unicode (.tvar 0)))) = idOf (unicode uint32) := by decide +kernel
example : aliasArgs (get (mkHeader (.int 1) (.tvar 0))) = some (.header, [201, 0]) := by decide +kernel
example : (match resolve ctx 6 6 tmap (header (.int 1) (.tvar 0)), mkHeader (.int 1) uint32 with
    | .ok (.header (.static a) (some s)), .ok (.header (.static b) (some t)) => a == 1 && b == 1 && s.format == t.format && s.format == ['I']
    | _, _ => false) = true := by decide +kernel
example : aliasArgs (char (.tvar 0)) = some (.char, [0]) := by decide +kernel
example : idOf (char uint32) = some [900, 73] ∧ idOf (get (resolve ctx 6 6 tmap (char (.tvar 0)))) = idOf (char uint32) := by decide +kernel
example : aliasArgs (array (header (.tvar 0)) (.tvar 0)) = some (.array, [100, 0]) := by decide +kernel
example : idOf (array (header uint32) uint32) = some [903, 4000, 73] ∧
    idOf (get (resolve ctx 6 6 tmap (array (header (.tvar 0)) (.tvar 0)))) = idOf (array (header uint32) uint32) := by decide +kernel
/-- Different variables, step by step. -/
def steps3 : List Hint :=
  let obj := array (header (.tvar 0) (.tvar 1)) (.tvar 2)
  let obj1 := get (resolve ctx 6 6 [(0, uint32)] obj)
  let obj2 := get (resolve ctx 6 6 [(1, uint8)] obj1)
  [obj, obj1, obj2, get (resolve ctx 6 6 [(2, .cls 1)] obj2)]
example : steps3.map aliasArgs = [some (.array, [100, 2]), some (.array, [100, 2]), some (.array, [300, 2]), Option.none] := by decide +kernel
example : (match steps3 with
    | [_, .alias _ [.alias _ [a, b], _], .alias _ [.header (.dyn c) (some d), _], _] =>
      (sizeType? a).isSome && b.isTvar && c.format == ['I'] && d.format == ['B']
    | _ => false) = true := by decide +kernel
example : idOf (array (header uint32 uint8) (.cls 1)) = some [903, 4001, 301] ∧ steps3.getLast?.bind idOf = idOf (array (header uint32 uint8) (.cls 1)) ∧
    idOf (get (resolve ctx 6 6 tmap (array (header (.tvar 0) (.tvar 1)) (.tvar 2)))) = idOf (array (header uint32 uint8) (.cls 1)) := by decide +kernel

/-! `test_automatic_resolution`: the variables are `_Size` = 0, `T` = 2, `U` = 3, `V` = 4 -/
def autoD : List (ClassId × ClassDecl) := [(1, struct [("a", int8)]),
  (2, { bases := [.generic [0, 2, 3, 4], .structured], anns := [("a", .tvar 0), ("b", unicode (.tvar 3)), ("c", array (header (.int 1) (.tvar 4)) (.tvar 2))] }),
  (3, { bases := [.generic [3, 2], .gen 2 [uint8, .tvar 2, uint32, .tvar 3]] }),
  (4, { bases := [.gen 2 [uint8, .cls 1, uint32, uint16]] }),
  (5, { bases := [.gen 3 [uint16, .cls 1]] })]
example : attrsOf autoD 3 = some ["a", "b"] ∧ attrsOf autoD 4 = some ["a", "b", "c"] ∧ attrsOf autoD 5 = some ["a", "b", "c"] := by decide +kernel
def hintOf (c : ClassId) (a : Name) : Hint := ((made autoD c).bind fun o => (typeHints o.mro).get a).getD .noneT
example : (sizeType? (hintOf 3 "a")).map StructSer.format = some ['B'] ∧ idOf (hintOf 3 "b") = idOf (unicode uint32) ∧ (hintOf 3 "c").isAlias = true := by
  decide +kernel
example : (sizeType? (hintOf 4 "a")).map StructSer.format = (sizeType? (hintOf 5 "a")).map StructSer.format ∧
    idOf (hintOf 4 "b") = idOf (hintOf 5 "b") ∧ (idOf (hintOf 4 "c")).isSome = true ∧ idOf (hintOf 4 "c") = idOf (hintOf 5 "c") := by decide +kernel

/-! `test_auto_subclassing_simple`, `test_auto_subclassing_complex`: class 51 is made for `Inner[uint8]` -/
def subD : List (ClassId × ClassDecl) := [(1, { bases := [.generic [0], .structured], anns := [("a", .tvar 0)] }), (51, { bases := [.gen 1 [uint8]] }),
  (2, struct [("a", .gen 1 [uint8])]), (3, { bases := [.generic [0], .structured], anns := [("a", .gen 1 [.tvar 0])] }), (4, { bases := [.gen 3 [uint8]] })]
def innerAttrs (c : ClassId) : Option (List Name) := match serOf subD c with
  | some (.structured _ d) => attrsOf subD d
  | _ => Option.none
example : isNull (serOf subD 1) = true ∧ innerAttrs 2 = some ["a"] := by decide +kernel
example : isNull (serOf subD 3) = true ∧ innerAttrs 4 = some ["a"] := by decide +kernel

/-! `test_serialized_generics` -/
def genArrD : List (ClassId × ClassDecl) := [
  (1, { bases := [.generic [0], .structured], anns := [("a", annotate (.plain "list[_Size]") [array (header (.int 3)) (.tvar 0)])] }),
  (2, { bases := [.gen 1 [uint32]] })]
example : (match serOf genArrD 2 with | some (.staticArr _ _ (some s)) => some (String.ofList s.format) | _ => Option.none) = some "3I" := by decide +kernel
example : attrsOf genArrD 2 = some ["a"] := by decide +kernel
example : (match createUnpack (envOf genArrD) 9 2 (.buf [1, 0, 0, 0, 2, 0, 0, 0, 3, 0, 0, 0]) Samples.st0 with
    | .ok (.obj _ _ as) _ => match getAttr? as "a" with
      | some (.list [.int 1, .int 2, .int 3]) => true
      | _ => false
    | _ => false) = true := by decide +kernel

/-! `test_errors` -/
example : failed (specHints ctx 6 [1] (made autoD) 6 1 [uint8]) = some .typeError := by decide +kernel

end Verif.RepoTests
