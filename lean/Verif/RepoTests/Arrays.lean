import Verif.RepoTests.Common
/-
`tests/test_arrays.py`
-/
namespace Verif.RepoTests

/-- `class Item(Structured): a: int32; b: uint8; c: char[uint8]` -/
def itemD : ClassDecl := struct [("a", int32), ("b", uint8), ("c", char uint8)]
def itemV (a b : Int) (c : Bytes) : Val := new [(1, itemD)] 1 [.int a, .int b, .bytes c]
def foo : Bytes := [102, 111, 111]
def bar : Bytes := [98, 97, 114]
def hello : Bytes := [72, 101, 108, 108, 111]
def items : List Val := [itemV 1 11 foo, itemV 2 22 bar, itemV 3 33 hello]
/-- What the three items are packed to: 9, 9 and 11 bytes. -/
def itemsData : Bytes := [1, 0, 0, 0, 11, 3] ++ foo ++ [2, 0, 0, 0, 22, 3] ++ bar ++ [3, 0, 0, 0, 33, 5] ++ hello

example : ((items.map fun v => match Obj.pack (envOf [(1, itemD)]) 9 v Samples.st0 with | .ok b _ => b | .err .. => []).flatten) = itemsData := by decide +kernel

/-! `test_errors` -/
example : failed (mkArray ctx 6 (.unindexed "Header") int32) = some .typeError := by decide +kernel
example : failed (mkArray ctx 6 (header (.int 1)) (.int 2)) = some .typeError := by decide +kernel
example : failed (mkArray ctx 6 (header (.int 1)) (.plain "int")) = some .typeError := by decide +kernel
example : failed (mkHeader (.int 1) (.int 2)) = some .typeError := by decide +kernel
example : failed (mkHeader (.int 1) (.plain "int")) = some .typeError := by decide +kernel
example : failed (mkHeader (.int (-1)) .noneT) = some .valueError := by decide +kernel
example : failed (mkHeader (.int (-1)) uint32) = some .valueError := by decide +kernel
example : failed (mkHeader (.plain "int") .noneT) = some .typeError := by decide +kernel
example : failed (mkHeader int8 .noneT) = some .typeError := by decide +kernel

/-! `test_static_format` -/
def staticD : List (ClassId × ClassDecl) := [(2, struct [("a", int32), ("b", annotate (.plain "list[uint32]") [array (header (.int 5)) uint32])])]
def ints (l : List Int) : Val := .list (l.map .int)
example : passes (standardTests (envOf staticD) (new staticD 2 [.int 42, ints [1, 2, 3, 4, 5]])
    [42, 0, 0, 0, 1, 0, 0, 0, 2, 0, 0, 0, 3, 0, 0, 0, 4, 0, 0, 0, 5, 0, 0, 0]) = true := by decide +kernel
example : raised (Obj.pack (envOf staticD) 9 (new staticD 2 [.int 42, ints []])) = some .valueError := by decide +kernel

/-! `test_static_format_action` -/
def wrappedInt8 : Hint := annotate (.plain "WrappedInt") [get (mkSerializeAs ctx 6 [1] int8)]
def actionD : List (ClassId × ClassDecl) := [(2, struct [("a", array (header (.int 3)) wrappedInt8)])]
def wrapped (i : Int) : Val := .custom "WrappedInt".length (.int i)
example : passes (standardTests (envOf actionD) (new actionD 2 [.list [wrapped 1, wrapped 2, wrapped 3]]) [1, 2, 3]) = true := by decide +kernel

/-! `test_static_structured` -/
def staticItemsD : List (ClassId × ClassDecl) := [(1, itemD), (2, struct [("a", annotate (.plain "list[Item]") [array (header (.int 3)) (.cls 1)])])]
example : passes (standardTests (envOf staticItemsD) (new staticItemsD 2 [.list items]) itemsData) = true := by decide +kernel
example : raised (Obj.pack (envOf staticItemsD) 9 (new staticItemsD 2 [ints []])) = some .valueError := by decide +kernel

/-! `test_static_checked_structured` -/
def checkedD : List (ClassId × ClassDecl) := [(1, itemD), (2, struct [("a", annotate (.plain "list[Item]") [array (header (.int 3) uint32) (.cls 1)])])]
example : passes (standardTests (envOf checkedD) (new checkedD 2 [.list items]) ([29, 0, 0, 0] ++ itemsData)) = true := by decide +kernel
example : raised (Obj.pack (envOf checkedD) 9 (new checkedD 2 [ints []])) = some .valueError := by decide +kernel
example : raised (createUnpack (envOf checkedD) 9 2 (.at ([0, 0, 0, 0] ++ itemsData) 0)) = some .valueError := by decide +kernel

/-! `test_dynamic_format`, `test_zero_length` -/
def dynamicD : List (ClassId × ClassDecl) := [(2, struct [("a", array (header uint32) int8)])]
example : (match serOf dynamicD 2 with | some (.dynArr ..) => true | _ => false) = true := by decide +kernel
example : passes (standardTests (envOf dynamicD) (new dynamicD 2 [ints [1, 2, 3]]) [3, 0, 0, 0, 1, 2, 3]) = true := by decide +kernel
def emptyD : List (ClassId × ClassDecl) := [(2, struct [("a", array (header uint32) uint8)])]
example : passes (standardTests (envOf emptyD) (new emptyD 2 [ints []]) [0, 0, 0, 0]) = true := by decide +kernel

/-! `test_dynamic_structured` -/
def dynItemsD : List (ClassId × ClassDecl) := [(1, itemD), (2, struct [("a", array (header uint32) (.cls 1))])]
example : passes (standardTests (envOf dynItemsD) (new dynItemsD 2 [.list items]) ([3, 0, 0, 0] ++ itemsData)) = true := by decide +kernel

/-! `test_dynamic_checked_structured` -/
def dynCheckedD : List (ClassId × ClassDecl) := [(1, itemD), (2, struct [("b", uint32), ("a", array (header uint32 uint32) (.cls 1))])]
example : (match serOf dynCheckedD 2 with
    | some (.compound _ [_, .array _ (some h) _ sl]) => (String.ofList h.format, h.numValues, sl)
    | _ => ("", 0, 0)) = ("2I", 2, -1) := by decide +kernel
example : passes (standardTests (envOf dynCheckedD) (new dynCheckedD 2 [.int 42, .list items]) ([42, 0, 0, 0, 3, 0, 0, 0, 29, 0, 0, 0] ++ itemsData)) = true := by
  decide +kernel
example : raised (createUnpack (envOf dynCheckedD) 9 2 (.at ([42, 0, 0, 0, 3, 0, 0, 0, 0, 0, 0, 0] ++ itemsData) 0)) = some .valueError := by decide +kernel

/-! `test_finality`, with the one serializer of the library that reads to the end -/
example : failed (mkArray ctx 6 (header (.int 3)) (char .inf)) = some .typeError := by decide +kernel

end Verif.RepoTests
