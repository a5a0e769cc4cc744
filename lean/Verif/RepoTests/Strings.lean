import Verif.RepoTests.Common
/-
`tests/test_strings.py`, `tests/test_base_types.py`, `tests/test_annotations.py`
-/
namespace Verif.RepoTests

def ascii (s : String) : Bytes := s.toList.map fun c => UInt8.ofNat c.toNat

/-- Enough of UTF-8 for the tests: ASCII and the two characters of `'你好'`. -/
def encChar (c : Nat) : Except Err Bytes :=
  if c < 128 then .ok [UInt8.ofNat c]
  else if c = 0x4F60 then .ok [0xE4, 0xBD, 0xA0]
  else if c = 0x597D then .ok [0xE5, 0xA5, 0xBD]
  else .error .unicodeError
def encStr : PyStr → Except Err Bytes
  | [] => .ok []
  | c :: cs => do .ok ((← encChar c) ++ (← encStr cs))
def decStr : Bytes → Except Err PyStr
  | [] => .ok []
  | 0xE4 :: 0xBD :: 0xA0 :: rest => do .ok (0x4F60 :: (← decStr rest))
  | 0xE5 :: 0xA5 :: 0xBD :: rest => do .ok (0x597D :: (← decStr rest))
  | b :: rest => if b < 128 then do .ok (b.toNat :: (← decStr rest)) else .error .unicodeError
def utf8 : Hint := .codec (fun v => match v with | .str s => encStr s | _ => .error .attributeError) decStr
def unicode (h : Hint) (c : Hint := utf8) := get (mkUnicode ctx 6 h c)
def str (s : String) : Val := .str (s.toList.map Char.toNat)

/-! `test_errors` -/
example : failed (mkUnicode ctx 6 int8 utf8) = some .typeError := by decide +kernel
example : failed (mkUnicode ctx 6 (.int 5) uint32) = some .typeError := by decide +kernel
example : failed (mkChar ctx (.plain "1.1")) = some .typeError := by decide +kernel
example : failed (mkChar ctx (.bytes (ascii "aa"))) = some .valueError := by decide +kernel

/-! `TestChar.test_static` -/
example : (match transform ctx 6 [1] (char (.int 13)) with
    | .ok (.ser s) => formatOf (some s)
    | _ => Option.none) = some "13s" := by decide +kernel

/-! `TestChar.test_dynamic` -/
def dynCharD : List (ClassId × ClassDecl) := [(1, struct [("a", int16), ("b", char uint8), ("c", int32), ("d", int32)])]
example : counts (serOf dynCharD 1) = [1, 1, 2] ∧ attrsOf dynCharD 1 = some ["a", "b", "c", "d"] := by decide +kernel
example : passes (standardTests (envOf dynCharD) (new dynCharD 1 [.int 10, .bytes (ascii "a"), .int 42, .int 11])
    [10, 0, 1, 97, 42, 0, 0, 0, 11, 0, 0, 0]) = true := by decide +kernel

/-! `TestChar.test_null`: `null_char` is `char[b'\0']` -/
def nullD : List (ClassId × ClassDecl) := [(1, struct [("name", char (.bytes [0]))])]
def nullV (s : String) : Val := new nullD 1 [.bytes (ascii s)]
/-- Reading from a stream that holds the given data. -/
def fromStream (env : Env) (c : ClassId) (data : Bytes) : M Val := do
  M.modify fun st => { st with io := ⟨data, 0⟩ }
  createUnpack env 20 c .io
example : passes (standardTests (envOf nullD) (nullV "Hello") (ascii "Hello\x00")) = true := by decide +kernel
example : passes (do
    check (sameAs (envOf nullD) (← createUnpack (envOf nullD) 9 1 (.buf (ascii "Hello\x00Extra"))) (nullV "Hello"))
    check (sameAs (envOf nullD) (← createUnpack (envOf nullD) 9 1 (.at (ascii "Hello\x00Extra") 0)) (nullV "Hello"))
    check (sameAs (envOf nullD) (← fromStream (envOf nullD) 1 (ascii "Hello\x00Extra")) (nullV "Hello"))) = true := by decide +kernel
example : raised (createUnpack (envOf nullD) 9 1 (.buf (ascii "Hello"))) = some .valueError ∧
    raised (fromStream (envOf nullD) 1 (ascii "Hello")) = some .valueError ∧
    raised (createUnpack (envOf nullD) 9 1 (.at (ascii "Hello") 0)) = some .valueError := by decide +kernel
example : passes (do
    check ((← Obj.pack (envOf nullD) 9 (nullV "")) == [0])
    check ((← Obj.pack (envOf nullD) 9 (nullV "Hi")) == ascii "Hi\x00")) = true := by decide +kernel

/-! `TestChar.test_custom_delim` -/
def delimD : List (ClassId × ClassDecl) := [(1, struct [("name", char (.bytes (ascii "H")))])]
example : passes (do
    let v := new delimD 1 [.bytes (ascii "Foo")]
    check ((← Obj.pack (envOf delimD) 9 v) == ascii "FooH")
    check (sameAs (envOf delimD) (← createUnpack (envOf delimD) 9 1 (.buf (ascii "FooHBar"))) v)) = true := by decide +kernel

/-! `TestChar.test_net_errors` -/
def netErrD : List (ClassId × ClassDecl) := [(1, struct [("a", char .net)])]
set_option maxRecDepth 100000 in
example : raised (Obj.pack (envOf netErrD) 9 (new netErrD 1 [.bytes (List.replicate 0x8000 97)])) = some .valueError := by decide +kernel

/-! `TestChar.test_net` -/
def netD : List (ClassId × ClassDecl) := [(1, struct [("short", char .net), ("long", char .net)])]
example : counts (serOf netD 1) = [1, 1] ∧ attrsOf netD 1 = some ["short", "long"] := by decide +kernel
def netV : Val := new netD 1 [.bytes (ascii "Hello"), .bytes (List.replicate 200 97)]
/-- The length mark of 200 is `0x80 | 0x48 | 0x80 << 1`. -/
def netData : Bytes := [5] ++ ascii "Hello" ++ [0xC8, 0x01] ++ List.replicate 200 97
example : netData.length = 1 + 5 + 2 + 200 := by decide +kernel
example : passes (standardTests (envOf netD) netV netData) = true := by decide +kernel

/-! `TestChar.test_finality`, `TestChar.test_consuming` -/
example : (match transform ctx 6 [1] (char .inf) with
    | .ok (.ser s) => s.isFinal ctx.clsFinal
    | _ => false) = true := by decide +kernel
def consD : List (ClassId × ClassDecl) := [(1, struct [("a", uint8), ("b", char .inf)])]
example : passes (standardTests (envOf consD) (new consD 1 [.int 42, .bytes (ascii "Hello")]) (42 :: ascii "Hello")) = true := by decide +kernel
example : passes (standardTests (envOf consD) (new consD 1 [.int 42, .bytes []]) [42]) = true := by decide +kernel

/-! `TestUnicode.test_default`, `test_dynamic` -/
def nihao : Val := .str [0x4F60, 0x597D]
def nihaoData : Bytes := [0xE4, 0xBD, 0xA0, 0xE5, 0xA5, 0xBD]
def uniD (h : Hint) : List (ClassId × ClassDecl) := [(1, struct [("a", unicode h)])]
example : passes (standardTests (envOf (uniD (.int 6))) (new (uniD (.int 6)) 1 [nihao]) nihaoData) = true := by decide +kernel
example : passes (standardTests (envOf (uniD uint32)) (new (uniD uint32) 1 [nihao]) ([6, 0, 0, 0] ++ nihaoData)) = true := by decide +kernel

/-! `TestUnicode.test_custom` -/
def customD : List (ClassId × ClassDecl) :=
  [(1, struct [("a", unicode (.int 6) (.codec (fun _ => .ok (ascii "Hello!")) fun _ => .ok ("banana".toList.map Char.toNat)))])]
def banana : Val := new customD 1 [str "banana"]
example : passes (standardTests (envOf customD) banana (ascii "Hello!")) = true := by decide +kernel
example : passes (do check (sameAs (envOf customD) (← createUnpack (envOf customD) 9 1 (.buf (ascii "123456"))) banana)) = true := by decide +kernel

/-! `TestUnicode.test_null`: `null_unicode` is `unicode[b'\0']`; the size is read after each step -/
def nullUniD : List (ClassId × ClassDecl) := [(1, struct [("name", unicode (.bytes [0]))])]
def nullUniV : Val := new nullUniD 1 [str "Hello"]
example : passes (standardTests (envOf nullUniD) nullUniV (ascii "Hello\x00")) = true := by decide +kernel
example : passes (do
    let env := envOf nullUniD
    let ser := (serOf nullUniD 1).getD .null
    let source := ascii "Hello\x00Extra"
    check (sameAs env (← createUnpack env 9 1 (.buf source)) nullUniV)
    check ((← ser.readSize) == 6)
    check (sameAs env (← createUnpack env 9 1 (.at source 0)) nullUniV)
    check ((← ser.readSize) == 6)
    check (sameAs env (← fromStream env 1 source) nullUniV)
    check ((← ser.readSize) == 6)) = true := by decide +kernel
example : raised (createUnpack (envOf nullUniD) 9 1 (.buf (ascii "Hello"))) = some .valueError ∧
    raised (fromStream (envOf nullUniD) 1 (ascii "Hello")) = some .valueError := by decide +kernel

/-! `TestUnicode.test_finality` -/
example : (match transform ctx 6 [1] (unicode .inf) with
    | .ok (.ser s) => s.isFinal ctx.clsFinal
    | _ => false) = true := by decide +kernel

/-! ### `test_base_types.py` -/

/-! `test_counted` -/
example : (match transform ctx 6 [1] (pad 2) with
    | .ok (.ser (.struct s)) => (String.ofList s.format, s.numValues)
    | _ => ("", 9)) = ("2x", 0) := by decide +kernel
example : failed (mkPad (-1)) = some .valueError := by decide +kernel

/-! `TestCustomType.test_subclassing_any`, for every byte order -/
def serializeAs (h : Hint) := get (mkSerializeAs ctx 6 [1] h)
def mutableD (bo : ByteOrder) : List (ClassId × ClassDecl) :=
  [(1, { struct [("a", annotate (.plain "MutableType") [serializeAs int16]), ("b", annotate (.plain "MutableType") [serializeAs uint32])] with
    byteOrder := bo })]
def mutable (i : Int) : Val := .custom "MutableType".length (.int i)
def isMutable : Val → Bool
  | .custom t _ => t == "MutableType".length
  | _ => false
def orders : List ByteOrder := [.default, .le, .be, .nativeStd, .native, .network]
example : orders.all (fun bo => match serOf (mutableD bo) 1 with
    | some (.struct ⟨_, some [f, g]⟩) => match f (.int 3), g (.int 4) with
      | .ok v, .ok w => isMutable v && isMutable w
      | _, _ => false
    | _ => false) = true := by decide +kernel
/-- `target_data = Base.serializer.pack(11, 42)`: with padding for the native orders. -/
def mutableData : ByteOrder → Bytes
  | .default | .native => [11, 0, 0, 0, 42, 0, 0, 0]
  | .le | .nativeStd => [11, 0, 42, 0, 0, 0]
  | .be | .network => [0, 11, 0, 0, 0, 42]
example : orders.all (fun bo => passes do
    let env := envOf (mutableD bo)
    check ((← pack env 9 ((serOf (mutableD bo) 1).getD .null) [.int 11, .int 42]) == mutableData bo)
    standardTests env (new (mutableD bo) 1 [mutable 11, mutable 42]) (mutableData bo)
    match ← createUnpack env 9 1 (.buf (mutableData bo)) with
    | .obj _ _ as => check (((getAttr? as "a").map isMutable).getD false)
    | _ => check false) = true := by decide +kernel

/-! `TestCustomType.test_custom_action` -/
def factoryD : List (ClassId × ClassDecl) :=
  [(1, struct [("a", annotate (.plain "MutableType") [get (withFactory (serializeAs int8) fun v => .ok (.custom 99 v))]), ("b", int8)])]
example : (match serOf factoryD 1 with
    | some (.struct s) => (String.ofList s.format, s.numValues, s.actions.isSome)
    | _ => ("", 0, false)) = ("2b", 2, true) := by decide +kernel
example : (match serOf factoryD 1 with
    | some (.struct ⟨_, some [f, g]⟩) => match f (.int 3), g (.int 4) with
      | .ok (.custom 99 (.int 3)), .ok (.int 4) => true
      | _, _ => false
    | _ => false) = true := by decide +kernel
example : passes (standardTests (envOf factoryD) (new factoryD 1 [.custom 99 (.int 42), .int 10]) [42, 10]) = true := by decide +kernel

/-! `TestCustomType.test_errors` -/
example : failed (mkSerializeAs ctx 6 [1] (pad 1)) = some .typeError := by decide +kernel
example : failed (mkSerializeAs ctx 6 [1] (.ser (.struct ⟨"2b".toList, Option.none⟩))) = some .typeError := by decide +kernel
example : failed (mkSerializeAs ctx 6 [1] (.unindexed "array")) = some .typeError := by decide +kernel

/-! ### `test_annotations.py` -/

/-! `test_eval_annotation`: annotations are strings -/
def classVarD : List (ClassId × ClassDecl) := [(1, struct [("a", .fwd (.classVar (.plain "A"))), ("b", .fwd int8)])]
example : attrsOf classVarD 1 = some ["b"] ∧ formatOf (serOf classVarD 1) = some "b" := by decide +kernel

/-! `test_for_annotated` -/
def isAnnotated : Hint → Bool
  | .annot .. => true
  | _ => false
example : ([bool8, int8, uint8, int16, uint16, int32, uint32, int64, uint64, float16, float32, float64, pad 3, array (header (.int 1)) int8,
    char (.int 10), char uint32, unicode (.int 10), unicode uint32].all isAnnotated) = true := by decide +kernel

/-! `test_alternate_syntax` -/
def alternateD : List (ClassId × ClassDecl) := [(1, struct [("a", .fwd (annotate (.plain "int") [int8])),
  ("b", .fwd (annotate (.plain "bytes") [char (.int 10)])), ("c", .fwd (annotate (.plain "str") [unicode (.int 15)])),
  ("d", .fwd (annotate (.plain "list[int8]") [array (header (.int 2)) int8])), ("e", .fwd (annotate .noneT [pad 3]))])]
example : attrsOf alternateD 1 = some ["a", "b", "c", "d"] := by decide +kernel

end Verif.RepoTests
