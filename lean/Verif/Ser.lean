import Verif.Structs
/-
Serializer objects and the parts of `structured/serializers/*.py` that do not pack or unpack:
`num_values`, `size`, `get_final`, `with_byte_order`, `__add__`, `prepack`/`preunpack`.
-/
namespace Verif

/-- `float == int` by exact value. -/
def floatEqInt (f : UInt64) (i : Int) : Bool :=
  let neg := decide (0x8000000000000000 ≤ f.toNat)
  let e := f.toNat / 2 ^ 52 % 2 ^ 11
  let m := f.toNat % 2 ^ 52
  if e = 2047 then false
  else
    -- the value is ± mm * 2 ^ (ee - 1075)
    let mm : Nat := if e = 0 then m else m + 2 ^ 52
    let ee : Nat := if e = 0 then 1 else e
    let v : Int := if neg then -(mm : Int) else mm
    if 1075 ≤ ee then v * 2 ^ (ee - 1075) == i else v == i * 2 ^ (1075 - ee)

/-- `float == float`: NaN differs from everything, the two zeros are equal. -/
def floatEq (f g : UInt64) : Bool :=
  let isNaN (x : UInt64) := decide (0x7FF0000000000000 < x.toNat % 2 ^ 63)
  !isNaN f && !isNaN g && (f == g || (f.toNat % 2 ^ 63 == 0 && g.toNat % 2 ^ 63 == 0))

mutual
/-- `==` of hashable values, as used for dictionary keys (`unions.py:82,88`, `conditional.py:67`). -/
def Val.keyEq : Val → Val → Bool
  | .none, .none => true
  | .int i, .int j => i == j
  | .int i, .bool b => i == (if b then 1 else 0)
  | .bool b, .int i => i == (if b then 1 else 0)
  | .bool a, .bool b => a == b
  | .float f, .float g => floatEq f g
  | .float f, .int i => floatEqInt f i
  | .int i, .float f => floatEqInt f i
  | .float f, .bool b => floatEqInt f (if b then 1 else 0)
  | .bool b, .float f => floatEqInt f (if b then 1 else 0)
  | .bytes a, .bytes b => a == b
  | .str a, .str b => a == b
  | .tup a, .tup b => Val.keyEqList a b
  | _, _ => false
def Val.keyEqList : List Val → List Val → Bool
  | [], [] => true
  | a :: as, b :: bs => a.keyEq b && Val.keyEqList as bs
  | _, _ => false
end

mutual
/-- `hash(v)` does not raise.  Lists are unhashable; so are `Structured` instances, which define
`__eq__` and no `__hash__` (`structured.py:337`). -/
def Val.hashable : Val → Bool
  | .list _ => false
  | .obj .. => false
  | .tup vs => Val.hashableList vs
  | _ => true
def Val.hashableList : List Val → Bool
  | [] => true
  | v :: vs => v.hashable && Val.hashableList vs
end

/-- A user callable inspecting the object being packed or unpacked. -/
abbrev Decider := PObj → Except Err Val

/-- Serializer objects.  `id` names the object's mutable attributes (see `Cell`). -/
inductive Ser
  /-- `api.py:198-230` `NullSerializer` -/
  | null
  /-- `structs.py:92-315` `StructSerializer`, `StructActionSerializer` -/
  | struct (s : StructSer)
  /-- `strings.py:44-140` `DynamicCharSerializer` -/
  | dynChar (id : SerId) (st : StructSer)
  /-- `strings.py:143-181` `ConsumingCharSerializer` -/
  | consuming (id : SerId)
  /-- `strings.py:184-251` `TerminatedCharSerializer` -/
  | terminated (id : SerId) (term : Byte)
  /-- `strings.py:254-346` `NETCharSerializer` -/
  | net (id : SerId)
  /-- `strings.py:362-399` `UnicodeSerializer` -/
  | unicode (inner : Ser) (enc : Val → Except Err Bytes) (dec : Bytes → Except Err PyStr)
  /-- `arrays.py:33-174` `ArraySerializer`; `hdr = none` is a `NullSerializer` header -/
  | array (id : SerId) (hdr : Option StructSer) (item : Ser) (staticLen : Int)
  /-- `arrays.py:177-223` `StaticStructArraySerializer`; `ser = item * count` -/
  | staticArr (count : Int) (item : StructSer) (ser : Option StructSer)
  /-- `arrays.py:226-295` `DynamicStructArraySerializer` -/
  | dynArr (id : SerId) (cnt item : StructSer)
  /-- `tuples.py:26-67` `TupleSerializer` -/
  | tuple (id : SerId) (inner : Ser)
  /-- `unions.py:108-166` `LookbackDecider`; the dictionary is `keys` with `opts`; `dflt = null`
  means no default -/
  | lookback (id : SerId) (decider : Decider) (keys : List Val) (opts : List Ser) (dflt : Ser)
  /-- `unions.py:169-232` `LookaheadDecider` -/
  | lookahead (id : SerId) (readAhead : Ser) (decider : Decider) (keys : List Val)
      (opts : List Ser) (dflt : Ser)
  /-- `conditional.py:38-70` `ConditionalSerializer` -/
  | cond (ser : Ser) (condition : Decider) (defaults : List Val)
  /-- `conditional.py:73-98` `SkipSerializer` -/
  | skip (vals : List Val)
  /-- `serializers/structured.py:36-81` `StructuredSerializer` -/
  | structured (id : SerId) (cls : ClassId)
  /-- `serializers/self.py:21-33` `SelfSerializer`; `id` is used for the `StructuredSerializer`
  objects that `prepack`/`preunpack` make -/
  | selfT (id : SerId)
  /-- `api.py:233-366` `CompoundSerializer` -/
  | compound (id : SerId) (sers : List Ser)
  /-- `api.py:369-407` `_SpecializedCompoundSerializer`; its own `size` and `origin.size` are always
  set together, so the origin's cell is used for both -/
  | specialized (id : SerId) (part : PObj) (sers : List Ser)

instance : Inhabited Ser := ⟨.null⟩

/-- What `__init_subclass__` stores on a class (`structured.py:344-419`). -/
structure ClassInfo where
  attrs : List Name
  serializer : Ser
  byteOrder : ByteOrder
  /-- the user's `__post_init__` (`structured.py:207-210`), acting on the instance attributes -/
  postInit : List (Name × Val) → Except Err (List (Name × Val)) := .ok

/-- The classes of a program, and the platform. -/
structure Env where
  plat : Platform
  classes : ClassId → Option ClassInfo

mutual
/-- The `num_values` attribute: `api.py:202,241`, `structs.py:115`, `strings.py:52,146,187,259,363`,
`arrays.py:46,187,238`, `tuples.py:27`, `unions.py:37`, `conditional.py:50,78`,
`serializers/structured.py:41`, `self.py:22`.  `DynamicStructArraySerializer` sets 0. -/
def Ser.numValues : Ser → Nat
  | .null => 0
  | .struct s => s.numValues
  | .dynArr .. => 0
  | .cond s _ _ => s.numValues
  | .skip vs => vs.length
  | .compound _ ss => Ser.numValuesList ss
  | .specialized _ _ ss => Ser.numValuesList ss
  | _ => 1
def Ser.numValuesList : List Ser → Nat
  | [] => 0
  | s :: ss => s.numValues + Ser.numValuesList ss
end

/-- Reading the `size` attribute.  `ConditionalSerializer` and `SelfSerializer` never set one. -/
def Ser.readSize : Ser → M Nat
  | .null => pure 0
  | .struct s => pure s.size
  | .dynChar id _ => getCellSize id
  | .consuming id => getCellSize id
  | .terminated id _ => getCellSize id
  | .net id => getCellSize id
  | .unicode inner _ _ => inner.readSize             -- strings.py:375-377
  | .array id .. => getCellSize id
  | .staticArr _ _ ser => pure (ser.elim 0 StructSer.size)   -- arrays.py:189-191
  | .dynArr id .. => getCellSize id
  | .tuple _ inner => inner.readSize                 -- tuples.py:35-37
  | .lookback id .. => getCellSize id
  | .lookahead id .. => getCellSize id
  | .cond .. => M.throw .attributeError
  | .skip _ => pure 0
  | .structured id _ => getCellSize id
  | .selfT _ => M.throw .attributeError
  | .compound id _ => getCellSize id
  | .specialized id .. => getCellSize id

/-- `type(serializer).prepack/preunpack` is overridden (`api.py:246-250`). -/
def Ser.overridesPre : Ser → Bool
  | .array .. | .tuple .. | .lookback .. | .lookahead .. | .cond .. | .selfT .. | .compound ..
  | .specialized .. => true
  | _ => false

/-- `api.py:246-250` `_needs_preprocess` -/
def needsPreprocess (ss : List Ser) : Bool := ss.any Ser.overridesPre

/-- `self.serializers[self.condition(partial_object)]` (`conditional.py:46-49,67`): indexing
`{True: serializer, False: SkipSerializer(default)}`. -/
def condPick (ser : Ser) (defaults : List Val) (r : Val) : Except Err Ser :=
  if ¬ r.hashable then .error .typeError
  else if r.keyEq (.bool true) then .ok ser
  else if r.keyEq (.bool false) then .ok (.skip defaults)
  else .error .keyError

/-- `SelfSerializer.preunpack` reads `partial_object.cls` (`self.py:27-28`).  Only a `_Proxy` has it
(`structured.py:477`), and a field called `cls` hides it; `StructuredSerializer(value)` then fails
when used, modelled as failing here. -/
def clsOfPartial (p : PObj) : Except Err ClassId :=
  match getAttr? p.attrs "cls" with
  | some _ => .error .attributeError
  | none => if p.isProxy then .ok p.cls else .error .attributeError

/-- `prepack(partial_object)`: `api.py:68-78,255-265,383-384`, `arrays.py:100-102`,
`tuples.py:39-41`, `unions.py:70-72`, `conditional.py:66-67`, `self.py:24-25`. -/
def Ser.prepack (s : Ser) (p : PObj) : M Ser :=
  match s with
  | .array id .. => do setPart id p; pure s
  | .tuple id _ => do setPart id p; pure s
  | .lookback id .. => do setPart id p; pure s
  | .lookahead id .. => do setPart id p; pure s
  | .cond ser c defs => M.lift (do condPick ser defs (← c p))
  | .selfT id => pure (.structured id p.cls)
  | .compound id ss => pure (if needsPreprocess ss then .specialized id p ss else .compound id ss)
  | s => pure s

/-- `preunpack(partial_object)`: `api.py:80-90,258-265,383-384`, `arrays.py:104-106`,
`tuples.py:54-56`, `unions.py:74-76`, `conditional.py:69-70`, `self.py:27-28`. -/
def Ser.preunpack (s : Ser) (p : PObj) : M Ser :=
  match s with
  | .selfT id => M.lift (do pure (.structured id (← clsOfPartial p)))
  | s => s.prepack p

mutual
/-- `get_final() is not None` (`api.py:161-171,252-253`, `strings.py:151-152,372-373`,
`tuples.py:32-33`, `unions.py:56-59`, `conditional.py:58-59`, `serializers/structured.py:48-49`).
`clsFinal` says whether a class's serializer is final.  An empty compound would raise; none exists. -/
def Ser.isFinal (clsFinal : ClassId → Bool) : Ser → Bool
  | .consuming _ => true
  | .unicode inner _ _ => inner.isFinal clsFinal
  | .tuple _ inner => inner.isFinal clsFinal
  | .lookback _ _ _ opts _ => Ser.anyFinal clsFinal opts
  | .lookahead _ _ _ _ opts _ => Ser.anyFinal clsFinal opts
  | .cond s _ _ => s.isFinal clsFinal
  | .structured _ c => clsFinal c
  | .compound _ ss => Ser.lastFinal clsFinal ss
  | .specialized _ _ ss => Ser.lastFinal clsFinal ss
  | _ => false
def Ser.anyFinal (clsFinal : ClassId → Bool) : List Ser → Bool
  | [] => false
  | s :: ss => s.isFinal clsFinal || Ser.anyFinal clsFinal ss
def Ser.lastFinal (clsFinal : ClassId → Bool) : List Ser → Bool
  | [] => false
  | [s] => s.isFinal clsFinal
  | _ :: t :: ss => Ser.lastFinal clsFinal (t :: ss)
end

/-- Number of a byte order, for the ids of copies. -/
def ByteOrder.num : ByteOrder → Nat
  | .default => 0 | .le => 1 | .be => 2 | .nativeStd => 3 | .native => 4 | .network => 5

/-- `item_serializer * count` in `StaticStructArraySerializer.__init__` (`arrays.py:182-187`). -/
def mkStaticArr (count : Int) (item : StructSer) : Except Err Ser := do
  let ser ← item.mul count
  .ok (.staticArr count item ser)

def Ser.isCompound : Ser → Bool
  | .compound .. => true
  | .specialized .. => true
  | _ => false

/-- `api.py:238-250` `CompoundSerializer.__init__` -/
def mkCompound (id : SerId) (ss : List Ser) : Except Err Ser :=
  if ss.any Ser.isCompound then .error .typeError else .ok (.compound id ss)

mutual
/-- `with_byte_order`: `api.py:152-159,324-328`, `structs.py:120-125,259-263`, `strings.py:58-59`,
`arrays.py:48-53,193-194,241-245`, `conditional.py:61-64`.  All other serializers inherit the version
that returns `self`. -/
def Ser.withByteOrder (bo : ByteOrder) : Ser → Except Err Ser
  | .struct s => do .ok (.struct (← s.withByteOrder bo))
  | .dynChar id st => do .ok (.dynChar (bo.num :: id) (← st.withByteOrder bo))
  | .array id hdr item sl => do
    let hdr' ← match hdr with
      | none => .ok none
      | some h => do .ok (some (← h.withByteOrder bo))
    let item' ← item.withByteOrder bo
    .ok (.array (bo.num :: id) hdr' item' sl)
  | .staticArr count item _ => do mkStaticArr count (← item.withByteOrder bo)
  | .dynArr id cnt item => do
    let cnt' ← cnt.withByteOrder bo
    let item' ← item.withByteOrder bo
    .ok (.dynArr (bo.num :: id) cnt' item')
  | .cond ser c defs => do
    let ser' ← ser.withByteOrder bo
    if ser'.numValues ≠ defs.length then .error .valueError else .ok (.cond ser' c defs)
  | .compound id ss => do mkCompound (bo.num :: id) (← Ser.withByteOrderList bo ss)
  | .specialized id _ ss => do mkCompound (bo.num :: id) (← Ser.withByteOrderList bo ss)
  | s => .ok s
def Ser.withByteOrderList (bo : ByteOrder) : List Ser → Except Err (List Ser)
  | [] => .ok []
  | s :: ss => do
    let s' ← s.withByteOrder bo
    let ss' ← Ser.withByteOrderList bo ss
    .ok (s' :: ss')
end

/-- `a + b` for serializers that are not `CompoundSerializer`s (`api.py:173-192,224-230`,
`structs.py:156-170,275-299`); `id` is the identity of a newly made compound. -/
def Ser.addSimple (clsFinal : ClassId → Bool) (id : SerId) (a b : Ser) : Except Err Ser :=
  match a, b with
  | .null, b => .ok b
  | a, .null => .ok a
  | .struct x, .struct y => do .ok (.struct (← x.add y))
  | a, b => if a.isFinal clsFinal then .error .typeError else mkCompound id [a, b]

/-- `api.py:342-354` `_add_impl`; the list is kept reversed, `last` being `serializers[-1]`. -/
def addImpl (clsFinal : ClassId → Bool) (id : SerId) : List Ser → Ser → List Ser → Except Err (List Ser)
  | front, last, [] => .ok (front ++ [last])
  | front, last, cand :: rest => do
    let joined ← last.addSimple clsFinal id cand
    if joined.isCompound then addImpl clsFinal id (front ++ [last]) cand rest
    else addImpl clsFinal id front joined rest

/-- `a + b` as Python evaluates it: `__add__`, then the reflected method. -/
def Ser.add (clsFinal : ClassId → Bool) (id : SerId) (a b : Ser) : Except Err Ser :=
  match a, b with
  | .null, b => .ok b                                        -- api.py:224-227
  | .compound _ xs, .compound _ ys => do                     -- api.py:330-340
    match xs.reverse with
    | [] => .error .indexError
    | last :: front => mkCompound id (← addImpl clsFinal id front.reverse last ys)
  | .compound _ xs, b => do
    match xs.reverse with
    | [] => .error .indexError
    | last :: front => mkCompound id (← addImpl clsFinal id front.reverse last [b])
  | a, .null => .ok a                                        -- api.py:176-178,229-230
  | a, .compound _ ys => do                                  -- api.py:179-187,356-366
    if a.isFinal clsFinal then .error .typeError
    else mkCompound id (← addImpl clsFinal id [] a ys)
  | a, b => a.addSimple clsFinal id b

/-- `sum(serializers, NullSerializer())` (`structured.py:402-404`, `tuples.py:30`); `id k` is the
identity of the compound made by the `k`-th addition. -/
def sumSers (clsFinal : ClassId → Bool) (id : SerId) (ss : List Ser) : Except Err Ser :=
  ss.foldlM (fun acc s => acc.add clsFinal id s) .null

end Verif
