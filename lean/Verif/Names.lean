import Verif.Instances
import Verif.Text
/-
Fields named like something that `Structured` itself looks up on its instances: `structured.py:157-159,201-342,467-485`,
`serializers/structured.py:51-64`.

`Verif.Obj.pack` and the others take the methods, the serializer and the attribute names from the class.  Python takes them
from the instance (`self.pack`, `self._serializer`, `self.serializer`, `self.attrs`, `self.byte_order`, `self.__post_init__`),
where a field of the same name stands in the way: functions and plain class attributes are found only after the instance's
own attributes.  Here the lookups are written out, for the object whose method is called and for an object in a field
(`nested*`).  Names that Python itself treats specially (`__class__`, `__dict__`) are left out, and the values of fields
are not callable.
-/
namespace Verif.Names

/-- `self.m(…)` for a method `m`: a field of this name is found first, and cannot be called. -/
def method (attrs : List (Name × Val)) (m : Name) : Except Err Unit :=
  match getAttr? attrs m with
  | some _ => .error .typeError
  | none => .ok ()

/-- `v.m(…)` for the value `v` of a field and a method `m` of serializers.  Only an object can have something of this name,
which is a field of its own. -/
def onValue (v : Val) (m : Name) : Err :=
  match v with
  | .obj _ _ as => match getAttr? as m with
    | some _ => .typeError
    | none => .attributeError
  | _ => .attributeError

/-- `self._serializer(packing)` as far as the call of `m`, which is `prepack` or `preunpack` (`structured.py:222-226`). -/
def serializer (attrs : List (Name × Val)) (m : Name) : Except Err Unit := do
  method attrs "_serializer"
  match getAttr? attrs "serializer" with
  | some v => .error (onValue v m)
  | none => .ok ()

/-- `obj.pack()` (`structured.py:262-264`) -/
def pack (env : Env) (n : Nat) (v : Val) : M Bytes :=
  match v with
  | .obj _ _ attrs => do
    M.lift (method attrs "pack")
    M.lift (serializer attrs "prepack")
    Obj.pack env n v
  | _ => M.throw .attributeError

/-- `obj.pack_into(buffer, offset)` (`structured.py:274-281`) -/
def packInto (env : Env) (n : Nat) (off : Nat) (v : Val) : M Unit :=
  match v with
  | .obj _ _ attrs => do
    M.lift (method attrs "pack_into")
    M.lift (serializer attrs "prepack")
    Obj.packInto env n off v
  | _ => M.throw .attributeError

/-- `obj.pack_write(writable)` (`structured.py:266-272`) -/
def packWrite (env : Env) (n : Nat) (v : Val) : M Unit :=
  match v with
  | .obj _ _ attrs => do
    M.lift (method attrs "pack_write")
    M.lift (serializer attrs "prepack")
    Obj.packWrite env n v
  | _ => M.throw .attributeError

/-- The method that unpacks from a source (`structured.py:228-260`). -/
def unpackName : Src → Name
  | .buf _ => "unpack"
  | .at .. => "unpack_from"
  | .io => "unpack_read"

/-- `iter(v)` raises `TypeError`. -/
def single (v : Val) : Bool :=
  match v.strip with
  | .bytes _ | .str _ | .list _ | .tup _ | .gen => false
  | _ => true

/-- `obj.unpack(buffer)` and its variants (`structured.py:228-260`).  `self.attrs` may be the value of a field; `zip` is then
given it, after the serializer was asked for the values (only a compound serializer has read nothing by then).  A value
that can be iterated over is not modelled. -/
def unpack (env : Env) (n : Nat) (v : Val) (src : Src) : M Val :=
  match v with
  | .obj cls bo attrs => do
    M.lift (method attrs (unpackName src))
    M.lift (serializer attrs "preunpack")
    match getAttr? attrs "attrs" with
    | none => Obj.unpack env n v src
    | some w => do
      let (_, ser) ← M.lift (objSer env cls bo)
      let s ← ser.preunpack ⟨cls, false, attrs⟩
      if s.isLazy then pure ()
      else do
        let _ ← Verif.unpack env n noUpd s src
      if single w then M.throw .typeError else M.throw (.user 0)
  | _ => M.throw .attributeError

/-- `a == b` of two objects (`structured.py:337-342`) with their own `attrs`. -/
def eq (env : Env) (userEq : Val → Val → Except Err Bool) (n : Nat) (a b : Val) : Except Err Bool :=
  match a, b with
  | .obj c _ as, .obj d _ _ =>
    if c ≠ d then .ok false
    else match getAttr? as "attrs" with
      | none => pyEq env userEq n a b
      | some w => if single w then .error .typeError else .error (.user 0)
  | _, _ => pyEq env userEq n a b

/-- `cls(*values)` (`structured.py:157-159`): the last statement of the generated `__init__` is `self.__post_init__()`. -/
def init (cls : ClassId) (ci : ClassInfo) (vals : List Val) : Except Err Val :=
  if vals.length ≠ ci.attrs.length then .error .typeError
  else do
    let attrs := (ci.attrs.zip vals).foldl (fun as nv => setAttr as nv.1 nv.2) []
    method attrs "__post_init__"
    .ok (.obj cls none (← ci.postInit attrs))

/-- `byte_order == self.byte_order` (`structured.py:213`); a `ByteOrder` is a `str`. -/
def isOrder (bo : ByteOrder) (v : Val) : Bool := Val.keyEq (.str (bo.value.map Char.toNat)) v

/-- `self.serializer.with_byte_order(byte_order)` (`structured.py:215`), where the serializer may be the value of a field. -/
def orderSerializer (env : Env) (bo : ByteOrder) (attrs : List (Name × Val)) (ser : Ser) : Except Err (Option Val) :=
  match getAttr? attrs "serializer" with
  | some (.obj c b as) => do
    method as "with_byte_order"
    .ok (some (← Obj.withByteOrder env bo (.obj c b as)))
  | some _ => .error .attributeError
  | none => do
    let _ ← ser.withByteOrder bo
    .ok none

/-- The assignments to `serializer` and `byte_order` of the new object (`structured.py:217-218`), fields or not. -/
def adopt (bo : ByteOrder) (held : Option Val) (as : List (Name × Val)) : List (Name × Val) :=
  let as := match held with
    | some w => setAttr as "serializer" w
    | none => as
  match getAttr? as "byte_order" with
  | some _ => setAttr as "byte_order" (.str (bo.value.map Char.toNat))
  | none => as

/-- `obj.with_byte_order(byte_order)` (`structured.py:212-219`) -/
def withByteOrder (env : Env) (bo : ByteOrder) (v : Val) : Except Err Val :=
  match v with
  | .obj cls cur attrs => do
    method attrs "with_byte_order"
    let (ci, ser) ← objSer env cls cur
    let same := match getAttr? attrs "byte_order" with
      | some w => isOrder bo w
      | none => bo = cur.getD ci.byteOrder
    if same then .ok v
    else do
      let held ← orderSerializer env bo attrs ser
      let vals ← getAttrs attrs ci.attrs
      match ← init cls ci vals with
      | .obj c _ as => .ok (.obj c (some bo) (adopt bo held as))
      | w => .ok w
  | _ => .error .attributeError

/-- `getattr(proxy, name)` for every item of an iterable of names. -/
def getNamed (proxy : List (Name × Val)) : List Val → Except Err (List Val)
  | [] => .ok []
  | .str s :: rest => match proxy.find? (fun p => text p.1 = s) with
    | some p => do .ok (p.2 :: (← getNamed proxy rest))
    | none => .error .attributeError
  | _ :: _ => .error .typeError

/-- `_Proxy.__iter__` (`structured.py:484-485`).  Inside of the class `self.__attrs` is the attribute `_Proxy__attrs`, which a
field of that name has replaced by the time the values are collected. -/
def proxyIter (proxy : List (Name × Val)) (names : List Name) : Except Err (List Val) :=
  match getAttr? proxy "_Proxy__attrs" with
  | none => getAttrs proxy names
  | some v => do getNamed proxy (← pyIter v)

/-- `cls.create_unpack(buffer)` and its variants (`structured.py:284-327,467-485`) -/
def create (env : Env) (n : Nat) (cls : ClassId) (src : Src) : M Val :=
  match env.classes cls with
  | none => M.throw .attributeError
  | some ci => do
    let s ← ci.serializer.preunpack ⟨cls, true, []⟩
    let vals ← Verif.unpack env n (assignVals ci.attrs) s src
    if vals.length ≠ ci.attrs.length then M.throw .valueError
    else do
      let args ← M.lift (proxyIter ((ci.attrs.zip vals).foldl (fun as nv => setAttr as nv.1 nv.2) []) ci.attrs)
      M.lift (init cls ci args)

/-- `StructuredSerializer.pack` (`serializers/structured.py:51-54`) for an object in a field. -/
def nestedPack (env : Env) (n : Nat) (id : SerId) (v : Val) : M Bytes :=
  match v with
  | .obj _ _ attrs => do
    M.lift (method attrs "pack")
    M.lift (serializer attrs "prepack")
    let (b, ser) ← objPack env (Verif.pack env n) v
    setSize id (← ser.readSize)
    pure b
  | _ => M.throw .attributeError

/-- `StructuredSerializer.pack_into` (`serializers/structured.py:56-60`) for an object in a field. -/
def nestedPackInto (env : Env) (n : Nat) (id : SerId) (off : Nat) (v : Val) : M Unit :=
  match v with
  | .obj _ _ attrs => do
    M.lift (method attrs "pack_into")
    M.lift (serializer attrs "prepack")
    let ser ← objPackInto env (Verif.packInto env n) off v
    setSize id (← ser.readSize)
  | _ => M.throw .attributeError

/-- `StructuredSerializer.pack_write` (`serializers/structured.py:62-64`) for an object in a field. -/
def nestedPackWrite (env : Env) (n : Nat) (id : SerId) (v : Val) : M Unit :=
  match v with
  | .obj _ _ attrs => do
    M.lift (method attrs "pack_write")
    M.lift (serializer attrs "prepack")
    let ser ← objPackWrite env (Verif.packWrite env n) v
    setSize id (← ser.readSize)
  | _ => M.throw .attributeError

end Verif.Names
