import Verif.Ops
/-
Read-to-end byte strings given any value.

`ConsumingCharSerializer` never looks at the kind of its value: it only takes its `len()`.  `Verif.pack`, `Verif.packInto` and
`Verif.packWrite` raise `TypeError` for everything but byte strings.  This is what happens to a value without `len()`, and to one
that is written to a stream (a `BytesIO` raises `TypeError`, and so does the one inside of `CompoundSerializer.pack`).  Here
are the two cases left over: `pack` alone, which hands the value back, and the slice assignment of `pack_into`, which takes
any iterable of numbers below 256.
-/
namespace Verif.Rest

/-- `ConsumingCharSerializer.pack` (`strings.py:154-156`). -/
def pack (id : SerId) (vs : List Val) : M Val := do
  let v ← M.lift (first vs)
  let n ← M.lift (pyLen v)
  setSize id n
  pure v

/-- One item of an iterable assigned to a slice of a `bytearray`. -/
def byteOf (v : Val) : Except Err Byte :=
  match v.asIndex with
  | some i => if 0 ≤ i ∧ i < 256 then .ok (UInt8.ofNat i.toNat) else .error .valueError
  | none => .error .typeError

/-- All items, the first bad one raising. -/
def bytesOf : List Val → Except Err Bytes
  | [] => .ok []
  | v :: vs => do .ok ((← byteOf v) :: (← bytesOf vs))

/-- What a slice of a `bytearray` can be assigned (`TypeError` for a `str`). -/
def assignable (v : Val) : Except Err Bytes :=
  match v.strip with
  | .bytes b => .ok b
  | .list vs => bytesOf vs
  | .tup vs => bytesOf vs
  | _ => .error .typeError

/-- `ConsumingCharSerializer.pack_into` (`strings.py:158-163`). -/
def packInto (id : SerId) (off : Nat) (vs : List Val) : M Unit := do
  let v ← M.lift (first vs)
  let n ← M.lift (pyLen v)
  setSize id n
  let b ← M.lift (assignable v)
  M.modify fun st => { st with buf := splice st.buf off b }

/-- `ConsumingCharSerializer.pack_write` (`strings.py:165-168`). -/
def packWrite (id : SerId) (vs : List Val) : M Unit := do
  let v ← M.lift (first vs)
  let n ← M.lift (pyLen v)
  setSize id n
  match v.strip with
  | .bytes b => ioWrite b
  | _ => M.throw .typeError

/-- `obj.pack()` (`structured.py:262-264`) where the class has one field, read to the end: it has no compound serializer, and
the value comes back as it is. -/
def objPack (env : Env) (v : Val) : M Val :=
  match v with
  | .obj cls bo attrs => do
    let (ci, ser) ← M.lift (objSer env cls bo)
    match ser with
    | .consuming id => do
      let vals ← M.lift (getAttrs attrs ci.attrs)
      pack id vals
    | _ => M.throw (.user 0) -- other classes: `Verif.Obj.pack`
  | _ => M.throw .attributeError

end Verif.Rest
