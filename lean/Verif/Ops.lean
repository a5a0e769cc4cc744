import Verif.Ser
/-
The packing and unpacking operations of every serializer and of `Structured` classes.

`n` is the remaining recursion depth: every nested library call passes `n - 1`, and running out is
Python's `RecursionError`.  (CPython counts frames, several per nested call; only the existence of
a limit is modelled.)  Offsets are natural numbers (negative offsets are not modelled).
-/
namespace Verif

/-- `_single_char` (`strings.py:36`) -/
def singleChar : StructSer := ⟨['s'], none⟩
/-- `NETCharSerializer.short_len` (`strings.py:265`) -/
def shortLen : StructSer := ⟨['B'], none⟩
/-- `NETCharSerializer.long_len` (`strings.py:266`) -/
def longLen : StructSer := ⟨['H'], none⟩

/-- `len(v)` -/
def pyLen (v : Val) : Except Err Nat :=
  match v.strip with
  | .bytes b => .ok b.length
  | .str s => .ok s.length
  | .list vs => .ok vs.length
  | .tup vs => .ok vs.length
  | _ => .error .typeError

/-- `iter(v)`, run to the end -/
def pyIter (v : Val) : Except Err (List Val) :=
  match v.strip with
  | .bytes b => .ok (b.map fun x => .int x.toNat)
  | .str s => .ok (s.map fun c => .str [c])
  | .list vs => .ok vs
  | .tup vs => .ok vs
  | _ => .error .typeError

/-- `values[0]` -/
def first (vs : List Val) : Except Err Val :=
  match vs with
  | v :: _ => .ok v
  | [] => .error .indexError

/-- A value used as an `int`. -/
def needInt (v : Val) : Except Err Int :=
  match v.asIndex with
  | some i => .ok i
  | none => .error .typeError

/-! ### Leaf packing helpers -/

/-- `DynamicCharSerializer._st_count_data` (`strings.py:61-76`): the struct and the values to pack. -/
def dynCharPrep (st : StructSer) (vs : List Val) : Except Err (StructSer × List Val) := do
  let raw ← first vs
  let count ← pyLen raw
  let chars ← singleChar.matmul count
  let s ← st.addN chars
  .ok (s, [.int count, raw])

/-- `raw_data[-1] != self.terminator` (`strings.py:199`) compares an `int` with a `bytes`, which is
always true. -/
def intNeBytes (_ : UInt8) (_ : Bytes) : Bool := true

/-- `TerminatedCharSerializer._st_data` (`strings.py:196-204`): the data with its terminator. -/
def termData (term : Byte) (vs : List Val) : Except Err Bytes := do
  let raw ← first vs
  match raw.strip with
  | .bytes b => .ok (match b.getLast? with
    | none => b ++ [term]
    | some l => if intNeBytes l [term] then b ++ [term] else b)
  | .list _ => .error .structError
  | _ => .error .typeError

/-- The length marker of `NETCharSerializer._st_count_data` (`strings.py:281`). -/
def netMark (count : Nat) : Nat := 0x80 ||| (count &&& 0x7F) ||| ((count &&& 0xFF80) <<< 1)

/-- `NETCharSerializer._decode_length` (`strings.py:302-307`) -/
def netDecode (count : Nat) : Except Err Nat :=
  let c := (count &&& 0x7F) ||| ((count >>> 1) &&& 0xFF80)
  if 0x7FFF < c then .error .valueError else .ok c

/-- `NETCharSerializer._st_count_data` (`strings.py:269-283`) -/
def netPrep (vs : List Val) : Except Err (StructSer × List Val) := do
  let raw ← first vs
  let count ← pyLen raw
  if count < 128 then do
    let s ← shortLen.addN (← singleChar.matmul count)
    .ok (s, [.int count, raw])
  else if 0x7FFF < count then .error .valueError
  else do
    let s ← longLen.addN (← singleChar.matmul count)
    .ok (s, [.int (netMark count), raw])

/-- `ConsumingCharSerializer.pack` argument (`strings.py:154-168`). -/
def consumeData (vs : List Val) : Except Err Bytes := do
  let raw ← first vs
  match raw.strip with
  | .bytes b => .ok b
  | _ => .error .typeError

/-- Number of values of an array header (`NullSerializer` has none). -/
def hdrNum (hdr : Option StructSer) : Nat := hdr.elim 0 StructSer.numValues

/-- `header_serializer.size` -/
def hdrSize (hdr : Option StructSer) : Nat := hdr.elim 0 StructSer.size

/-- `ArraySerializer._header_pack_values` (`arrays.py:55-76`) -/
def headerPackValues (hdr : Option StructSer) (staticLen : Int) (count dataSize : Nat) :
    Except Err (List Val) :=
  if 0 ≤ staticLen then
    if (count : Int) ≠ staticLen then .error .valueError
    else if hdrNum hdr = 1 then .ok [.int dataSize]
    else .ok []
  else if hdrNum hdr = 2 then .ok [.int count, .int dataSize]
  else .ok [.int count]

/-- `ArraySerializer._header_unpack_values` (`arrays.py:78-92`): (count, data size or -1). -/
def headerUnpackValues (hdr : Option StructSer) (staticLen : Int) (vs : List Val) :
    Except Err (Int × Int) :=
  if 0 ≤ staticLen then
    if hdrNum hdr = 1 then do .ok (staticLen, ← needInt (← first vs))
    else .ok (staticLen, -1)
  else if hdrNum hdr = 2 then
    match vs with
    | [c, d] => do .ok (← needInt c, ← needInt d)
    | _ => .error .valueError
  else do .ok (← needInt (← first vs), -1)

/-- `ArraySerializer._check_data_size` (`arrays.py:94-98`) -/
def checkDataSize (expected : Int) (actual : Nat) : Except Err Unit :=
  if 0 ≤ expected ∧ expected ≠ (actual : Int) then .error .valueError else .ok ()

/-- `header_serializer.pack(*values)`; a `NullSerializer` ignores its arguments (`api.py:204-205`). -/
def packOpt (P : Platform) (s : Option StructSer) (vs : List Val) : Except Err Bytes :=
  match s with
  | none => .ok []
  | some s => s.pack P vs

/-- `StaticStructArraySerializer` packing (`arrays.py:196-214`): length check, then the values. -/
def staticArrPrep (count : Int) (vs : List Val) : Except Err (List Val) := do
  let v ← first vs
  let len ← pyLen v
  if (len : Int) ≠ count then .error .valueError else pyIter v

/-- `DynamicStructArraySerializer._packer` (`arrays.py:247-257`) and the argument list of `261`. -/
def dynArrPrep (cnt item : StructSer) (vs : List Val) : Except Err (StructSer × List Val) := do
  let v ← first vs
  let count ← pyLen v
  let s ← if count = 0 then StructSer.mkPlain cnt.format .default
    else do cnt.addN (← item.mul count)
  let items ← pyIter v
  .ok (s, .int ((s.numValues : Int) - 1) :: items)

/-- `result_map[decider_result]` / `result_map.get(decider_result, default)` (`unions.py:80-88`). -/
def lookupOpt (keys : List Val) (opts : List Ser) (r : Val) : Option Ser :=
  ((keys.zip opts).find? (fun p => p.1.keyEq r)).map (·.2)

def unionPick (keys : List Val) (opts : List Ser) (dflt : Ser) (r : Val) : Except Err Ser :=
  if ¬ r.hashable then .error .typeError
  else match lookupOpt keys opts r with
    | some s => .ok s
    | none => match dflt with
      | .null => .error .valueError
      | d => .ok d

/-- `AUnion.get_serializer` (`unions.py:78-92`) -/
def getSerializer (packing : Bool) (id : SerId) (keys : List Val) (opts : List Ser) (dflt : Ser)
    (r : Val) : M Ser := do
  let s ← M.lift (unionPick keys opts dflt r)
  let p ← getPart id
  if packing then s.prepack p else s.preunpack p

/-- The serializer an instance uses: the class's, or the copy made by
`Structured.with_byte_order` (`structured.py:212-219`). -/
def objSer (env : Env) (cls : ClassId) (bo : Option ByteOrder) : Except Err (ClassInfo × Ser) :=
  match env.classes cls with
  | none => .error .attributeError
  | some ci => match bo with
    | none => .ok (ci, ci.serializer)
    | some b => do .ok (ci, ← ci.serializer.withByteOrder b)

/-- `type(self)._attrgetter(self)` (`utils.py:53-64`) -/
def getAttrs (attrs : List (Name × Val)) : List Name → Except Err (List Val)
  | [] => .ok []
  | a :: as => match getAttr? attrs a with
    | some v => do .ok (v :: (← getAttrs attrs as))
    | none => .error .attributeError

/-- `_iter_packers` driving `CompoundSerializer.pack` (`api.py:267-287,386-398`): `pre` is `prepack`
for a specialized compound. Returns the bytes and the total of the sizes. -/
def packLoop (packN : Ser → List Val → M Bytes) (pre : Ser → M Ser) :
    List Ser → List Val → M (Bytes × Nat)
  | [], _ => pure ([], 0)
  | s :: ss, vals => do
    let s' ← pre s
    let b ← packN s' (vals.take s'.numValues)
    let sz ← s'.readSize
    let (bs, total) ← packLoop packN pre ss (vals.drop s'.numValues)
    pure (b ++ bs, sz + total)

/-- The loop of `ArraySerializer.pack` (`arrays.py:112-114`). -/
def packItems (packN : Ser → List Val → M Bytes) (item : Ser) : List Val → M (Bytes × Nat)
  | [] => pure ([], 0)
  | v :: vs => do
    let b ← packN item [v]
    let sz ← item.readSize
    let (bs, total) ← packItems packN item vs
    pure (b ++ bs, sz + total)

/-- `Structured.pack` (`structured.py:262-264`); also returns `values.serializer`. -/
def objPack (env : Env) (packN : Ser → List Val → M Bytes) (v : Val) : M (Bytes × Ser) :=
  match v with
  | .obj cls bo attrs => do
    let (ci, ser) ← M.lift (objSer env cls bo)
    let s ← ser.prepack ⟨cls, false, attrs⟩
    let vals ← M.lift (getAttrs attrs ci.attrs)
    let b ← packN s vals
    pure (b, ser)
  | _ => M.throw .attributeError

/-- `pack(*values)` of every serializer: `api.py:204-205,283-287`, `struct.Struct.pack`,
`strings.py:78-81,154-156,206-208,285-287,379-380`, `arrays.py:108-118,202-204,259-261`,
`tuples.py:43-44`, `unions.py:134-138,193-198`, `conditional.py:80-81`,
`serializers/structured.py:51-54`. -/
def pack (env : Env) : Nat → Ser → List Val → M Bytes
  | 0, _, _ => M.throw .recursionError
  | n + 1, s, vs =>
    match s with
    | .null => pure []
    | .struct st => M.lift (st.pack env.plat vs)
    | .dynChar id st => do
      let (s, vals) ← M.lift (dynCharPrep st vs)
      setSize id s.size
      M.lift (s.pack env.plat vals)
    | .consuming id => do
      let b ← M.lift (consumeData vs)
      setSize id b.length
      pure b
    | .terminated id term => do
      let b ← M.lift (termData term vs)
      setSize id b.length
      M.lift (do packOpt env.plat (← singleChar.matmul b.length) [.bytes b])
    | .net id => do
      let (s, vals) ← M.lift (netPrep vs)
      setSize id s.size
      M.lift (s.pack env.plat vals)
    | .unicode inner enc _ => do
      let b ← M.lift (do enc (← first vs))
      pack env n inner [.bytes b]
    | .array id hdr item sl => do
      let p ← getPart id
      let item' ← item.prepack p
      let v ← M.lift (first vs)
      let items ← M.lift (pyIter v)
      let (data, size) ← packItems (pack env n) item' items
      let hv ← M.lift (headerPackValues hdr sl items.length size)
      let h ← M.lift (packOpt env.plat hdr hv)
      setSize id (hdrSize hdr + size)
      pure (h ++ data)
    | .staticArr count _ ser => do
      let items ← M.lift (staticArrPrep count vs)
      M.lift (packOpt env.plat ser items)
    | .dynArr id cnt item => do
      let (s, vals) ← M.lift (dynArrPrep cnt item vs)
      setSize id s.size
      M.lift (s.pack env.plat vals)
    | .tuple id inner => match vs with
      | [v] => do
        let p ← getPart id
        let inner' ← inner.prepack p
        let vals ← M.lift (pyIter v)
        pack env n inner' vals
      | _ => M.throw .typeError
    | .lookback id decider keys opts dflt => do
      let p ← getPart id
      let r ← M.lift (decider p)
      let s ← getSerializer true id keys opts dflt r
      let b ← pack env n s vs
      setSize id (← s.readSize)
      pure b
    | .lookahead id _ decider keys opts dflt => do
      let p ← getPart id
      let r ← M.lift (decider p)
      let s ← getSerializer true id keys opts dflt r
      let b ← pack env n s vs
      setSize id (← s.readSize)
      pure b
    | .cond .. => M.throw .notImplementedError
    | .skip _ => pure []
    | .structured id _ => match vs with
      | [v] => do
        let (b, ser) ← objPack env (pack env n) v
        setSize id (← ser.readSize)
        pure b
      | _ => M.throw .typeError
    | .selfT _ => M.throw .notImplementedError
    | .compound id ss => do
      let (b, total) ← packLoop (pack env n) pure ss vs
      setSize id total
      pure b
    | .specialized id p ss => do
      let (b, total) ← packLoop (pack env n) (fun s => s.prepack p) ss vs
      setSize id total
      pure b

/-! ### `pack_into` -/

/-- `StructSerializer.pack_into` on the buffer in the state. -/
def structPackIntoM (env : Env) (s : StructSer) (off : Nat) (vs : List Val) : M Unit := fun st =>
  match s.packInto env.plat st.buf off vs with
  | (b, none) => .ok () { st with buf := b }
  | (b, some e) => .err e { st with buf := b }

def packIntoOpt (env : Env) (s : Option StructSer) (off : Nat) (vs : List Val) : M Unit :=
  match s with
  | none => pure ()
  | some s => structPackIntoM env s off vs

/-- `_iter_packers` driving `CompoundSerializer.pack_into` (`api.py:289-296`); returns the end of
the packed region relative to the start. -/
def packIntoLoop (packN : Ser → Nat → List Val → M Unit) (pre : Ser → M Ser) (off : Nat) :
    Nat → List Ser → List Val → M Nat
  | size, [], _ => pure size
  | size, s :: ss, vals => do
    let s' ← pre s
    packN s' (off + size) (vals.take s'.numValues)
    let sz ← s'.readSize
    packIntoLoop packN pre off (size + sz) ss (vals.drop s'.numValues)

/-- The loop of `ArraySerializer.pack_into` (`arrays.py:126-128`). -/
def packIntoItems (packN : Ser → Nat → List Val → M Unit) (item : Ser) (off : Nat) :
    Nat → List Val → M Nat
  | size, [] => pure size
  | size, v :: vs => do
    packN item (off + size) [v]
    let sz ← item.readSize
    packIntoItems packN item off (size + sz) vs

/-- `Structured.pack_into` (`structured.py:274-281`); returns `values.serializer`. -/
def objPackInto (env : Env) (packN : Ser → Nat → List Val → M Unit) (off : Nat) (v : Val) : M Ser :=
  match v with
  | .obj cls bo attrs => do
    let (ci, ser) ← M.lift (objSer env cls bo)
    let s ← ser.prepack ⟨cls, false, attrs⟩
    let vals ← M.lift (getAttrs attrs ci.attrs)
    packN s off vals
    pure ser
  | _ => M.throw .attributeError

/-- `pack_into(buffer, offset, *values)` of every serializer: `api.py:207-210,289-296`,
`struct.Struct.pack_into`, `strings.py:83-96,158-163,210-214,289-296,382-385`,
`arrays.py:120-131,206-210,263-267`, `tuples.py:46-49`, `unions.py:140-143,200-204`,
`conditional.py:83-86`, `serializers/structured.py:56-60`. -/
def packInto (env : Env) : Nat → Ser → Nat → List Val → M Unit
  | 0, _, _, _ => M.throw .recursionError
  | n + 1, s, off, vs =>
    match s with
    | .null => pure ()
    | .struct st => structPackIntoM env st off vs
    | .dynChar id st => do
      let (s, vals) ← M.lift (dynCharPrep st vs)
      setSize id s.size
      structPackIntoM env s off vals
    | .consuming id => do
      let b ← M.lift (consumeData vs)
      setSize id b.length
      -- slice assignment; a `bytearray` grows when the slice reaches past its end
      M.modify fun st => { st with buf := splice st.buf off b }
    | .terminated id term => do
      let b ← M.lift (termData term vs)
      setSize id b.length
      let s ← M.lift (singleChar.matmul b.length)
      packIntoOpt env s off [.bytes b]
    | .net id => do
      let (s, vals) ← M.lift (netPrep vs)
      setSize id s.size
      structPackIntoM env s off vals
    | .unicode inner enc _ => do
      let b ← M.lift (do enc (← first vs))
      packInto env n inner off [.bytes b]
    | .array id hdr item sl => do
      let v ← M.lift (first vs)
      let p ← getPart id
      let item' ← item.prepack p
      let items ← M.lift (pyIter v)
      let size ← packIntoItems (packInto env n) item' off (hdrSize hdr) items
      let hv ← M.lift (headerPackValues hdr sl items.length (size - hdrSize hdr))
      setSize id size
      packIntoOpt env hdr off hv
    | .staticArr count _ ser => do
      let items ← M.lift (staticArrPrep count vs)
      packIntoOpt env ser off items
    | .dynArr id cnt item => do
      let (s, vals) ← M.lift (dynArrPrep cnt item vs)
      setSize id s.size
      structPackIntoM env s off vals
    | .tuple id inner => match vs with
      | [v] => do
        let p ← getPart id
        let inner' ← inner.prepack p
        let vals ← M.lift (pyIter v)
        packInto env n inner' off vals
      | _ => M.throw .typeError
    | .lookback id decider keys opts dflt => do
      let p ← getPart id
      let r ← M.lift (decider p)
      let s ← getSerializer true id keys opts dflt r
      packInto env n s off vs
      setSize id (← s.readSize)
    | .lookahead id _ decider keys opts dflt => do
      let p ← getPart id
      let r ← M.lift (decider p)
      let s ← getSerializer true id keys opts dflt r
      packInto env n s off vs
      setSize id (← s.readSize)
    | .cond .. => M.throw .notImplementedError
    | .skip _ => pure ()
    | .structured id _ => match vs with
      | [v] => do
        let ser ← objPackInto env (packInto env n) off v
        setSize id (← ser.readSize)
      | _ => M.throw .typeError
    | .selfT _ => M.throw .notImplementedError
    | .compound id ss => do
      let total ← packIntoLoop (packInto env n) pure off 0 ss vs
      setSize id total
    | .specialized id p ss => do
      let total ← packIntoLoop (packInto env n) (fun s => s.prepack p) off 0 ss vs
      setSize id total

/-! ### `pack_write` -/

/-- `writable.write(data)` on the stream in the state. -/
def ioWrite (b : Bytes) : M Unit := M.modify fun st => { st with io := st.io.write b }

/-- `_iter_packers` driving `CompoundSerializer.pack_write` (`api.py:298-300`). -/
def packWriteLoop (packN : Ser → List Val → M Unit) (pre : Ser → M Ser) :
    Nat → List Ser → List Val → M Nat
  | size, [], _ => pure size
  | size, s :: ss, vals => do
    let s' ← pre s
    packN s' (vals.take s'.numValues)
    let sz ← s'.readSize
    packWriteLoop packN pre (size + sz) ss (vals.drop s'.numValues)

/-- `Structured.pack_write` (`structured.py:266-272`); returns `values.serializer`. -/
def objPackWrite (env : Env) (packN : Ser → List Val → M Unit) (v : Val) : M Ser :=
  match v with
  | .obj cls bo attrs => do
    let (ci, ser) ← M.lift (objSer env cls bo)
    let s ← ser.prepack ⟨cls, false, attrs⟩
    let vals ← M.lift (getAttrs attrs ci.attrs)
    packN s vals
    pure ser
  | _ => M.throw .attributeError

/-- `pack_write(writable, *values)` of every serializer: `api.py:212-213,298-300`,
`structs.py:141-144`, `strings.py:98-105,165-168,216-218,298-300,387-388`,
`arrays.py:133-135,212-214,269-271`, `tuples.py:51-52`, `unions.py:145-148,206-210`,
`conditional.py:88-89`, `serializers/structured.py:62-64`. -/
def packWrite (env : Env) : Nat → Ser → List Val → M Unit
  | 0, _, _ => M.throw .recursionError
  | n + 1, s, vs =>
    match s with
    | .null => pure ()
    | .struct st => do ioWrite (← M.lift (st.pack env.plat vs))
    | .dynChar id st => do
      let (s, vals) ← M.lift (dynCharPrep st vs)
      setSize id s.size
      ioWrite (← M.lift (s.pack env.plat vals))
    | .consuming id => do
      let b ← M.lift (consumeData vs)
      setSize id b.length
      ioWrite b
    | .terminated id term => do
      let b ← M.lift (termData term vs)
      setSize id b.length
      ioWrite (← M.lift (do packOpt env.plat (← singleChar.matmul b.length) [.bytes b]))
    | .net id => do
      let (s, vals) ← M.lift (netPrep vs)
      setSize id s.size
      ioWrite (← M.lift (s.pack env.plat vals))
    | .unicode inner enc _ => do
      let b ← M.lift (do enc (← first vs))
      packWrite env n inner [.bytes b]
    | .array .. => do ioWrite (← pack env (n + 1) s vs)
    | .staticArr count _ ser => do
      let items ← M.lift (staticArrPrep count vs)
      ioWrite (← M.lift (packOpt env.plat ser items))
    | .dynArr id cnt item => do
      let (s, vals) ← M.lift (dynArrPrep cnt item vs)
      setSize id s.size
      ioWrite (← M.lift (s.pack env.plat vals))
    | .tuple id inner => match vs with
      | [v] => do
        let p ← getPart id
        let inner' ← inner.prepack p
        let vals ← M.lift (pyIter v)
        packWrite env n inner' vals
      | _ => M.throw .typeError
    | .lookback id decider keys opts dflt => do
      let p ← getPart id
      let r ← M.lift (decider p)
      let s ← getSerializer true id keys opts dflt r
      packWrite env n s vs
      setSize id (← s.readSize)
    | .lookahead id _ decider keys opts dflt => do
      let p ← getPart id
      let r ← M.lift (decider p)
      let s ← getSerializer true id keys opts dflt r
      packWrite env n s vs
      setSize id (← s.readSize)
    | .cond .. => M.throw .notImplementedError
    | .skip _ => pure ()
    | .structured id _ => match vs with
      | [v] => do
        let ser ← objPackWrite env (packWrite env n) v
        setSize id (← ser.readSize)
      | _ => M.throw .typeError
    | .selfT _ => M.throw .notImplementedError
    | .compound id ss => do
      let total ← packWriteLoop (packWrite env n) pure 0 ss vs
      setSize id total
    | .specialized id p ss => do
      let total ← packWriteLoop (packWrite env n) (fun s => s.prepack p) 0 ss vs
      setSize id total

/-! ### Unpacking -/

/-- Where an unpacking method reads from: `unpack(buffer)`, `unpack_from(buffer, offset)` or
`unpack_read(readable)` (the stream in the state). -/
inductive Src
  | buf (b : Bytes)
  | at (b : Bytes) (off : Nat)
  | io

/-- What a container passes to its next part after `size` bytes: `buffer[size:]`, `offset + size`,
or the stream itself (`api.py:312-322`, `arrays.py:144,157,170`). -/
def Src.next (src : Src) (size : Nat) : Src :=
  match src with
  | .buf b => .buf (b.drop size)
  | .at b off => .at b (off + size)
  | .io => .io

/-- `readable.read(n)` on the stream in the state. -/
def ioRead (n : Nat) : M Bytes := fun st =>
  let (d, io) := st.io.read n
  .ok d { st with io := io }

/-- `unpack`, `unpack_from` and `unpack_read` of a struct serializer. -/
def structUnpackM (env : Env) (s : StructSer) (src : Src) : M (List Val) :=
  match src with
  | .buf b => M.lift (s.unpack env.plat b)
  | .at b off => M.lift (s.unpackFrom env.plat b off)
  | .io => do
    let d ← ioRead s.size
    M.lift (s.unpackRead env.plat d)

def structUnpackOpt (env : Env) (s : Option StructSer) (src : Src) : M (List Val) :=
  match s with
  | none => pure []
  | some s => structUnpackM env s src

/-- `DynamicCharSerializer.unpack*` (`strings.py:107-140`).  Count types are unsigned; a negative
count is cut to an empty slice in `unpack`. -/
def dynCharUnpack (env : Env) (id : SerId) (st : StructSer) (src : Src) : M (List Val) := do
  let hv ← structUnpackM env st src
  let count ← M.lift (do needInt (← first hv))
  setSize id ((st.size : Int) + count).toNat
  match src with
  | .buf b => pure [.bytes ((b.drop st.size).take count.toNat)]
  | src => do
    let s ← M.lift (singleChar.matmul count)
    structUnpackOpt env s (src.next st.size)

/-- `ConsumingCharSerializer.unpack*` (`strings.py:170-181`).  `len(buffer) - offset` is cut at 0. -/
def consumingUnpack (id : SerId) (src : Src) : M (List Val) :=
  match src with
  | .buf b => do
    setSize id b.length
    pure [.bytes b]
  | .at b off => do
    setSize id (b.length - off)
    pure [.bytes (b.drop off)]
  | .io => do
    let d ← fun st => let (d, io) := st.io.readAll; .ok d { st with io := io }
    setSize id d.length
    pure [.bytes d]

/-- The scan of `TerminatedCharSerializer.unpack_from` (`strings.py:224-229`): the index of the
terminator in `buffer[offset:]`. -/
def findTerm (term : Byte) : Bytes → Option Nat
  | [] => none
  | b :: bs => if b = term then some 0 else (findTerm term bs).map (· + 1)

/-- The loop of `TerminatedCharSerializer.unpack_read` (`strings.py:238-251`) over the bytes left in
the stream: (data, size), or `none` for an unterminated string.  `k` bounds the number of chunks. -/
def termReadLoop (term : Byte) : Nat → Bytes → Bytes → Nat → Option (Bytes × Nat)
  | 0, _, _, _ => none
  | k + 1, rest, out, size =>
    let chunk := rest.take 256
    if chunk = [] then none
    else match findTerm term chunk with
      | none => termReadLoop term k (rest.drop 256) (out ++ chunk) (size + 256)
      | some o => some (out ++ chunk.take o, size + (o + 1))

/-- `TerminatedCharSerializer.unpack*` (`strings.py:220-251`).  `unpack_from` sets `size` to the
absolute end position. -/
def terminatedUnpack (id : SerId) (term : Byte) (src : Src) : M (List Val) :=
  match src with
  | .buf b => match findTerm term b with
    | none => M.throw .valueError
    | some k => do
      setSize id (k + 1)
      pure [.bytes (b.take k)]
  | .at b off => match findTerm term (b.drop off) with
    | none => M.throw .valueError
    | some k => do
      setSize id (off + k + 1)
      pure [.bytes ((b.drop off).take k)]
  | .io => do
    let st ← M.get
    let rest := st.io.data.drop st.io.pos
    match termReadLoop term (rest.length + 1) rest [] 0 with
    | none => do
      M.modify fun st => { st with io := { st.io with pos := st.io.pos + rest.length } }
      M.throw .valueError
    | some (d, size) => do
      M.modify fun st => { st with io := { st.io with pos := st.io.pos + size } }
      setSize id size
      pure [.bytes d]

/-- `readable.seek(pos)` when reading from the stream. -/
def Src.seek (src : Src) (pos : Nat) : M Unit :=
  match src with
  | .io => M.modify fun st => { st with io := { st.io with pos := pos } }
  | _ => pure ()

/-- `NETCharSerializer.unpack*` (`strings.py:309-346`). -/
def netUnpack (env : Env) (id : SerId) (src : Src) : M (List Val) := do
  let countPos := (← M.get).io.pos
  let hv ← structUnpackM env shortLen src
  let c ← M.lift (do needInt (← first hv))
  let (count, size) ← if 128 ≤ c then do
      src.seek countPos
      let hv ← structUnpackM env longLen src
      let c ← M.lift (do needInt (← first hv))
      let count ← M.lift (netDecode c.toNat)
      pure (count, longLen.size)
    else pure (c.toNat, shortLen.size)
  setSize id (size + count)
  match src with
  | .buf b => pure [.bytes ((b.drop size).take count)]
  | .at b off => M.lift (structUnpackFrom env.plat .default [⟨count, .str⟩] b (off + size))
  | .io => do
    let d ← ioRead count
    pure [.bytes d]

/-- `str.rstrip('\0')` (`strings.py:391-399`) -/
def rstripNul (s : PyStr) : PyStr := (s.reverse.dropWhile (· == 0)).reverse

/-- Decoding in `UnicodeSerializer.unpack*` (`strings.py:390-399`). -/
def unicodeDecode (dec : Bytes → Except Err PyStr) (vs : List Val) : Except Err (List Val) := do
  let v ← first vs
  match v with
  | .bytes b => do .ok [.str (rstripNul (← dec b))]
  | _ => .error .typeError

/-- How the consumer of an unpacking generator updates the partial object: given the object, the
number of values already consumed, and the next values. -/
abbrev Upd := PObj → Nat → List Val → Except Err PObj

/-- The values are not stored on the partial object. -/
def noUpd : Upd := fun p _ _ => .ok p

/-- `zip(attrs, values, strict=True)` with `setattr` (`structured.py:228-260,479-481`). -/
def assignVals (attrs : List Name) : Upd := fun p done vs =>
  let names := attrs.drop done
  if names.length < vs.length then .error .valueError
  else .ok { p with attrs := (names.zip vs).foldl (fun as nv => setAttr as nv.1 nv.2) p.attrs }

/-- `_iter_unpackers` driving `CompoundSerializer.unpack*` (`api.py:302-322`).  Returns the values
and the total size. -/
def unpackLoop (unpackN : Ser → Src → M (List Val)) (src : Src) :
    Nat → List Ser → M (List Val × Nat)
  | size, [] => pure ([], size)
  | size, s :: ss => do
    let vs ← unpackN s (src.next size)
    let sz ← s.readSize
    let (rest, total) ← unpackLoop unpackN src (size + sz) ss
    pure (vs ++ rest, total)

/-- The same for `_SpecializedCompoundSerializer` (`api.py:400-407`): each serializer is specialized
for the partial object as it is when the generator reaches it. -/
def unpackLoopSpec (unpackN : Ser → Src → M (List Val)) (upd : Upd) (src : Src) :
    PObj → Nat → Nat → List Ser → M (List Val × Nat)
  | _, _, size, [] => pure ([], size)
  | p, done, size, s :: ss => do
    let s' ← s.preunpack p
    let vs ← unpackN s' (src.next size)
    let p' ← M.lift (upd p done vs)
    let sz ← s'.readSize
    let (rest, total) ← unpackLoopSpec unpackN upd src p' (done + vs.length) (size + sz) ss
    pure (vs ++ rest, total)

/-- The loop of `ArraySerializer.unpack*` (`arrays.py:143-145,156-158,169-171`). -/
def unpackItems (unpackN : Ser → Src → M (List Val)) (item : Ser) (src : Src) :
    Nat → Nat → M (List Val × Nat)
  | size, 0 => pure ([], size)
  | size, k + 1 => do
    let vs ← unpackN item (src.next size)
    let sz ← item.readSize
    let (rest, total) ← unpackItems unpackN item src (size + sz) k
    pure (vs ++ rest, total)

/-- `cls(*proxy)` with the generated `__init__` (`structured.py:157-159,302`). -/
def construct (cls : ClassId) (ci : ClassInfo) (vals : List Val) : Except Err Val :=
  if vals.length = ci.attrs.length then do
    .ok (.obj cls none (← ci.postInit (ci.attrs.zip vals)))
  else .error .valueError

/-- `create_unpack`, `create_unpack_from`, `create_unpack_read` (`structured.py:284-327`); also
returns `obj_type.serializer`. -/
def createUnpackWith (env : Env) (unpackN : Upd → Ser → Src → M (List Val)) (cls : ClassId)
    (src : Src) : M (Val × Ser) :=
  match env.classes cls with
  | none => M.throw .attributeError
  | some ci => do
    let s ← ci.serializer.preunpack ⟨cls, true, []⟩
    let vals ← unpackN (assignVals ci.attrs) s src
    let v ← M.lift (construct cls ci vals)
    pure (v, ci.serializer)

/-- Calling a compound's `unpack*` makes a generator without running it. -/
def Ser.isLazy (s : Ser) : Bool := s.isCompound

/-- `value = serializer.unpack*(...)`, `self.size = serializer.size` in the unions
(`unions.py:152-154,215-217`).  A generator runs after its consumer gets it, so its size is read
before it has run. -/
def unionUnpack (unpackN : Ser → Src → M (List Val)) (id : SerId) (s : Ser) (src : Src) :
    M (List Val) :=
  if s.isLazy then do
    setSize id (← s.readSize)
    unpackN s src
  else do
    let vs ← unpackN s src
    setSize id (← s.readSize)
    pure vs

/-- `readable.seek(-self.read_ahead_serializer.size, os.SEEK_CUR)` when reading from the stream
(`unions.py:228`). -/
def Src.rewind (src : Src) (readAhead : Ser) : M Unit :=
  match src with
  | .io => do
    let sz ← readAhead.readSize
    M.modify fun st => { st with io := st.io.seekCur (-(sz : Int)) }
  | _ => pure ()

/-- `unpack(buffer)`, `unpack_from(buffer, offset)`, `unpack_read(readable)` of every serializer,
with the returned iterable run to its end: `api.py:215-222,312-322`, `structs.py:127-139,240-257`,
`strings.py:107-140,170-181,220-251,309-346,390-399`, `arrays.py:137-174,216-223,273-295`,
`tuples.py:58-67`, `unions.py:150-166,212-232`, `conditional.py:91-98`,
`serializers/structured.py:66-81`.  `upd` describes the consumer of the values. -/
def unpack (env : Env) : Nat → Upd → Ser → Src → M (List Val)
  | 0, _, _, _ => M.throw .recursionError
  | n + 1, upd, s, src =>
    match s with
    | .null => pure []
    | .struct st => structUnpackM env st src
    | .dynChar id st => dynCharUnpack env id st src
    | .consuming id => consumingUnpack id src
    | .terminated id term => terminatedUnpack id term src
    | .net id => netUnpack env id src
    | .unicode inner _ dec => do
      let vs ← unpack env n noUpd inner src
      M.lift (unicodeDecode dec vs)
    | .array id hdr item sl => do
      let hv ← structUnpackOpt env hdr src
      let (count, dataSize) ← M.lift (headerUnpackValues hdr sl hv)
      let p ← getPart id
      let item' ← item.preunpack p
      let (items, size) ← unpackItems (unpack env n noUpd) item' src (hdrSize hdr) count.toNat
      M.lift (checkDataSize dataSize (size - hdrSize hdr))
      setSize id size
      pure [.list items]
    | .staticArr _ _ ser => do
      let vs ← structUnpackOpt env ser src
      pure [.list vs]
    | .dynArr id cnt item => do
      let hv ← structUnpackM env cnt src
      let c ← match hv with
        | [c] => M.lift (needInt c)
        | _ => M.throw .valueError
      let s ← M.lift (item.mul c)
      let vs ← structUnpackOpt env s (src.next cnt.size)
      setSize id (cnt.size + s.elim 0 StructSer.size)
      pure [.list vs]
    | .tuple id inner => do
      let p ← getPart id
      let inner' ← inner.preunpack p
      if inner'.isLazy then pure [.gen]
      else do
        let vs ← unpack env n noUpd inner' src
        pure [.tup vs]
    | .lookback id decider keys opts dflt => do
      let p ← getPart id
      let r ← M.lift (decider p)
      let s ← getSerializer false id keys opts dflt r
      unionUnpack (unpack env n noUpd) id s src
    | .lookahead id readAhead _ keys opts dflt => do
      let hv ← unpack env n noUpd readAhead src
      let r ← M.lift (first hv)
      src.rewind readAhead
      let s ← getSerializer false id keys opts dflt r
      unionUnpack (unpack env n noUpd) id s src
    | .cond .. => M.throw .notImplementedError
    | .skip vals => pure vals
    | .structured id cls => do
      let (v, ser) ← createUnpackWith env (unpack env n) cls src
      setSize id (← ser.readSize)
      pure [v]
    | .selfT _ => M.throw .notImplementedError
    | .compound id ss => do
      let (vs, total) ← unpackLoop (unpack env n noUpd) src 0 ss
      setSize id total
      pure vs
    | .specialized id p ss => do
      let (vs, total) ← unpackLoopSpec (unpack env n noUpd) upd src p 0 0 ss
      setSize id total
      pure vs

/-! ### The `Structured` API -/

/-- `obj.pack()` -/
def Obj.pack (env : Env) (n : Nat) (v : Val) : M Bytes := do
  let (b, _) ← objPack env (Verif.pack env n) v
  pure b

/-- `obj.pack_into(buffer, offset)` -/
def Obj.packInto (env : Env) (n : Nat) (off : Nat) (v : Val) : M Unit := do
  let _ ← objPackInto env (Verif.packInto env n) off v
  pure ()

/-- `obj.pack_write(writable)` -/
def Obj.packWrite (env : Env) (n : Nat) (v : Val) : M Unit := do
  let _ ← objPackWrite env (Verif.packWrite env n) v
  pure ()

/-- `cls.create_unpack(buffer)`, `cls.create_unpack_from(buffer, offset)`,
`cls.create_unpack_read(readable)` -/
def createUnpack (env : Env) (n : Nat) (cls : ClassId) (src : Src) : M Val := do
  let (v, _) ← createUnpackWith env (Verif.unpack env n) cls src
  pure v

/-- `obj.unpack(buffer)` and its variants (`structured.py:228-260`): the object after the call. -/
def Obj.unpack (env : Env) (n : Nat) (v : Val) (src : Src) : M Val :=
  match v with
  | .obj cls bo attrs => do
    let (ci, ser) ← M.lift (objSer env cls bo)
    let s ← ser.preunpack ⟨cls, false, attrs⟩
    let vals ← Verif.unpack env n (assignVals ci.attrs) s src
    if vals.length = ci.attrs.length then
      pure (.obj cls bo ((ci.attrs.zip vals).foldl (fun as nv => setAttr as nv.1 nv.2) attrs))
    else M.throw .valueError
  | _ => M.throw .attributeError

end Verif
