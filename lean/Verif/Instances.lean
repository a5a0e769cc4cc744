import Verif.Ops
/-
What `Structured` instances do besides packing and unpacking: `structured.py:120-167,212-219,337-342`.
-/
namespace Verif

/-- `cls(*values)` with the `__init__` that `gen_init` writes (`structured.py:120-167`): one parameter per attribute,
each assigned to the attribute of that name in order, then `__post_init__()`.  A wrong number of arguments is a
`TypeError` of the call. -/
def callClass (cls : ClassId) (ci : ClassInfo) (vals : List Val) : Except Err Val :=
  if vals.length ≠ ci.attrs.length then .error .typeError
  else do
    let attrs ← ci.postInit ((ci.attrs.zip vals).foldl (fun as nv => setAttr as nv.1 nv.2) [])
    .ok (.obj cls none attrs)

/-- The comparison of two attribute tuples in `Structured.__eq__` (`structured.py:339-341`): `all(...)` stops at the
first difference. -/
def eqAttrs (eq : Val → Val → Except Err Bool) (as bs : List (Name × Val)) : List Name → Except Err Bool
  | [] => .ok true
  | a :: rest => match getAttr? as a with
    | none => .error .attributeError
    | some v => match getAttr? bs a with
      | none => .error .attributeError
      | some w => do if ← eq v w then eqAttrs eq as bs rest else .ok false

/-- `list.__eq__`, `tuple.__eq__` after the lengths were found equal. -/
def eqItems (eq : Val → Val → Except Err Bool) : List Val → List Val → Except Err Bool
  | x :: xs, y :: ys => do if ← eq x y then eqItems eq xs ys else .ok false
  | _, _ => .ok true

def Val.isCustom : Val → Bool
  | .custom .. => true
  | _ => false

/-- `a == b`.  `userEq` is the comparison of instances of user types.  Two `Structured` instances of different classes
both answer `NotImplemented`, and `==` falls back to identity (`structured.py:337-342`).  The identity shortcut of
`list.__eq__` is not modelled (it matters for NaN only), nor is one generator object compared with itself. -/
def pyEq (env : Env) (userEq : Val → Val → Except Err Bool) : Nat → Val → Val → Except Err Bool
  | 0, _, _ => .error .recursionError
  | n + 1, a, b =>
    if a.isCustom || b.isCustom then userEq a b
    else match a, b with
    | .obj c _ as, .obj d _ bs =>
      if c ≠ d then .ok false
      else match env.classes c with
        | none => .error .attributeError
        | some ci => eqAttrs (pyEq env userEq n) as bs ci.attrs
    | .list xs, .list ys => if xs.length ≠ ys.length then .ok false else eqItems (pyEq env userEq n) xs ys
    | .tup xs, .tup ys => if xs.length ≠ ys.length then .ok false else eqItems (pyEq env userEq n) xs ys
    | a, b => .ok (a.keyEq b)

/-- `obj.with_byte_order(byte_order)` (`structured.py:212-219`).  `self.byte_order` is the instance's, or else the class's. -/
def Obj.withByteOrder (env : Env) (bo : ByteOrder) (v : Val) : Except Err Val :=
  match v with
  | .obj cls cur attrs => do
    let (ci, ser) ← objSer env cls cur
    if bo = cur.getD ci.byteOrder then .ok v
    else do
      let _ ← ser.withByteOrder bo
      let vals ← getAttrs attrs ci.attrs
      match ← callClass cls ci vals with
      | .obj c _ as => .ok (.obj c (some bo) as)
      | w => .ok w
  | _ => .error .attributeError

end Verif
