import Verif.Spec.History
/-
In which byte orders the numbers of a serializer are packed and unpacked.
-/
namespace Verif

/-- A number of several bytes. -/
def Code.wide : Code → Bool
  | .int _ .one => false
  | .int .. => true
  | .half => true
  | .single => true
  | .double => true
  | .ptr => true
  | _ => false

/-- The format has a number of several bytes. -/
def StructSer.wide (s : StructSer) : Bool :=
  s.format.any fun ch => match Code.ofChar ch with
    | some c => c.wide
    | none => false

def StructSer.orders (s : StructSer) : List ByteOrder := if s.wide then [s.byteOrder] else []

mutual
/-- The byte orders of all numbers of several bytes that belong to the serializer itself; nested classes have their own.
The length marker of a `NET` string is always a native `H`.  `DynamicStructArraySerializer` packs count and items with the
byte order of the count. -/
def Ser.orders : Ser → List ByteOrder
  | .struct s => s.orders
  | .dynChar _ st => st.orders
  | .net _ => [.default]
  | .unicode inner _ _ => inner.orders
  | .array _ hdr item _ => (match hdr with | none => [] | some h => h.orders) ++ item.orders
  | .staticArr _ item ser => item.orders ++ (match ser with | none => [] | some s => s.orders)
  | .dynArr _ cnt item => (if cnt.wide || item.wide then [cnt.byteOrder] else []) ++ item.orders
  | .tuple _ inner => inner.orders
  | .lookback _ _ _ opts dflt => Ser.ordersList opts ++ dflt.orders
  | .lookahead _ ra _ _ opts dflt => ra.orders ++ (Ser.ordersList opts ++ dflt.orders)
  | .cond s _ _ => s.orders
  | .compound _ ss => Ser.ordersList ss
  | .specialized _ _ ss => Ser.ordersList ss
  | _ => []
def Ser.ordersList : List Ser → List ByteOrder
  | [] => []
  | s :: ss => s.orders ++ Ser.ordersList ss
end

mutual
/-- The byte orders in the parts that do not follow `with_byte_order`: what is inside a text encoding, a tuple or a union,
and the length marker of a `NET` string. -/
def Ser.deaf : Ser → List ByteOrder
  | .net _ => [.default]
  | .unicode inner _ _ => inner.orders
  | .tuple _ inner => inner.orders
  | .lookback _ _ _ opts dflt => Ser.ordersList opts ++ dflt.orders
  | .lookahead _ ra _ _ opts dflt => ra.orders ++ (Ser.ordersList opts ++ dflt.orders)
  | .array _ _ item _ => item.deaf
  | .cond s _ _ => s.deaf
  | .compound _ ss => Ser.deafList ss
  | .specialized _ _ ss => Ser.deafList ss
  | _ => []
def Ser.deafList : List Ser → List ByteOrder
  | [] => []
  | s :: ss => s.deaf ++ Ser.deafList ss
end

mutual
/-- The `StructSerializer` objects in a serializer. -/
def Ser.structs : Ser → List StructSer
  | .struct s => [s]
  | .dynChar _ st => [st]
  | .unicode inner _ _ => inner.structs
  | .array _ hdr item _ => hdr.toList ++ item.structs
  | .staticArr _ item ser => item :: ser.toList
  | .dynArr _ cnt item => [cnt, item]
  | .tuple _ inner => inner.structs
  | .lookback _ _ _ opts dflt => Ser.structsList opts ++ dflt.structs
  | .lookahead _ ra _ _ opts dflt => ra.structs ++ (Ser.structsList opts ++ dflt.structs)
  | .cond s _ _ => s.structs
  | .compound _ ss => Ser.structsList ss
  | .specialized _ _ ss => Ser.structsList ss
  | _ => []
def Ser.structsList : List Ser → List StructSer
  | [] => []
  | s :: ss => s.structs ++ Ser.structsList ss
end

mutual
/-- The serializer with the identities of its objects left out. -/
def Ser.anon : Ser → Ser
  | .dynChar _ st => .dynChar [] st
  | .consuming _ => .consuming []
  | .terminated _ t => .terminated [] t
  | .net _ => .net []
  | .unicode inner e d => .unicode inner.anon e d
  | .array _ hdr item sl => .array [] hdr item.anon sl
  | .dynArr _ cnt item => .dynArr [] cnt item
  | .tuple _ inner => .tuple [] inner.anon
  | .lookback _ d keys opts dflt => .lookback [] d keys (Ser.anonList opts) dflt.anon
  | .lookahead _ ra d keys opts dflt => .lookahead [] ra.anon d keys (Ser.anonList opts) dflt.anon
  | .cond s c defs => .cond s.anon c defs
  | .structured _ cls => .structured [] cls
  | .selfT _ => .selfT []
  | .compound _ ss => .compound [] (Ser.anonList ss)
  | .specialized _ p ss => .specialized [] p (Ser.anonList ss)
  | s => s
def Ser.anonList : List Ser → List Ser
  | [] => []
  | s :: ss => s.anon :: Ser.anonList ss
end

/-- All formats in it were accepted by `struct.Struct`. -/
def Ser.FormatsOk (s : Ser) : Prop := ∀ x ∈ s.structs, StructSer.formatOk x.format = true

/-- The byte order does not depend on the machine. -/
def ByteOrder.Fixed (b : ByteOrder) : Prop := b = .le ∨ b = .be ∨ b = .network

/-- The same program on a machine with this byte order. -/
def Env.onHost (env : Env) (le : Bool) : Env := { env with plat := { env.plat with le := le } }

/-- All numbers of several bytes in it are packed in a byte order that does not depend on the machine. -/
def Ser.Portable (s : Ser) : Prop := ∀ b ∈ s.orders, b.Fixed

/-- The same for the serializers of all these objects. -/
def PortableNodes (env : Env) (nodes : List (ClassId × Option ByteOrder × List (Name × Val))) : Prop :=
  ∀ c bo attrs ci ser, (c, bo, attrs) ∈ nodes → objSer env c bo = .ok (ci, ser) → ser.Portable

end Verif
