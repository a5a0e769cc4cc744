import Verif.Spec.RoundTrip
/-
Specifications for C50: types whose bytes are reproduced exactly by unpacking and packing again.

`k` admits the counted strings and arrays `char[uint*]`, `array[uint*, T]`, which cannot pack everything they unpack;
`t` admits terminated strings, whose `unpack_from` reports a wrong size.
-/
namespace Verif

/-- Every byte matters: no padding, no pascal strings (unused bytes), no booleans (any non-zero byte is `True`) and no
`float16`/`float32` (whose conversions from and to `float` are not known to be inverse). -/
def Code.exact : Code → Bool
  | .chr | .int _ _ | .double | .str | .ptr => true
  | _ => false

/-- No alignment bytes between the items from offset `o` on, and every item exact. -/
def exactToks (native : Bool) : List Tok → Nat → Bool
  | [], _ => true
  | t :: ts, o => padLen (t.c.align native) o == 0 && t.c.exact && exactToks native ts (o + t.bytes native)

/-- An exact format without value transformations. -/
def StructSer.exact (s : StructSer) : Bool := s.actions.isNone && exactToks s.byteOrder.isNative s.toks 0

/-- The header of an array: unsigned integers, as many as `Header[...]` makes. -/
def hdrExact (hdr : Option StructSer) (sl : Int) : Bool :=
  (if 0 ≤ sl then hdrNum hdr ≤ 1 else hdrNum hdr = 1 ∨ hdrNum hdr = 2) && match hdr with
    | none => true
    | some h => h.exact && h.toks.all fun t => match t.c with
      | .int false _ => true
      | _ => false

/-- The callable only looks at these attributes of the object (and its class). -/
def Sees (names : List Name) (f : Decider) : Prop :=
  ∀ p q : PObj, p.cls = q.cls → (∀ a ∈ names, getAttr? p.attrs a = getAttr? q.attrs a) → f p = f q

/-- How many values come out of unpacking (`num_values`, except for the arrays that set it to 0). -/
def Ser.yields : Ser → Nat
  | .dynArr .. => 1
  | s => s.numValues

/-- Encoding undoes decoding for the texts of strings that do not contain the terminator. -/
def UndoneBy (term : Byte) (en : Val → Except Err Bytes) (de : Bytes → Except Err PyStr) : Prop :=
  ∀ b s, term ∉ b → de b = .ok s → en (.str (rstripNul s)) = .ok b

mutual
/-- The serializers of exact types; `names` are the fields in front of the field. -/
def Ser.exact (k t : Bool) (names : List Name) : Ser → Prop
  | .null => True
  | .struct s => s.exact = true
  | .dynChar _ st => k = true ∧ st.isCount = true ∧ st.exact = true
  | .consuming _ => True
  | .terminated .. => t = true
  | .net _ => False
  | .unicode inner en de => match inner with
    | .terminated _ term => t = true ∧ UndoneBy term en de
    | _ => False
  | .array _ hdr item sl => hdrExact hdr sl = true ∧ item.yields = 1 ∧ item.exact k t names
  | .staticArr count _ ser => (match ser with
    | none => count = 0
    | some s => s.exact = true ∧ count = s.numValues)
  | .dynArr _ cnt item => k = true ∧ cnt.isCount = true ∧ cnt.exact = true ∧ item.exact = true ∧ item.oneValue ∧
      SingleItem item.baseFormat ∧ cnt.byteOrder = item.byteOrder ∧ packedTight cnt item = true
  | .tuple _ inner => inner.exact k t names
  | .lookback _ d _ opts dflt => Sees names d ∧ Ser.exactOpts k t names opts ∧ dflt.yields = (match dflt with
      | .null => 0
      | _ => 1) ∧ dflt.exact k t names
  | .lookahead .. => False
  | .cond s c defs => Sees names c ∧ s.yields = s.numValues ∧ defs.length = s.numValues ∧ (match s with
      | .specialized .. => False
      | _ => True) ∧ s.exact k t names
  | .skip _ => True
  | .structured .. => True
  | .selfT _ => True
  | .compound _ ss => Ser.exactList k t names ss
  | .specialized _ _ ss => Ser.exactList k t names ss
/-- The parts of a tuple. -/
def Ser.exactList (k t : Bool) (names : List Name) : List Ser → Prop
  | [] => True
  | s :: ss => s.yields = s.numValues ∧ s.exact k t names ∧ Ser.exactList k t names ss
/-- The members of a union. -/
def Ser.exactOpts (k t : Bool) (names : List Name) : List Ser → Prop
  | [] => True
  | s :: ss => s.yields = 1 ∧ s.exact k t names ∧ Ser.exactOpts k t names ss
end

/-- The fields of a class, after `done` attributes. -/
def exactParts (k t : Bool) (attrs : List Name) : Nat → List Ser → Prop
  | _, [] => True
  | done, s :: ss => s.yields = s.numValues ∧ s.exact k t (attrs.take done) ∧ exactParts k t attrs (done + s.numValues) ss

/-- A class whose fields are of exact types, without `__post_init__`. -/
def ClassInfo.exact (k t : Bool) (ci : ClassInfo) : Prop :=
  ci.attrs.Nodup ∧ ci.postInit = Except.ok ∧ match ci.serializer with
    | .compound _ ss => exactParts k t ci.attrs 0 ss
    | .specialized .. => False
    | s => s.exact k t []

/-- A program of exact classes. -/
def Env.exact (env : Env) (k t : Bool) : Prop := ∀ c ci, env.classes c = some ci → ci.exact k t

end Verif
