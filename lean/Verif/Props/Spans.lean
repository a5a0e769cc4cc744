import Verif.Proofs.Spans
import Verif.Props.FormatRaises
import Verif.Props.Accepts
/-
How many bytes the objects of a class take, from its type hints (C70).
-/
namespace Verif
open Spec Sem Samples

variable {env : Env} {ctx : HintCtx} {N M : Nat} {docs : ClassId → Option ClassDoc} {B : ClassId → Span}

/-- **C70** (`pack`, partial).  An object with the documented types is packed to a number of bytes within the limits of its class. -/
theorem C70_pack_partial (hd : Documents env ctx N docs) (hB : Limits docs B) {k : Nat} {c : ClassId} {v : Val} {b : Bytes}
    (hw : writeObj env.plat docs k c v = some b) (hc : Calm env v.nodes) :
    (B c).Has b.length ∧ ∃ K, ∀ n ≥ K, ∀ st, result (Obj.pack env n v st) = .ok b :=
  ⟨Spans.has_writeObj (fun c d h => (hd c d h).1) hB k c v b hw, C52_pack_partial hd hw hc⟩

/-- **C70** (`pack` of any values, partial).  Whatever values an object has, and whatever its own byte order: if it is packed, the
number of bytes is within the limits of its fields, where nothing is known of nested objects. -/
theorem C70_values_partial (hd : Describes env ctx M docs) (hall : ∀ c, (env.classes c).isSome = true → (docs c).isSome = true) {n : Nat} {c : ClassId}
    {own : Option ByteOrder} {attrs : List (String × Val)} {st : St} {b : Bytes} (h : result (Obj.pack env n (.obj c own attrs) st) = .ok b)
    (hc : Calm env (Val.obj c own attrs).nodes) :
    ∃ d, docs c = some d ∧ (fieldsSpan (fun _ => .any) c (own.getD d.byteOrder) 0 d.fields).Has b.length := by
  have h1 := C61_partial hd hall h hc c
  simp only [storeObj] at h1
  cases hdc : docs c with
  | none => rw [hdc] at h1; cases h1
  | some d =>
    rw [hdc] at h1
    simp only at h1
    split at h1
    · exact ⟨d, rfl, Spans.has_storeFields (fun _ _ _ _ => Spans.has_any _) _ _ _ _ _ _ h1⟩
    · cases h1

/-- **C70** (`create_unpack`, partial).  An object is unpacked only from a buffer with at least the least number of bytes of its class,
and the size that its serializer then reports is within the limits. -/
theorem C70_unpack_partial (h : AllDocumented env ctx N docs) {own : ClassId → List SerId} (hs : env.settled own)
    (hr : ∀ c d, docs c = some d → d.regular env.plat = true) (hB : Limits docs B) {n : Nat} {c : ClassId} {b : Bytes} {v : Val} {st st' : St}
    (hu : createUnpack env n c (.buf b) st = .ok v st') :
    (B c).lo ≤ b.length ∧ ∃ ci m, env.classes c = some ci ∧ ci.serializer.readSize st' = .ok m st' ∧ (B c).Has m := by
  have hg : ∀ c d, docs c = some d → d.good = true := fun c d hd => (h.documents c d hd).1
  rcases (h.parses n c b).low noUpd trivial n (Nat.le_refl n) with e | e
  · obtain ⟨_, h1⟩ := createUnpack_err (src := .buf b) (st := st) e
    rw [hu] at h1
    cases h1
  · cases ho : decObj env (dec env n) c (.buf b) with
    | stuck => exact absurd ho (decObj_quiet hs (dec_quiet hs n) c (.buf b)).1
    | err =>
      obtain ⟨_, h1⟩ := createUnpack_err (src := .buf b) (st := st) ho
      rw [hu] at h1
      cases h1
    | ok x =>
      obtain ⟨v', d, ser⟩ := x
      rw [ho] at e
      obtain ⟨st2, h1, _, h3⟩ := createUnpack_ok (src := .buf b) (st := st) ho
      obtain ⟨ci, h4, rfl⟩ := decObj_ser ho
      rw [hu] at h1
      cases h1
      cases hb : readObj env.plat docs (n + 1) c b with
      | ok y =>
        rw [hb] at e
        obtain ⟨w, m⟩ := y
        obtain ⟨g1, g2, g3⟩ := e
        simp only at g1 g2 g3
        subst g1 g2
        have t := Spans.took_readObj hg hB _ _ _ _ _ hb
        exact ⟨t.2, ci, _, h4, h3 g3, t.1⟩
      | err => rw [hb] at e; cases e
      | deep => rw [hb] at e; cases e
      | odd => exact absurd hb (clear_obj (fun c d hd => ⟨hg c d hd, hr c d hd⟩) _ c b)

/-- **C70** (too short, partial).  A buffer with fewer bytes than the least number of its class raises an exception. -/
theorem C70_short_partial (h : AllDocumented env ctx N docs) {own : ClassId → List SerId} (hs : env.settled own)
    (hr : ∀ c d, docs c = some d → d.regular env.plat = true) (hB : Limits docs B) (n : Nat) (c : ClassId) {b : Bytes} (hb : b.length < (B c).lo) (st : St) :
    ∃ e, result (createUnpack env n c (.buf b) st) = .error e ∧ (e = .recursionError ∨ ClassRaises docs (n + 1) c e) := by
  cases hu : createUnpack env n c (.buf b) st with
  | ok v st' => exact absurd (C70_unpack_partial h hs hr hB hu).1 (Nat.not_le.2 hb)
  | err e st' => exact ⟨e, rfl, C57_raises_partial h hs hr c n b st e (by rw [hu]; rfl)⟩

/-- **C70** (`create_unpack_from`, partial).  An object is unpacked only if that many bytes are left behind the offset.  As in C56, for
programs without terminated strings and strings with a length. -/
theorem C70_from_partial (h : AllDocumented env ctx N docs) {own : ClassId → List SerId} (hs : env.settled own) (hst : env.steady false)
    (hr : ∀ c d, docs c = some d → d.regular env.plat = true) (hB : Limits docs B) (n : Nat) (c : ClassId) (x : Bytes) (off : Nat) (hoff : off ≤ x.length)
    {st : St} {v : Val} (hu : result (createUnpack env n c (.at x off) st) = .ok v) : off + (B c).lo ≤ x.length := by
  rw [C03_from_partial env own hs hst n c x off hoff st st] at hu
  cases hv : createUnpack env n c (.buf (x.drop off)) st with
  | err => rw [hv] at hu; cases hu
  | ok =>
    have := (C70_unpack_partial h hs hr hB hv).1
    rw [List.length_drop] at this
    omega

/-- **C70** (`create_unpack_read`, partial).  And the position of a stream moves by a number of bytes within the limits, not beyond its
end.  As in C56, for programs without strings with a length. -/
theorem C70_read_partial (h : AllDocumented env ctx N docs) {own : ClassId → List SerId} (hs : env.settled own) (hst : env.steady true)
    (hr : ∀ c d, docs c = some d → d.regular env.plat = true) (hB : Limits docs B) (n : Nat) (c : ClassId) {st st' : St} {v : Val}
    (hu : createUnpack env n c .io st = .ok v st') :
    st'.io.data = st.io.data ∧ (B c).lo ≤ (st.io.data.drop st.io.pos).length ∧ ∃ m, st'.io.pos = st.io.pos + m ∧ (B c).Has m := by
  have hg : ∀ c d, docs c = some d → d.good = true := fun c d hd => (h.documents c d hd).1
  rcases C56_read_partial h hs hst n c st with e | ⟨e1, e2⟩
  · rw [hu] at e
    cases e
  · rw [hu] at e1
    cases hb : readObj env.plat docs (n + 1) c (st.io.data.drop st.io.pos) with
    | ok y =>
      obtain ⟨w, m⟩ := y
      obtain ⟨g1, g2⟩ := e2 w m v st' hb hu
      have t := Spans.took_readObj hg hB _ _ _ _ _ hb
      exact ⟨g1, t.2, m, g2, t.1⟩
    | err => rw [hb] at e1; cases e1
    | deep => rw [hb] at e1; cases e1
    | odd => exact absurd hb (clear_obj (fun c d hd => ⟨hg c d hd, hr c d hd⟩) _ c _)

/-- **C70** (fixed sizes, partial).  If the limits leave one size only, all objects of the class are packed to that many bytes, an
object is unpacked only from as many, and that is the size that is reported. -/
theorem C70_exact_partial (h : AllDocumented env ctx N docs) {own : ClassId → List SerId} (hs : env.settled own)
    (hr : ∀ c d, docs c = some d → d.regular env.plat = true) (hB : Limits docs B) {c : ClassId} {s : Nat} (he : B c = .exact s) :
    (∀ k v b, writeObj env.plat docs k c v = some b → b.length = s) ∧
    ∀ n b v st st', createUnpack env n c (.buf b) st = .ok v st' →
      s ≤ b.length ∧ ∃ ci, env.classes c = some ci ∧ ci.serializer.readSize st' = .ok s st' := by
  have hx : ∀ m, (B c).Has m → m = s := by
    intro m hm
    rw [he] at hm
    exact Nat.le_antisymm (hm.2 s rfl) hm.1
  refine ⟨fun k v b hw => hx _ (Spans.has_writeObj (fun c d h' => (h.documents c d h').1) hB k c v b hw), fun n b v st st' hu => ?_⟩
  obtain ⟨h1, ci, m, h2, h3, h4⟩ := C70_unpack_partial h hs hr hB hu
  rw [hx m h4] at h3
  rw [he] at h1
  exact ⟨h1, ci, h2, h3⟩

end Verif

namespace Verif.Samples
open Spec

/-- The limits of the sample classes. -/
def shopSpan : ClassId → Span
  | 60 => ⟨4, some 259⟩
  | 61 => ⟨17, Option.none⟩
  | 62 => ⟨22, Option.none⟩
  | 63 => ⟨23, Option.none⟩
  | 64 => .exact 13
  | 65 => ⟨5, Option.none⟩
  | 66 => .exact 2
  | 67 => ⟨3, Option.none⟩
  | _ => .any

theorem ledger_limits : Limits ledgerDocs shopSpan := by
  intro c d h
  match c with
  | 60 => cases h; exact ⟨by decide +kernel, fun h e => by cases e; exact ⟨259, by decide +kernel, Nat.le_refl _⟩⟩
  | 61 => cases h; exact ⟨by decide +kernel, nofun⟩
  | 62 => cases h; exact ⟨by decide +kernel, nofun⟩
  | 63 => cases h; exact ⟨by decide +kernel, nofun⟩
  | 64 => cases h; exact ⟨by decide +kernel, fun h e => by cases e; exact ⟨13, by decide +kernel, Nat.le_refl _⟩⟩
  | 65 => cases h; exact ⟨by decide +kernel, nofun⟩
  | 66 => cases h; exact ⟨by decide +kernel, fun h e => by cases e; exact ⟨2, by decide +kernel, Nat.le_refl _⟩⟩
  | 67 => cases h; exact ⟨by decide +kernel, nofun⟩
  | c' + 68 => cases h

theorem shop_limits : Limits shopDocs shopSpan := by
  intro c d h
  match c with
  | 60 => exact ledger_limits 60 d h
  | 61 => exact ledger_limits 61 d h
  | 62 => exact ledger_limits 62 d h
  | 63 | 64 => cases h
  | 65 => exact ledger_limits 65 d h
  | 66 => exact ledger_limits 66 d h
  | 67 => exact ledger_limits 67 d h
  | c' + 68 => cases h

theorem read_limits : Limits readDocs shopSpan := by
  intro c d h
  match c with
  | 60 => exact ledger_limits 60 d h
  | 61 => exact ledger_limits 61 d h
  | 62 => cases h
  | 63 => exact ledger_limits 63 d h
  | 64 => exact ledger_limits 64 d h
  | 65 => exact ledger_limits 65 d h
  | 66 => exact ledger_limits 66 d h
  | 67 => exact ledger_limits 67 d h
  | c' + 68 => cases h

end Verif.Samples

namespace Verif
open Spec Sem Samples

/-- `C70_pack_partial` applies to the ledger: at least 23 bytes, here 44. -/
example : writeObj plat ledgerDocs 3 63 (ledger [65] [7, 8, 9]) = some ledgerBytes ∧ (shopSpan 63).Has 44 := by
  have h : writeObj plat ledgerDocs 3 63 (ledger [65] [7, 8, 9]) = some ledgerBytes := by rfl
  exact ⟨h, (C70_pack_partial ledger_documents ledger_limits h (calm_of_plain ledger_plain _)).1⟩

/-- `C70_values_partial` applies to an object with a byte order of its own and values of other types: at least 17 bytes. -/
example : result (Obj.pack shopEnv 12 shopLe st0) = .ok
      [1, 0, 0, 0, 0, 0, 0, 0xF0, 0x3F, 1, 6, 0, 2, 1, 3, 2, 97, 98, 104, 0, 105, 0, 1, 0, 254, 255] ∧
    (fieldsSpan (fun _ => .any) 61 .le 0 shopDoc.fields).lo = 17 ∧ (fieldsSpan (fun _ => .any) 61 .le 0 shopDoc.fields).Has 26 := by
  have h : result (Obj.pack shopEnv 12 shopLe st0) = .ok
    [1, 0, 0, 0, 0, 0, 0, 0xF0, 0x3F, 1, 6, 0, 2, 1, 3, 2, 97, 98, 104, 0, 105, 0, 1, 0, 254, 255] := by rfl
  obtain ⟨d, hd, hs⟩ := C70_values_partial shop_describes shop_all h (calm_of_plain shop_plain _)
  cases hd
  exact ⟨h, by decide +kernel, hs⟩

/-- `C70_short_partial` applies to the ledger: no 22 bytes are read as one. -/
example (b : Bytes) (hb : b.length = 22) (n : Nat) (st : St) : ∃ e, result (createUnpack readEnv n 63 (.buf b) st) = .error e :=
  have ⟨e, h, _⟩ := C70_short_partial read_documented read_settled read_regular read_limits n 63 (b := b) (by rw [hb]; decide) st
  ⟨e, h⟩

/-- 23 bytes are enough. -/
example : ∃ v, result (createUnpack readEnv 12 63 (.buf [0, 0, 0, 0, 0, 0, 0, 0, 0, 0, 0, 0, 0, 0, 0, 0, 0, 0, 0, 0, 0, 0, 0]) st0) = .ok v := ⟨_, by rfl⟩

/-- `C70_exact_partial` applies to `Tag`, a class of 13 bytes. -/
example : (∀ k v b, writeObj plat readDocs k 64 v = some b → b.length = 13) ∧
    ∃ v st', createUnpack readEnv 12 64 (.buf [0, 0, 1, 2, 65, 66, 0, 0, 0, 0, 1, 255, 254, 9]) st0 = .ok v st' :=
  ⟨(C70_exact_partial read_documented read_settled read_regular read_limits (c := 64) rfl).1, _, _, by rfl⟩

/-- The limits of a page. -/
def pageSpan (c : ClassId) : Span := if c = 70 then ⟨7, Option.none⟩ else .any

theorem page_limits (t : Bool) : Limits (oneDocs (pageDoc t)) pageSpan := by
  intro c d h
  simp only [oneDocs] at h
  split at h
  · rename_i e
    subst e
    cases h
    exact ⟨by cases t <;> decide +kernel, nofun⟩
  · cases h

theorem page_regular (t : Bool) : ∀ c d, oneDocs (pageDoc t) c = some d → d.regular plat = true := by
  intro c d h
  simp only [oneDocs] at h
  split at h
  · cases h
    cases t <;> rfl
  · cases h

/-- `C70_from_partial` applies to a class of numbers, arrays and texts. -/
example (x : Bytes) (off : Nat) (hoff : off ≤ x.length) (n : Nat) (st : St) (v : Val)
    (hu : result (createUnpack (oneEnv plat (pageDoc false)) n 70 (.at x off) st) = .ok v) : off + 7 ≤ x.length :=
  C70_from_partial (one_documented (documented (id := [70]) (by rfl) (by rfl) (by rfl) (by decide)) (by rfl) (by rfl)) (one_settled (by rfl) (by rfl))
    (one_steady (by rfl)) (page_regular false) (page_limits false) n 70 x off hoff hu

/-- `C70_read_partial` also with terminated strings. -/
example (n : Nat) (st st' : St) (v : Val) (hu : createUnpack (oneEnv plat (pageDoc true)) n 70 .io st = .ok v st') : st.io.pos + 7 ≤ st'.io.pos := by
  obtain ⟨_, _, m, h1, h2⟩ := C70_read_partial (one_documented (documented (id := [70]) (by rfl) (by rfl) (by rfl) (by decide)) (by rfl) (by rfl))
    (one_settled (by rfl) (by rfl)) (one_steady (by rfl)) (page_regular true) (page_limits true) n 70 hu
  rw [h1]
  exact Nat.add_le_add_left h2.1 _

/-! ### Where it is false -/

/-- **C70** is false when a nested object is of another class: it is packed by the class it has, here to fewer bytes than the limits
allow. -/
theorem C70_class_is_false : Limits shopDocs shopSpan ∧ ∃ b,
    (∀ st, result (Obj.pack shopEnv 8 (.obj 62 Option.none [("both", .tup [.int 772, .bytes [65], info]), ("rest", .bytes [])]) st) = .ok b) ∧
      ¬ (shopSpan 62).Has b.length :=
  ⟨shop_limits, _, C61_class_is_false.2, fun h => absurd h.1 (by decide)⟩

/-- `class Mark(Structured): kind: uint8; at: uint32` -/
def markDoc : ClassDoc := ⟨.default, [.value "kind" (.int false .one), .value "at" (.int false .four)]⟩

/-- **C70** is false for an object with a byte order of its own: it has none of the bytes that align the fields of its class. -/
theorem C70_order_is_false : AllDocumented (oneEnv plat markDoc) hctx 4 (oneDocs markDoc) ∧ (fieldsSpan (fun _ => .any) 70 .default 0 markDoc.fields) = .exact 8 ∧
    ∀ st, result (Obj.pack (oneEnv plat markDoc) 8 (.obj 70 (some .le) [("kind", .int 1), ("at", .int 2)]) st) = .ok [1, 2, 0, 0, 0] :=
  ⟨one_documented (documented (id := [70]) (by rfl) (by rfl) (by rfl) (by decide)) (by rfl) (by rfl), by rfl, fun st => by rfl⟩

end Verif
