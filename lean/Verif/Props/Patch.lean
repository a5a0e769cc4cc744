import Verif.Proofs.Near
import Verif.Props.Mirror
import Verif.Props.Grows
/-
**C72** (reading) and **C28** (pads): changing some bytes of the data.
-/
namespace Verif
open Spec Sem Samples Extends Places Near

variable {ctx : HintCtx} {N : Nat} {env : Env} {docs : ClassId → Option ClassDoc}

/-- What reading the fields comes to when the bytes of one field of a basic type are changed. -/
theorem Near.patch {P : Platform} {S : ClassId → Prop} (hS : NearDocs docs S) {c : ClassId} {d : ClassDoc} {fs gs : List Field} {a : Name} {f : Fmt}
    (hf : d.fields = fs ++ .value a f :: gs) {w al : Nat} (hb : f.basic = some (w, al)) (hn : ∀ g ∈ fs, g.near S c)
    (hw : ∀ g ∈ gs, g.within (d.attrs.filter (· != a))) {k : Nat} {x y y' z : Bytes} {vs : List Val}
    (hx : readFields P d.byteOrder (readObj P docs k) ⟨c, true, []⟩ 0 fs (x ++ (y ++ z)) = .ok (vs, x.length))
    (hy : y.length = gap d.byteOrder (runs d.byteOrder 0 fs) (some (w, al)) + w) (hy' : y'.length = y.length) :
    ∃ v v', ∃ r : Parsed (List Val × Nat),
      readFields P d.byteOrder (readObj P docs k) ⟨c, true, []⟩ 0 d.fields (x ++ (y ++ z)) = r >>= (fun (ws, m) => .ok (vs ++ v :: ws, m)) ∧
      readFields P d.byteOrder (readObj P docs k) ⟨c, true, []⟩ 0 d.fields (x ++ (y' ++ z)) = r >>= (fun (ws, m) => .ok (vs ++ v' :: ws, m)) := by
  have hx' := readFields_local (P := P) (bo := d.byteOrder) (readObj_local hS k) fs ⟨c, true, []⟩ hn 0 x (y ++ z) (y' ++ z) vs hx
  have hr : ∀ {u : Bytes}, u.length = y.length → ∀ o, ∃ v, f.read P d.byteOrder (readObj P docs k) o ((u ++ z).drop (gap d.byteOrder (runs d.byteOrder 0 fs) f.basic)) = .ok (v, w) := by
    intro u hu o
    rw [List.drop_append_of_le_length (by rw [hb]; omega)]
    obtain ⟨v, hv⟩ := read_basic (P := P) (bo := d.byteOrder) (cls := readObj P docs k) o hb (u.drop (gap d.byteOrder (runs d.byteOrder 0 fs) f.basic))
      (by rw [List.length_drop, hb]; omega)
    exact ⟨v, hv z⟩
  obtain ⟨v, hv⟩ := hr (u := y) rfl (withAll ⟨c, true, []⟩ (names fs) vs)
  obtain ⟨v', hv'⟩ := hr hy' (withAll ⟨c, true, []⟩ (names fs) vs)
  have hd : ∀ {u : Bytes}, u.length = y.length → (u ++ z).drop (gap d.byteOrder (runs d.byteOrder 0 fs) f.basic + w) = z := by
    intro u hu
    rw [hb, ← hy, ← hu, List.drop_left]
  have hal : ∀ o : PObj, Spec.Alike (d.attrs.filter (· != a)) (o.with a v') (o.with a v) := by
    intro o
    refine ⟨rfl, fun b hb => ?_⟩
    rw [List.mem_filter] at hb
    have : b ≠ a := by simpa using hb.2
    simp only [PObj.with, lookup_append, List.lookup, beq_eq_false_iff_ne.2 this]
  refine ⟨v, v', readFields P d.byteOrder (readObj P docs k) ((withAll ⟨c, true, []⟩ (names fs) vs).with a v)
    (after d.byteOrder (runs d.byteOrder 0 fs) f.basic) gs z >>= fun (ws, m) => .ok (ws, x.length + (gap d.byteOrder (runs d.byteOrder 0 fs) f.basic + w + m)), ?_, ?_⟩
  · rw [hf, readFields_append, hx]
    simp only [ok_bind, List.drop_left, readFields, hv, hd, bind_assoc]
  · rw [hf, readFields_append, hx']
    simp only [ok_bind, List.drop_left, readFields, hv', hd hy', bind_assoc, readFields_within gs hw _ _ (hal _)]

/-- The objects are the same but for one attribute, or the exception is the same. -/
def SameBut (a : Name) (r r' : Except Err Val) : Prop :=
  (∃ c A v v' B, r = .ok (.obj c Option.none (A ++ (a, v) :: B)) ∧ r' = .ok (.obj c Option.none (A ++ (a, v') :: B))) ∨ ∃ e, r = .error e ∧ r' = .error e

/-- **C72** (`create_unpack`, partial).  The bytes of one field of a basic type are replaced by as many others, of whatever kind: the object that is
unpacked has another value in that field and is otherwise the same, or the exception is the same.  Missing, and false: other fields that look at this one;
read-to-end strings and unions that read ahead in front of it; and what is missing in C56. -/
theorem C72_unpack_partial (h : AllDocumented env ctx N docs) {own : ClassId → List SerId} (hs : env.settled own) {S : ClassId → Prop} (hS : NearDocs docs S)
    {c : ClassId} {d : ClassDoc} (hd : docs c = some d) {fs gs : List Field} {a : Name} {f : Fmt} (hf : d.fields = fs ++ .value a f :: gs) {w al : Nat}
    (hb : f.basic = some (w, al)) (hn : ∀ g ∈ fs, g.near S c) (hw : ∀ g ∈ gs, g.within (d.attrs.filter (· != a))) {n : Nat} {x y y' z : Bytes} {vs : List Val}
    (hx : readFields env.plat d.byteOrder (readObj env.plat docs n) ⟨c, true, []⟩ 0 fs (x ++ (y ++ z)) = .ok (vs, x.length))
    (hy : y.length = gap d.byteOrder (runs d.byteOrder 0 fs) (some (w, al)) + w) (hy' : y'.length = y.length) {st : St}
    (hr : result (createUnpack env n c (.buf (x ++ (y ++ z))) st) ≠ .error .recursionError) (ho : readObj env.plat docs (n + 1) c (x ++ (y ++ z)) ≠ .odd) :
    ∃ K, ∀ n ≥ K, ∀ st st', SameBut a (result (createUnpack env n c (.buf (x ++ (y ++ z))) st)) (result (createUnpack env n c (.buf (x ++ (y' ++ z))) st')) := by
  obtain ⟨v, v', r, e1, e2⟩ := Near.patch hS hf hb hn hw hx hy hy'
  have h1 := (C56_unpack_partial h hs n c (x ++ (y ++ z)) st).resolve_left hr
  have ho' := ho
  simp only [readObj, hd] at ho'
  split at ho'
  · exact absurd rfl ho'
  · rename_i hc
    have f1 : readObj env.plat docs (n + 1) c (x ++ (y ++ z)) = r >>= fun (ws, m) => .ok (.obj c Option.none (d.attrs.zip (vs ++ v :: ws)), m) := by
      simp only [readObj, hd, if_neg hc, e1, bind_assoc, ok_bind]
    have f2 : readObj env.plat docs (n + 1) c (x ++ (y' ++ z)) = r >>= fun (ws, m) => .ok (.obj c Option.none (d.attrs.zip (vs ++ v' :: ws)), m) := by
      simp only [readObj, hd, if_neg hc, e2, bind_assoc, ok_bind]
    have hl : vs.length = (names fs).length := by rw [readFields_length hx, List.length_map]
    have ha : d.attrs = names fs ++ a :: names gs := by
      unfold ClassDoc.attrs names
      rw [hf, List.filter_append, List.filter_cons_of_pos (by rfl), List.map_append]
      rfl
    have hz : ∀ u ws, d.attrs.zip (vs ++ u :: ws) = (names fs).zip vs ++ (a, u) :: (names gs).zip ws := by
      intro u ws
      rw [ha, List.zip_append hl.symm]
      rfl
    have key : r ≠ .deep := by
      rintro rfl
      rw [f1] at h1
      exact h1
    have key' : r ≠ .odd := by
      rintro rfl
      rw [f1] at ho
      exact ho rfl
    obtain ⟨K1, g1⟩ := C56_unpack_limit_partial h hs (n + 1) c (x ++ (y ++ z)) (by rw [f1]; cases r <;> first | exact absurd rfl key | nofun)
    obtain ⟨K2, g2⟩ := C56_unpack_limit_partial h hs (n + 1) c (x ++ (y' ++ z)) (by rw [f2]; cases r <;> first | exact absurd rfl key | nofun)
    refine ⟨max K1 K2, fun m hm st st' => ?_⟩
    have g1 := g1 m (by omega) st
    have g2 := g2 m (by omega) st'
    rw [f1] at g1
    rw [f2] at g2
    cases r with
    | ok p =>
      obtain ⟨ws, j⟩ := p
      simp only [ok_bind, Parsed.Is, hz] at g1 g2
      exact .inl ⟨c, _, v, v', _, g1, g2⟩
    | err e => exact .inr ⟨e, g1, g2⟩
    | deep => exact absurd rfl key
    | odd => exact absurd rfl key'

/-- **C28** (any bytes in a pad, partial).  The bytes of a pad are replaced by as many others: what is unpacked is the same object, or the same exception
is raised.  The fields behind the pad may be of any type.  Missing, and false: read-to-end strings and unions that read ahead in front of the pad; and what
is missing in C56. -/
theorem C28_replaced_partial (h : AllDocumented env ctx N docs) {own : ClassId → List SerId} (hs : env.settled own) {S : ClassId → Prop} (hS : NearDocs docs S)
    {c : ClassId} {d : ClassDoc} (hd : docs c = some d) {fs gs : List Field} {a : Name} {w : Nat} (hf : d.fields = fs ++ .pad a w :: gs)
    (hn : ∀ g ∈ fs, g.near S c) {n : Nat} {x y y' z : Bytes} {vs : List Val}
    (hx : readFields env.plat d.byteOrder (readObj env.plat docs n) ⟨c, true, []⟩ 0 fs (x ++ (y ++ z)) = .ok (vs, x.length))
    (hy : y.length = w) (hy' : y'.length = w) {st : St}
    (hr : result (createUnpack env n c (.buf (x ++ (y ++ z))) st) ≠ .error .recursionError) (ho : readObj env.plat docs (n + 1) c (x ++ (y ++ z)) ≠ .odd) :
    ∃ K, ∀ n ≥ K, ∀ st st', result (createUnpack env n c (.buf (x ++ (y ++ z))) st) = result (createUnpack env n c (.buf (x ++ (y' ++ z))) st') := by
  have hx' := readFields_local (P := env.plat) (bo := d.byteOrder) (readObj_local hS n) fs ⟨c, true, []⟩ hn 0 x (y ++ z) (y' ++ z) vs hx
  have e : readObj env.plat docs (n + 1) c (x ++ (y' ++ z)) = readObj env.plat docs (n + 1) c (x ++ (y ++ z)) := by
    simp only [readObj, hd]
    split
    · rfl
    · rw [hf, readFields_append, readFields_append, hx, hx']
      have e1 : w ≤ (y ++ z).length := by rw [List.length_append]; omega
      have e2 : w ≤ (y' ++ z).length := by rw [List.length_append]; omega
      simp only [ok_bind, List.drop_left, readFields, if_pos e1, if_pos e2]
      rw [show (y ++ z).drop w = z by rw [← hy, List.drop_left], show (y' ++ z).drop w = z by rw [← hy', List.drop_left]]
  have h1 := (C56_unpack_partial h hs n c (x ++ (y ++ z)) st).resolve_left hr
  have hdp : readObj env.plat docs (n + 1) c (x ++ (y ++ z)) ≠ .deep := by
    intro h2
    rw [h2] at h1
    exact h1
  obtain ⟨K1, g1⟩ := C56_unpack_limit_partial h hs (n + 1) c (x ++ (y ++ z)) hdp
  obtain ⟨K2, g2⟩ := C56_unpack_limit_partial h hs (n + 1) c (x ++ (y' ++ z)) (by rw [e]; exact hdp)
  refine ⟨max K1 K2, fun m hm st st' => ?_⟩
  have g1 := g1 m (by omega) st
  have g2 := g2 m (by omega) st'
  rw [e] at g2
  cases hb : readObj env.plat docs (n + 1) c (x ++ (y ++ z)) with
  | ok p => rw [hb] at g1 g2; rw [g1, g2]
  | err => rw [hb] at g1 g2; rw [g1, g2]
  | deep => exact absurd hb hdp
  | odd => exact absurd hb ho

/-- **C72** (`create_unpack_from`, partial).  The same at an offset, whatever is in front of it, for programs without terminated strings and strings with a
length in front (which C03 does not cover). -/
theorem C72_from_partial (h : AllDocumented env ctx N docs) {own : ClassId → List SerId} (hs : env.settled own) (hst : env.steady false) {S : ClassId → Prop}
    (hS : NearDocs docs S) {c : ClassId} {d : ClassDoc} (hd : docs c = some d) {fs gs : List Field} {a : Name} {f : Fmt} (hf : d.fields = fs ++ .value a f :: gs)
    {w al : Nat} (hb : f.basic = some (w, al)) (hn : ∀ g ∈ fs, g.near S c) (hw : ∀ g ∈ gs, g.within (d.attrs.filter (· != a))) {n : Nat} {p p' x y y' z : Bytes}
    {vs : List Val} (hx : readFields env.plat d.byteOrder (readObj env.plat docs n) ⟨c, true, []⟩ 0 fs (x ++ (y ++ z)) = .ok (vs, x.length))
    (hy : y.length = gap d.byteOrder (runs d.byteOrder 0 fs) (some (w, al)) + w) (hy' : y'.length = y.length) {st : St}
    (hr : result (createUnpack env n c (.at (p ++ (x ++ (y ++ z))) p.length) st) ≠ .error .recursionError)
    (ho : readObj env.plat docs (n + 1) c (x ++ (y ++ z)) ≠ .odd) :
    ∃ K, ∀ n ≥ K, ∀ st st', SameBut a (result (createUnpack env n c (.at (p ++ (x ++ (y ++ z))) p.length) st))
      (result (createUnpack env n c (.at (p' ++ (x ++ (y' ++ z))) p'.length) st')) := by
  have e : ∀ (q u : Bytes) (n : Nat) (st : St), result (createUnpack env n c (.at (q ++ u) q.length) st) = result (createUnpack env n c (.buf u) st) := by
    intro q u n st
    rw [C03_from_partial env own hs hst n c (q ++ u) q.length (by simp) st st, List.drop_left]
  rw [e] at hr
  obtain ⟨K, hK⟩ := C72_unpack_partial h hs hS hd hf hb hn hw hx hy hy' hr ho
  refine ⟨K, fun n hn st st' => ?_⟩
  rw [e, e]
  exact hK n hn st st'

/-- **C72** (`create_unpack_read`, partial).  The same for two streams, for programs without strings with a length in front. -/
theorem C72_read_partial (h : AllDocumented env ctx N docs) {own : ClassId → List SerId} (hs : env.settled own) (hst : env.steady true) {S : ClassId → Prop}
    (hS : NearDocs docs S) {c : ClassId} {d : ClassDoc} (hd : docs c = some d) {fs gs : List Field} {a : Name} {f : Fmt} (hf : d.fields = fs ++ .value a f :: gs)
    {w al : Nat} (hb : f.basic = some (w, al)) (hn : ∀ g ∈ fs, g.near S c) (hw : ∀ g ∈ gs, g.within (d.attrs.filter (· != a))) {n : Nat} {x y y' z : Bytes}
    {vs : List Val} (hx : readFields env.plat d.byteOrder (readObj env.plat docs n) ⟨c, true, []⟩ 0 fs (x ++ (y ++ z)) = .ok (vs, x.length))
    (hy : y.length = gap d.byteOrder (runs d.byteOrder 0 fs) (some (w, al)) + w) (hy' : y'.length = y.length) {st : St}
    (hio : st.io.data.drop st.io.pos = x ++ (y ++ z)) (hr : result (createUnpack env n c .io st) ≠ .error .recursionError)
    (ho : readObj env.plat docs (n + 1) c (x ++ (y ++ z)) ≠ .odd) :
    ∃ K, ∀ n ≥ K, ∀ st st' : St, st.io.data.drop st.io.pos = x ++ (y ++ z) → st'.io.data.drop st'.io.pos = x ++ (y' ++ z) →
      SameBut a (result (createUnpack env n c .io st)) (result (createUnpack env n c .io st')) := by
  rw [(C03_read_partial env own hs hst n c st st).1, hio] at hr
  obtain ⟨K, hK⟩ := C72_unpack_partial h hs hS hd hf hb hn hw hx hy hy' hr ho
  refine ⟨K, fun n hn st st' h1 h2 => ?_⟩
  rw [(C03_read_partial env own hs hst n c st st).1, (C03_read_partial env own hs hst n c st' st').1, h1, h2]
  exact hK n hn st st'

/-- **C28** (any bytes in a pad, `create_unpack_from`, partial).  The same at an offset, with the restriction of C03. -/
theorem C28_replaced_from_partial (h : AllDocumented env ctx N docs) {own : ClassId → List SerId} (hs : env.settled own) (hst : env.steady false)
    {S : ClassId → Prop} (hS : NearDocs docs S) {c : ClassId} {d : ClassDoc} (hd : docs c = some d) {fs gs : List Field} {a : Name} {w : Nat}
    (hf : d.fields = fs ++ .pad a w :: gs) (hn : ∀ g ∈ fs, g.near S c) {n : Nat} {p p' x y y' z : Bytes} {vs : List Val}
    (hx : readFields env.plat d.byteOrder (readObj env.plat docs n) ⟨c, true, []⟩ 0 fs (x ++ (y ++ z)) = .ok (vs, x.length))
    (hy : y.length = w) (hy' : y'.length = w) {st : St}
    (hr : result (createUnpack env n c (.at (p ++ (x ++ (y ++ z))) p.length) st) ≠ .error .recursionError)
    (ho : readObj env.plat docs (n + 1) c (x ++ (y ++ z)) ≠ .odd) :
    ∃ K, ∀ n ≥ K, ∀ st st', result (createUnpack env n c (.at (p ++ (x ++ (y ++ z))) p.length) st) =
      result (createUnpack env n c (.at (p' ++ (x ++ (y' ++ z))) p'.length) st') := by
  have e : ∀ (q u : Bytes) (n : Nat) (st : St), result (createUnpack env n c (.at (q ++ u) q.length) st) = result (createUnpack env n c (.buf u) st) := by
    intro q u n st
    rw [C03_from_partial env own hs hst n c (q ++ u) q.length (by simp) st st, List.drop_left]
  rw [e] at hr
  obtain ⟨K, hK⟩ := C28_replaced_partial h hs hS hd hf hn hx hy hy' hr ho
  refine ⟨K, fun n hn st st' => ?_⟩
  rw [e, e]
  exact hK n hn st st'

/-- **C28** (any bytes in a pad, `create_unpack_read`, partial).  The same for two streams, with the restriction of C03. -/
theorem C28_replaced_read_partial (h : AllDocumented env ctx N docs) {own : ClassId → List SerId} (hs : env.settled own) (hst : env.steady true)
    {S : ClassId → Prop} (hS : NearDocs docs S) {c : ClassId} {d : ClassDoc} (hd : docs c = some d) {fs gs : List Field} {a : Name} {w : Nat}
    (hf : d.fields = fs ++ .pad a w :: gs) (hn : ∀ g ∈ fs, g.near S c) {n : Nat} {x y y' z : Bytes} {vs : List Val}
    (hx : readFields env.plat d.byteOrder (readObj env.plat docs n) ⟨c, true, []⟩ 0 fs (x ++ (y ++ z)) = .ok (vs, x.length))
    (hy : y.length = w) (hy' : y'.length = w) {st : St} (hio : st.io.data.drop st.io.pos = x ++ (y ++ z))
    (hr : result (createUnpack env n c .io st) ≠ .error .recursionError) (ho : readObj env.plat docs (n + 1) c (x ++ (y ++ z)) ≠ .odd) :
    ∃ K, ∀ n ≥ K, ∀ st st' : St, st.io.data.drop st.io.pos = x ++ (y ++ z) → st'.io.data.drop st'.io.pos = x ++ (y' ++ z) →
      result (createUnpack env n c .io st) = result (createUnpack env n c .io st') := by
  rw [(C03_read_partial env own hs hst n c st st).1, hio] at hr
  obtain ⟨K, hK⟩ := C28_replaced_partial h hs hS hd hf hn hx hy hy' hr ho
  refine ⟨K, fun n hn st st' h1 h2 => ?_⟩
  rw [(C03_read_partial env own hs hst n c st st).1, (C03_read_partial env own hs hst n c st' st').1, h1, h2]
  exact hK n hn st st'

/-- `name: char[uint8]; _: pad[3]; size: uint16; text: char[math.inf]` -/
def letterDoc : ClassDoc := ⟨.default, [.value "name" (.counted .one), .pad "0_pad_" 3, .value "size" (.int false .two), .value "text" .rest]⟩

theorem letter_documented : AllDocumented (oneEnv plat letterDoc) hctx 4 (oneDocs letterDoc) :=
  one_documented (documented (by rfl) (by rfl) (by rfl) (by decide)) (by rfl) rfl

theorem letter_settled : (oneEnv plat letterDoc).settled (fun _ => (madeBy [70] (stmt letterDoc)).info.serializer.keepers) := one_settled (by rfl) (by rfl)

theorem letter_near : NearDocs (oneDocs letterDoc) fun _ => False := fun _ _ h => h.elim

/-- `C28_replaced_partial` applies to a class with a string with a length in front of the pad and a read-to-end string behind it. -/
example {y' : Bytes} (hy' : y'.length = 3) : ∃ K, ∀ n ≥ K, ∀ st st',
    result (createUnpack (oneEnv plat letterDoc) n 70 (.buf ([1, 97] ++ ([0, 0, 0] ++ [0, 5, 0, 98, 99]))) st) =
      result (createUnpack (oneEnv plat letterDoc) n 70 (.buf ([1, 97] ++ (y' ++ [0, 5, 0, 98, 99]))) st') :=
  C28_replaced_partial letter_documented letter_settled letter_near (d := letterDoc) rfl (fs := [.value "name" (.counted .one)]) rfl
    (by simp [Field.near, Fmt.near]) (n := 12) (vs := [.bytes [97]]) (by rfl) rfl hy' (st := default)
    (by rw [show result (createUnpack (oneEnv plat letterDoc) 12 70 (.buf ([1, 97] ++ ([0, 0, 0] ++ [0, 5, 0, 98, 99]))) default) =
          .ok (.obj 70 Option.none [("name", .bytes [97]), ("size", .int 5), ("text", .bytes [98, 99])]) from by rfl]
        nofun)
    (by rw [show readObj (oneEnv plat letterDoc).plat (oneDocs letterDoc) 13 70 ([1, 97] ++ ([0, 0, 0] ++ [0, 5, 0, 98, 99])) =
          .ok (.obj 70 Option.none [("name", .bytes [97]), ("size", .int 5), ("text", .bytes [98, 99])], 10) from by rfl]
        nofun)

/-- `C72_unpack_partial` applies to the field `size` behind it, with the byte in front of it that aligns it. -/
example {y' : Bytes} (hy' : y'.length = 3) : ∃ K, ∀ n ≥ K, ∀ st st',
    SameBut "size" (result (createUnpack (oneEnv plat letterDoc) n 70 (.buf ([1, 97, 0, 0, 0] ++ ([0, 5, 0] ++ [98, 99]))) st))
      (result (createUnpack (oneEnv plat letterDoc) n 70 (.buf ([1, 97, 0, 0, 0] ++ (y' ++ [98, 99]))) st')) :=
  C72_unpack_partial letter_documented letter_settled letter_near (d := letterDoc) rfl (fs := [.value "name" (.counted .one), .pad "0_pad_" 3]) rfl
    (w := 2) (al := 2) rfl (by simp [Field.near, Fmt.near]) (by simp [Field.within, Fmt.within]) (n := 12) (vs := [.bytes [97]]) (by rfl) rfl hy' (st := default)
    (by rw [show result (createUnpack (oneEnv plat letterDoc) 12 70 (.buf ([1, 97, 0, 0, 0] ++ ([0, 5, 0] ++ [98, 99]))) default) =
          .ok (.obj 70 Option.none [("name", .bytes [97]), ("size", .int 5), ("text", .bytes [98, 99])]) from by rfl]
        nofun)
    (by rw [show readObj (oneEnv plat letterDoc).plat (oneDocs letterDoc) 13 70 ([1, 97, 0, 0, 0] ++ ([0, 5, 0] ++ [98, 99])) =
          .ok (.obj 70 Option.none [("name", .bytes [97]), ("size", .int 5), ("text", .bytes [98, 99])], 10) from by rfl]
        nofun)

/-- `kind: uint8; _: pad[2]; size: uint16; text: char[math.inf]` -/
def memoDoc : ClassDoc := ⟨.le, [.value "kind" (.int false .one), .pad "0_pad_" 2, .value "size" (.int false .two), .value "text" .rest]⟩

theorem memo_documented : AllDocumented (oneEnv plat memoDoc) hctx 4 (oneDocs memoDoc) :=
  one_documented (documented (by rfl) (by rfl) (by rfl) (by decide)) (by rfl) rfl

theorem memo_settled : (oneEnv plat memoDoc).settled (fun _ => (madeBy [70] (stmt memoDoc)).info.serializer.keepers) := one_settled (by rfl) (by rfl)

theorem memo_near : NearDocs (oneDocs memoDoc) fun _ => False := fun _ _ h => h.elim

/-- The conditions of `C72_from_partial` and `C28_replaced_from_partial` are met at offset 2, those for streams at position 2. -/
example {y' : Bytes} (hy' : y'.length = 2) : (∃ K, ∀ n ≥ K, ∀ st st',
    SameBut "size" (result (createUnpack (oneEnv plat memoDoc) n 70 (.at ([8, 9] ++ ([1, 0, 0] ++ ([5, 0] ++ [98]))) 2) st))
      (result (createUnpack (oneEnv plat memoDoc) n 70 (.at ([7, 7] ++ ([1, 0, 0] ++ (y' ++ [98]))) 2) st'))) ∧
    (∃ K, ∀ n ≥ K, ∀ st st', result (createUnpack (oneEnv plat memoDoc) n 70 (.at ([8, 9] ++ ([1] ++ ([0, 0] ++ [5, 0, 98]))) 2) st) =
      result (createUnpack (oneEnv plat memoDoc) n 70 (.at ([7, 7] ++ ([1] ++ (y' ++ [5, 0, 98]))) 2) st')) ∧
    (∃ K, ∀ n ≥ K, ∀ st st' : St, st.io.data.drop st.io.pos = [1, 0, 0] ++ ([5, 0] ++ [98]) → st'.io.data.drop st'.io.pos = [1, 0, 0] ++ (y' ++ [98]) →
      SameBut "size" (result (createUnpack (oneEnv plat memoDoc) n 70 .io st)) (result (createUnpack (oneEnv plat memoDoc) n 70 .io st'))) ∧
    (∃ K, ∀ n ≥ K, ∀ st st' : St, st.io.data.drop st.io.pos = [1] ++ ([0, 0] ++ [5, 0, 98]) → st'.io.data.drop st'.io.pos = [1] ++ (y' ++ [5, 0, 98]) →
      result (createUnpack (oneEnv plat memoDoc) n 70 .io st) = result (createUnpack (oneEnv plat memoDoc) n 70 .io st')) := by
  have e1 : ∀ x : Except Err Val, x = .ok (.obj 70 Option.none [("kind", .int 1), ("size", .int 5), ("text", .bytes [98])]) → x ≠ .error Err.recursionError := by
    rintro _ rfl; nofun
  have e2 : ∀ x : Parsed (Val × Nat), x = .ok (.obj 70 Option.none [("kind", .int 1), ("size", .int 5), ("text", .bytes [98])], 6) → x ≠ .odd := by
    rintro _ rfl; nofun
  refine ⟨?_, ?_, ?_, ?_⟩
  · exact C72_from_partial memo_documented memo_settled (one_steady (by rfl)) memo_near (d := memoDoc) rfl (fs := [.value "kind" (.int false .one), .pad "0_pad_" 2])
      rfl (w := 2) (al := 2) rfl (by simp [Field.near, Fmt.near]) (by simp [Field.within, Fmt.within]) (n := 12) (p := [8, 9]) (p' := [7, 7])
      (vs := [.int 1]) (by rfl) rfl hy' (st := default) (e1 _ (by rfl)) (e2 _ (by rfl))
  · exact C28_replaced_from_partial memo_documented memo_settled (one_steady (by rfl)) memo_near (d := memoDoc) rfl (fs := [.value "kind" (.int false .one)])
      rfl (by simp [Field.near, Fmt.near]) (n := 12) (p := [8, 9]) (p' := [7, 7]) (vs := [.int 1]) (by rfl) rfl hy' (st := default) (e1 _ (by rfl)) (e2 _ (by rfl))
  · exact C72_read_partial memo_documented memo_settled (one_steady (by rfl)) memo_near (d := memoDoc) rfl (fs := [.value "kind" (.int false .one), .pad "0_pad_" 2])
      rfl (w := 2) (al := 2) rfl (by simp [Field.near, Fmt.near]) (by simp [Field.within, Fmt.within]) (n := 12)
      (vs := [.int 1]) (by rfl) rfl hy' (st := { (default : St) with io := ⟨[8, 9, 1, 0, 0, 5, 0, 98], 2⟩ }) rfl (e1 _ (by rfl)) (e2 _ (by rfl))
  · exact C28_replaced_read_partial memo_documented memo_settled (one_steady (by rfl)) memo_near (d := memoDoc) rfl (fs := [.value "kind" (.int false .one)])
      rfl (by simp [Field.near, Fmt.near]) (n := 12) (vs := [.int 1]) (by rfl) rfl hy' (st := { (default : St) with io := ⟨[8, 9, 1, 0, 0, 5, 0, 98], 2⟩ }) rfl
      (e1 _ (by rfl)) (e2 _ (by rfl))

/-- **C72** is false when unpacking for a field that others look at: `kind` decides how the bytes behind it are read. -/
theorem C72_looked_at_is_false : ∀ st,
    result (createUnpack packetEnv 12 70 (.buf [1, 2, 3, 4]) st) = .ok (.obj 70 Option.none [("kind", .int 1), ("body", .int 0x0302), ("last", .int 4)]) ∧
    result (createUnpack packetEnv 12 70 (.buf [2, 2, 3, 4]) st) = .error .structError := fun st => ⟨by rfl, by rfl⟩

end Verif
