import Verif.Props.Reading
import Verif.Props.RoundTrip
/-
C08: packed data cut short.
-/
namespace Verif
open Spec Sem Samples

variable (env : Env)

/-- **C08** (packed data, partial).  For programs without length-prefixed and read-to-end strings: data that `obj.pack()` produced, cut
short anywhere, is refused by `create_unpack` and `create_unpack_read` from every state.  Missing: length-prefixed strings, where it
is false (`C08_full_is_false`), see `C08_noticed_partial`. -/
theorem C08_packed_partial (own : ClassId → List SerId) (hs : env.settled own) (hst : env.steady true)
    (ha : env.allowed ⟨true, false, true, true⟩) (t l : Bool) (n : Nat) (cls : ClassId) (ci : ClassInfo) (hci : env.classes cls = some ci)
    (hsz : ci.serializer.sized = true) (v v' : Val) (hc : Calm env v.nodes) (hk : KeptObj env t l cls v v') (st1 st1' : St) (b : Bytes)
    (h : Obj.pack env n v st1 = .ok b st1') (j : Nat) (hj : j < b.length) (st2 : St) :
    (∃ e, result (createUnpack env n cls (.buf (b.take j)) st2) = .error e) ∧
    (st2.io.data.drop st2.io.pos = b.take j → ∃ e, result (createUnpack env n cls .io st2) = .error e) := by
  obtain ⟨s, h1, h2⟩ := C01_partial env t l n cls v v' hc hk st1 st1' b h [] (fun _ => rfl) st2
  rw [List.append_nil] at h1
  have cut := C08_cut_partial env own hs hst ha n cls ci hci hsz b v' st2 s h1 b.length (h2 ci hci hsz) j hj st2
  refine ⟨cut, fun hio => ?_⟩
  rw [(C03_read_partial env own hs hst n cls st2 st2).1, hio]
  exact cut

/-- **C08** (at an offset, partial).  The same for `create_unpack_from`, for programs without terminated strings as well. -/
theorem C08_packed_from_partial (own : ClassId → List SerId) (hs : env.settled own) (hst : env.steady true) (hst' : env.steady false)
    (ha : env.allowed ⟨true, false, true, true⟩) (t l : Bool) (n : Nat) (cls : ClassId) (ci : ClassInfo) (hci : env.classes cls = some ci)
    (hsz : ci.serializer.sized = true) (v v' : Val) (hc : Calm env v.nodes) (hk : KeptObj env t l cls v v') (st1 st1' : St) (b : Bytes)
    (h : Obj.pack env n v st1 = .ok b st1') (j : Nat) (hj : j < b.length) (front : Bytes) (st2 : St) :
    ∃ e, result (createUnpack env n cls (.at (front ++ b.take j) front.length) st2) = .error e := by
  rw [C03_from_partial env own hs hst' n cls (front ++ b.take j) front.length (by simp) st2 st2, List.drop_left]
  exact (C08_packed_partial env own hs hst ha t l n cls ci hci hsz v v' hc hk st1 st1' b h j hj st2).1

/-- **C08** (noticed, partial).  With length-prefixed strings too, packed data that was cut short does not pass for whole: if
`create_unpack` returns an object from it, the serializer reports more bytes than there were. -/
theorem C08_noticed_partial (own : ClassId → List SerId) (hs : env.settled own) (ha : env.allowed ⟨true, false, true, false⟩) (t l : Bool)
    (n : Nat) (cls : ClassId) (ci : ClassInfo) (hci : env.classes cls = some ci) (hsz : ci.serializer.sized = true) (v v' : Val)
    (hc : Calm env v.nodes) (hk : KeptObj env t l cls v v') (st1 st1' : St) (b : Bytes) (h : Obj.pack env n v st1 = .ok b st1')
    (j : Nat) (hj : j < b.length) (st2 st2' : St) (w : Val) (hu : createUnpack env n cls (.buf (b.take j)) st2 = .ok w st2') :
    ∃ size, ci.serializer.readSize st2' = .ok size st2' ∧ j < size := by
  obtain ⟨s, h1, h2⟩ := C01_partial env t l n cls v v' hc hk st1 st1' b h [] (fun _ => rfl) st2
  rw [List.append_nil] at h1
  obtain ⟨r, ser, g1, _, g3⟩ := createUnpack_inv hs h1
  obtain ⟨ci', hc', rfl⟩ := decObj_ser g1
  rw [hci] at hc'; cases hc'
  have hsize := g3 hsz
  rw [h2 ci hci hsz] at hsize
  obtain ⟨r', ser', f1, _, f3⟩ := createUnpack_inv hs hu
  obtain ⟨ci', hc', rfl⟩ := decObj_ser f1
  rw [hci] at hc'; cases hc'
  refine ⟨r'.size, f3 hsz, ?_⟩
  apply Classical.byContradiction
  intro hle
  have e := decObj_ext (src := .buf (b.take j ++ b.drop j)) ha (dec_ext ha n) rfl
    ⟨by simp, by simp [PSrc.isAt], by simp [PSrc.isBuf], by simp [PSrc.isBuf], nofun⟩ f1 (by rw [List.length_take]; omega) (by simp [PSrc.isBuf])
  rw [List.take_append_drop] at e
  have g1 : decObj env (dec env n) cls (.buf b) = .ok (v', r, ci.serializer) := g1
  rw [g1] at e
  simp only [Out.ok.injEq, Prod.mk.injEq] at e
  have hsz' : r.size = r'.size := by rw [e.2.1]; rfl
  have : b.length = r.size := by
    injection hsize
  omega

/-! ### Concrete classes -/

mutual
/-- Every tree of the recursive class is representable. -/
theorem flat_kept (t : Bool) : ∀ r : Rose, KeptObj flatEnv t false 2 r.obj r.obj
  | .node v ks => by
    rw [Rose.obj]
    refine .mk _ _ _ _ _ _ _ _ _ [.int v, .list (Rose.objs ks)]
      ([.int v] ++ ([.list (Rose.objs ks)] ++ [])) rfl rfl rfl rfl ?_ rfl
    refine .specialized _ _ _ _ _ _ _ _ _ _ ?_
    refine .cons _ _ _ _ _ _ _ _ _ _ _ _ _ _ _ rfl rfl (.struct _ _ _ _ _ _ _ (kept_struct_ints rfl rfl rfl rfl)) rfl ?_
    refine .cons _ _ _ _ _ _ _ _ _ _ _ _ _ _ _ rfl rfl
      (.array _ _ _ _ _ _ _ _ _ _ _ _ _ _ _ rfl rfl rfl rfl (flat_keptAll t ks)) rfl ?_
    exact .nil _ _ _ _ _ _
theorem flat_keptAll (t : Bool) : ∀ rs : List Rose,
    KeptItems flatEnv t (.structured [21] 2) (.structured [21] 2) none none (Rose.objs rs) (Rose.objs rs)
  | [] => .nil _ _ _ _
  | r :: rs => KeptItems.cons _ _ _ _ _ _ [r.obj] _ (.structured _ _ _ _ _ _ _ _ _ (flat_kept t r)) (flat_keptAll t rs)
end

theorem flat_plain : Plain flatEnv := by
  intro c bo ci ser h
  match c with
  | 0 | 1 | 2 =>
    cases bo with
    | none => cases h; exact ⟨rfl, rfl⟩
    | some b => cases b <;> (cases h; exact ⟨rfl, rfl⟩)
  | c + 3 => cases h

/-- Every tree that packs at all, cut short anywhere: refused.  And a tree that packs to eight bytes. -/
example (r : Rose) (n : Nat) (st1 st1' : St) (b : Bytes) (h : Obj.pack flatEnv n r.obj st1 = .ok b st1') (j : Nat)
    (hj : j < b.length) (st2 : St) : ∃ e, result (createUnpack flatEnv n 2 (.buf (b.take j)) st2) = .error e :=
  (C08_packed_partial flatEnv _ flat_settled (flat_steady _) (flat_allowed _) true false n 2 _ rfl rfl _ _
    (calm_of_plain flat_plain _) (flat_kept true r) st1 st1' b h j hj st2).1

example : result (Obj.pack flatEnv 12 (tree 1 [tree 2 [], tree 3 [tree 4 []]]) st0) = .ok [1, 2, 2, 0, 3, 1, 4, 0] ∧
    result (createUnpack flatEnv 12 2 (.buf [1, 2, 2, 0, 3, 1, 4]) st0) = .error .structError ∧
    result (createUnpack flatEnv 12 2 (.at [9, 1, 2, 2, 0, 3] 1) st0) = .error .structError := ⟨by rfl, by rfl, by rfl⟩

theorem string_plain : Plain stringEnv := by
  intro c bo ci ser h
  match c with
  | 0 | 1 | 2 =>
    cases bo with
    | none => cases h; exact ⟨rfl, rfl⟩
    | some b => cases b <;> (cases h; exact ⟨rfl, rfl⟩)
  | c + 3 => cases h

theorem word_kept (t : Bool) (w : Bytes) :
    KeptObj stringEnv t false 2 (.obj 2 none [("word", .bytes w)]) (.obj 2 none [("word", .bytes w)]) :=
  .mk _ _ _ _ _ _ _ _ _ [.bytes w] [.bytes w] rfl rfl rfl rfl (.dynChar _ _ _ _ _ _ _ _ rfl rfl) rfl

theorem string_codecs : stringEnv.allowed ⟨true, false, true, false⟩ := by
  intro c ci h
  match c with
  | 0 | 1 | 2 => cases h; rfl
  | c + 3 => cases h

/-- A string cut short: what is returned is shorter, and the size reported is that of the whole. -/
example :
    result (Obj.pack stringEnv 9 (.obj 2 none [("word", .bytes [65, 66, 67])]) st0) = .ok [3, 65, 66, 67] ∧
    result (createUnpack stringEnv 9 2 (.buf [3, 65]) st0) = .ok (.obj 2 none [("word", .bytes [65])]) ∧
    result ((do let _ ← createUnpack stringEnv 9 2 (.buf [3, 65]); Ser.readSize (.dynChar [22] u8)) st0) = .ok 4 ∧
    Calm stringEnv (Val.obj 2 none [("word", .bytes [65, 66, 67])]).nodes ∧ stringEnv.allowed ⟨true, false, true, false⟩ :=
  ⟨by rfl, by rfl, by rfl, calm_of_plain string_plain _, string_codecs⟩

end Verif
