import Verif.Proofs.Share
import Verif.Samples

/-!
C69: what unpacked objects share.
-/
namespace Verif
open Samples Share

mutual
theorem Share.frozen_iff : ∀ v : Val, frozen v = false ↔ Mutable v
  | .list _ => ⟨fun _ => .list _, fun _ => rfl⟩
  | .obj .. => ⟨fun _ => .obj .., fun _ => rfl⟩
  | .custom .. => ⟨fun _ => .custom .., fun _ => rfl⟩
  | .gen => ⟨fun _ => .gen, fun _ => rfl⟩
  | .tup vs => by
    rw [frozen, Share.frozenL_iff vs]
    exact ⟨fun ⟨v, h1, h2⟩ => .tup h1 h2, fun h => by cases h with | tup h1 h2 => exact ⟨_, h1, h2⟩⟩
  | .none | .bool _ | .int _ | .float _ | .bytes _ | .str _ => ⟨nofun, nofun⟩
theorem Share.frozenL_iff : ∀ vs : List Val, frozenL vs = false ↔ ∃ v ∈ vs, Mutable v
  | [] => ⟨nofun, nofun⟩
  | v :: vs => by
    rw [frozenL, Bool.and_eq_false_iff, Share.frozen_iff v, Share.frozenL_iff vs]
    simp
end

/-- **C69** (mutable values).  The defaults that are not copied are the values that can be changed in place. -/
theorem C69_mutable (v : Val) : frozen v = false ↔ Mutable v := frozen_iff v

example : Mutable (.tup [.int 1, .tup [.gen]]) ∧ ¬ Mutable (.tup [.int 1, .tup [.bytes [2]]]) :=
  ⟨(C69_mutable _).1 rfl, fun h => nomatch (C69_mutable _).2 h⟩

/-- **C69** (what an unpacked object is made of).  Unpacking with identities does what unpacking does: it raises the same
exceptions, and otherwise gives the same value and state.  Every list and every instance in the value is new, none is
there twice, and any other mutable object in it is a default of a `Condition`. -/
theorem C69_made {env : Env} (hpost : env.noPost) (n : Nat) (cls : ClassId) (src : Src) (c : Nat) (st : St) :
    match createUnpack env n cls src st with
    | .ok v st' => ∃ t c', create env n cls src c st = .ok (t, c') st' ∧ t.erase = v ∧ c ≤ c' ∧
        (∀ l ∈ t.locs, c ≤ l ∧ l < c') ∧ t.locs.Nodup ∧ ∀ w ∈ t.olds, Default env w
    | .err e st' => create env n cls src c st = .err e st' := by
  have h := create_sim hpost n cls src c st
  cases hy : createUnpack env n cls src st with
  | err e st' => rw [hy] at h; exact h
  | ok v st' =>
    rw [hy] at h
    obtain ⟨t, c', h1, h2, g⟩ := h
    have he := g.erase
    have hi := g.inside
    have hn := g.nodup
    have ho := g.olds
    simp only [eraseL, locsL, oldsL, List.append_nil, List.cons.injEq, and_true] at he hi hn ho
    exact ⟨t, c', h1, he, h2, hi, hn, ho⟩

/-- A `Msg` with two points: itself, its list and the two points are four different new objects. -/
example : (match create env 9 1 (.buf [7, 1, 65, 2, 1, 0, 2, 3, 0, 4]) 100 st0 with
    | .ok (t, c) _ => (t.locs, c)
    | .err .. => ([], 0)) = ([103, 102, 100, 101], 104) := by rfl

example : (match create env 9 1 (.buf [7, 1, 65, 2, 1, 0, 2, 3, 0, 4]) 100 st0 with
    | .ok (t, _) _ => t.erase
    | .err .. => .none) = msg 7 [65] [point 1 2, point 3 4] := by rfl

theorem Share.made_of {env : Env} (hpost : env.noPost) {n : Nat} {cls : ClassId} {src : Src} {c c' : Nat} {st st' : St}
    {t : TVal} (h : create env n cls src c st = .ok (t, c') st') :
    createUnpack env n cls src st = .ok t.erase st' ∧ c ≤ c' ∧ (∀ l ∈ t.locs, c ≤ l ∧ l < c') ∧ t.locs.Nodup ∧
      ∀ w ∈ t.olds, Default env w := by
  have g := C69_made hpost n cls src c st
  cases hy : createUnpack env n cls src st with
  | err e s => rw [hy] at g; simp only [] at g; rw [h] at g; cases g
  | ok v s =>
    rw [hy] at g
    obtain ⟨t2, c2, h1, h2, h3⟩ := g
    rw [h] at h1
    cases h1
    exact ⟨by rw [h2], h3⟩

/-- **C69** (partial: the defaults of all `Condition`s are immutable).  Two objects that are unpacked one after the other
have no mutable object in common, also when they are of one class and unpacked from the same data: changing a list or
an instance in one of them in place leaves the other as it was. -/
theorem C69_partial {env : Env} (hpost : env.noPost) (hf : FrozenDefaults env) {n m : Nat} {cls cls' : ClassId}
    {src src' : Src} {c c1 c2 c3 : Nat} {st st1 st2 st3 : St} {t u : TVal}
    (ht : create env n cls src c st = .ok (t, c1) st1) (hc : c1 ≤ c2)
    (hu : create env m cls' src' c2 st2 = .ok (u, c3) st3) :
    Apart t u ∧ (∀ l ∈ t.locs, ∀ ws, u.put l ws = u) ∧ ∀ l ∈ u.locs, ∀ ws, t.put l ws = t := by
  obtain ⟨_, _, t1, _, t3⟩ := made_of hpost ht
  obtain ⟨_, _, u1, _, u3⟩ := made_of hpost hu
  have none (w : TVal) (h : ∀ v ∈ w.olds, Default env v) : w.olds = [] := by
    cases ho : w.olds with
    | nil => rfl
    | cons v vs =>
      obtain ⟨a, c, ci, b, d⟩ := h v (by rw [ho]; exact List.mem_cons_self)
      rw [hf c ci b v d] at a
      cases a
  have dis : ∀ l ∈ t.locs, l ∉ u.locs := by
    intro l h1 h2
    have := t1 l h1
    have := u1 l h2
    omega
  refine ⟨⟨dis, none t t3, none u u3⟩, fun l h ws => put_same l ws u (dis l h), fun l h ws => put_same l ws t fun h1 => ?_⟩
  exact dis l h1 h

/-- **C69** (inside one object).  Two values at different places of an unpacked object are never the same list or
instance: changing one of its attribute values in place leaves the others as they were. -/
theorem C69_fields {env : Env} (hpost : env.noPost) {n : Nat} {cls : ClassId} {src : Src} {c c1 : Nat} {st st1 : St}
    {l : Nat} {names : List Name} {ts us vs : List TVal} {x : TVal}
    (ht : create env n cls src c st = .ok (.obj l cls names (ts ++ x :: us), c1) st1) (hv : vs = ts ++ us) :
    ∀ k ∈ x.locs, k ≠ l ∧ ∀ ws, putL k ws vs = vs := by
  obtain ⟨_, _, _, nd, _⟩ := made_of hpost ht
  simp only [TVal.locs, locsL_append, locsL, List.nodup_cons, List.nodup_append, List.mem_append] at nd
  intro k hk
  subst hv
  refine ⟨fun e => nd.1 (.inr (.inl (e ▸ hk))), fun ws => putL_same k ws _ ?_⟩
  rw [locsL_append, List.mem_append]
  rintro (h | h)
  · exact nd.2.2.2 k h k (.inl hk) rfl
  · exact nd.2.2.1.2.2 k hk k h rfl

theorem Share.frozen_samples : FrozenDefaults env := by
  intro c ci h v hv
  match c with
  | 0 => cases h; cases hv
  | 1 => cases h; cases hv
  | 2 => cases h; cases hv
  | 3 => cases h; cases hv
  | 4 => cases h; cases hv with
    | head => rfl
    | tail _ h => cases h
  | 5 => cases h; cases hv
  | 6 => cases h; cases hv
  | n + 7 => cases h

theorem Share.noPost_samples : env.noPost := by
  intro c ci h
  match c with
  | 0 => cases h; rfl
  | 1 => cases h; rfl
  | 2 => cases h; rfl
  | 3 => cases h; rfl
  | 4 => cases h; rfl
  | 5 => cases h; rfl
  | 6 => cases h; rfl
  | n + 7 => cases h

/-- The two hypotheses hold for the sample classes, and two trees from the same bytes are made of different objects. -/
example : env.noPost ∧ FrozenDefaults env ∧ (match create env 9 2 (.buf [1, 1, 2, 0]) 0 st0 with
    | .ok (t, c) st => match create env 9 2 (.buf [1, 1, 2, 0]) c st with
      | .ok (u, _) _ => (t.locs, u.locs)
      | .err .. => ([], [])
    | .err .. => ([], [])) = ([3, 2, 1, 0], [7, 6, 5, 4]) := ⟨noPost_samples, frozen_samples, by rfl⟩

namespace Share

/-- `data: Annotated[array[Header[3], uint8], Condition(lambda o: o.kind, [])]` after `kind: bool8`. -/
def optClasses : ClassId → Option ClassInfo
  | 0 => some
    { attrs := ["kind", "data"], byteOrder := .default
      serializer := .compound [0] [.struct ⟨['?'], none⟩,
        .cond (.staticArr 3 u8 (some ⟨"3B".toList, none⟩)) kindOf [.list []]] }
  | _ => none

def optEnv : Env := ⟨plat, optClasses⟩

/-- The mutable objects in two objects unpacked from these bytes, one after the other. -/
def twice (a b : Bytes) : List Nat × List Nat × Nat × Nat :=
  match create optEnv 9 0 (.buf a) 0 st0 with
  | .ok (t, c) st => match create optEnv 9 0 (.buf b) c st with
    | .ok (u, _) _ => (t.locs, u.locs, t.olds.length, u.olds.length)
    | .err .. => ([], [], 0, 0)
  | .err .. => ([], [], 0, 0)

end Share

example : twice [1, 5, 6, 7] [1, 5, 6, 7] = ([1, 0], [3, 2], 0, 0) := by rfl

/-- **C69 is false**: when the condition does not hold, the attribute is the very list that was given to `Condition`, in
every unpacked object.  Appending to the list of one of them changes all others, and those that are still to come. -/
theorem C69_is_false :
    ¬ ∀ (env : Env), env.noPost → ∀ (n m : Nat) (cls cls' : ClassId) (src src' : Src) (c c1 c2 c3 : Nat) (st st1 st2 st3 : St)
      (t u : TVal), create env n cls src c st = .ok (t, c1) st1 → c1 ≤ c2 →
      create env m cls' src' c2 st2 = .ok (u, c3) st3 →
      ∀ v ∈ t.olds, v ∉ u.olds := by
  intro h
  have hp : optEnv.noPost := by
    intro c ci h
    match c with
    | 0 => cases h; rfl
    | n + 1 => cases h
  have e : ∃ t st1 u st3, create optEnv 9 0 (.buf [0]) 0 st0 = .ok (t, 1) st1 ∧
      create optEnv 9 0 (.buf [0]) 1 st1 = .ok (u, 2) st3 ∧ t.olds = [.list []] ∧ u.olds = [.list []] := by
    refine ⟨.obj 0 0 ["kind", "data"] [.plain (.bool false), .shared (.list [])], after (create optEnv 9 0 (.buf [0]) 0 st0),
      .obj 1 0 ["kind", "data"] [.plain (.bool false), .shared (.list [])],
      after (create optEnv 9 0 (.buf [0]) 1 (after (create optEnv 9 0 (.buf [0]) 0 st0))), ?_, ?_, ?_, ?_⟩
    · exact rfl
    · exact rfl
    · rfl
    · rfl
  obtain ⟨t, st1, u, st3, h1, h2, h3, h4⟩ := e
  have := h optEnv hp 9 9 0 0 (.buf [0]) (.buf [0]) 0 1 1 2 st0 st1 st1 st3 t u h1 (by omega) h2 (.list []) (by rw [h3]; exact List.mem_cons_self)
  rw [h4] at this
  exact this List.mem_cons_self

/-- **C69** (copies with another byte order).  `with_byte_order` with identities does what `with_byte_order` does.  It
returns the object itself, or a new object whose attribute values are the values of the old one, not copies of them. -/
theorem C69_copy {env : Env} (hpost : env.noPost) (hn : ∀ c ci, env.classes c = some ci → ci.attrs.Nodup) (bo : ByteOrder)
    (x : Inst) (c : Nat) (st : St) :
    match Obj.withByteOrder env bo x.erase with
    | .ok v => ∃ y c', Share.withByteOrder env bo x c st = .ok (y, c') st ∧ y.erase = v ∧
        ((y = x ∧ c' = c) ∨ (y.loc = c ∧ c' = c + 1 ∧ y.order = some bo ∧ ∀ u ∈ y.vals, u ∈ x.vals))
    | .error e => Share.withByteOrder env bo x c st = .err e st := by
  obtain ⟨l, cls, cur, names, vals⟩ := x
  simp only [Inst.erase, Obj.withByteOrder]
  have key : ∀ f : ClassInfo × Ser → T Inst, (T.lift (M.lift (objSer env cls cur)) >>= f) c st
      = match objSer env cls cur with | .ok r => f r c st | .error e => .err e st := by
    intro f
    show T.bind (T.lift (M.lift (objSer env cls cur))) f c st = _
    unfold T.bind T.lift M.lift
    cases objSer env cls cur <;> rfl
  cases ho : objSer env cls cur with
  | error e =>
    simp only [bind, Except.bind]
    unfold Share.withByteOrder
    rw [key, ho]
  | ok r =>
    obtain ⟨ci, ser⟩ := r
    have hci : env.classes cls = some ci := by
      unfold objSer at ho
      cases hc : env.classes cls with
      | none => rw [hc] at ho; cases ho
      | some ci' =>
        rw [hc] at ho
        cases cur with
        | none => cases ho; rfl
        | some b =>
          cases hw : ci'.serializer.withByteOrder b with
          | error e => simp only [hw] at ho; cases ho
          | ok s => simp only [hw] at ho; cases ho; rfl
    have e1 : Share.withByteOrder env bo ⟨l, cls, cur, names, vals⟩ c st =
        (if bo = cur.getD ci.byteOrder then pure ⟨l, cls, cur, names, vals⟩
        else do
          let _ ← T.lift (M.lift (ser.withByteOrder bo))
          let us ← T.lift (M.lift (gather names vals ci.attrs))
          let _ ← T.lift (M.lift (ci.postInit (ci.attrs.zip (eraseL us))))
          let k ← fresh
          pure ⟨k, cls, some bo, ci.attrs, us⟩ : T Inst) c st := by
      unfold Share.withByteOrder
      rw [key, ho]
    by_cases hb : bo = cur.getD ci.byteOrder
    · simp only [bind, Except.bind, hb, if_true]
      rw [hb] at e1
      simp only [if_true] at e1
      exact ⟨_, c, e1, rfl, .inl ⟨rfl, rfl⟩⟩
    · simp only [bind, Except.bind, hb, if_false]
      simp only [hb, if_false] at e1
      cases hw : ser.withByteOrder bo with
      | error e => rw [hw] at e1; exact e1
      | ok s =>
        rw [hw] at e1
        rw [gather_erase]
        cases hg : gather names vals ci.attrs with
        | error e => rw [hg] at e1; exact e1
        | ok us =>
          rw [hg] at e1
          have hl := (gather_mem hg).1
          have hp := hpost cls ci hci
          have hc : callClass cls ci (eraseL us) = .ok (.obj cls none (ci.attrs.zip (eraseL us))) := by
            unfold callClass
            rw [if_neg (by rw [eraseL_length]; omega), hp]
            show Except.ok (Val.obj cls none (setAll [] (ci.attrs.zip (eraseL us)))) = _
            rw [setAll_zip (hn cls ci hci)]
          simp only [Except.map, hc]
          rw [hp] at e1
          exact ⟨⟨c, cls, some bo, ci.attrs, us⟩, c + 1, e1, rfl, .inr ⟨rfl, rfl, rfl, (gather_mem hg).2⟩⟩

/-- **C69** (copies of what the library makes).  The copy of an object with the attributes of its class has the very
attribute values of the object, all of them, in the same places. -/
theorem C69_copy_same {env : Env} (hpost : env.noPost) (hn : ∀ c ci, env.classes c = some ci → ci.attrs.Nodup) {bo : ByteOrder}
    {x y : Inst} {c c' : Nat} {st st' : St} {ci : ClassInfo} (hc : env.classes x.cls = some ci) (hx : x.names = ci.attrs)
    (hl : x.names.length = x.vals.length) (h : Share.withByteOrder env bo x c st = .ok (y, c') st') :
    y.vals = x.vals ∧ y.names = x.names ∧ y.cls = x.cls := by
  obtain ⟨l, cls, cur, names, vals⟩ := x
  simp only at hc hx hl
  subst hx
  unfold Share.withByteOrder at h
  have h' : T.bind (T.lift (M.lift (objSer env cls cur))) _ c st = _ := h
  unfold T.bind T.lift M.lift at h'
  have ho : ∀ r, objSer env cls cur = .ok r → r.1 = ci := by
    intro r hr
    unfold objSer at hr
    rw [hc] at hr
    cases cur with
    | none => cases hr; rfl
    | some b =>
      cases hw : ci.serializer.withByteOrder b with
      | error e => simp only [hw] at hr; cases hr
      | ok s => simp only [hw] at hr; cases hr; rfl
  cases hs : objSer env cls cur with
  | error e => rw [hs] at h'; cases h'
  | ok r =>
    rw [hs] at h'
    obtain ⟨ci', ser⟩ := r
    have := ho _ hs
    simp only at this
    subst this
    by_cases hb : bo = cur.getD ci'.byteOrder
    · simp only [hb, if_true] at h'
      cases h'
      exact ⟨rfl, rfl, rfl⟩
    · simp only [hb, if_false] at h'
      rw [gather_self (hn cls ci' hc) hl, hpost cls ci' hc] at h'
      cases hw : ser.withByteOrder bo with
      | error e => rw [hw] at h'; cases h'
      | ok s =>
        rw [hw] at h'
        cases h'
        exact ⟨rfl, rfl, rfl⟩

/-- A `Tree` (2) with one list (0) in another byte order: a new object (5) with the same list; in its own byte order: the
object itself. -/
example : (match Share.withByteOrder env .le ⟨2, 2, .none, ["val", "kids"], [.plain (.int 1), .list 0 []]⟩ 5 st0 with
      | .ok (y, c) _ => (y.locs, c)
      | .err .. => ([], 0)) = ([5, 0], 6) ∧
    (match Share.withByteOrder env .default ⟨2, 2, .none, ["val", "kids"], [.plain (.int 1), .list 0 []]⟩ 5 st0 with
      | .ok (y, c) _ => (y.locs, c)
      | .err .. => ([], 0)) = ([2, 0], 5) := ⟨by rfl, by rfl⟩

/-- **C69 is false for copies**: the list of a `Tree` and of its copy with another byte order is one list; appending to
the children of one changes the other. -/
theorem C69_copy_is_false :
    ¬ ∀ (env : Env), env.noPost → ∀ (bo : ByteOrder) (x y : Inst) (c c' : Nat) (st st' : St), (∀ l ∈ x.locs, l < c) →
      Share.withByteOrder env bo x c st = .ok (y, c') st' → y.loc ≠ x.loc → ∀ l ∈ x.locs, l ∉ y.locs := by
  intro h
  have := h env noPost_samples .le ⟨1, 2, .none, ["val", "kids"], [.plain (.int 1), .list 0 []]⟩
    ⟨2, 2, some .le, ["val", "kids"], [.plain (.int 1), .list 0 []]⟩ 2 3 st0 st0 (by decide) rfl (by decide) 0 (by decide)
  exact this (by decide)

/-- **C69** (unpacking into an object).  `obj.unpack*` with identities does what `obj.unpack*` does.  The object stays the
same object, and each of its values is a value it had or one of the new values; if it had just the attributes of its
class, all are new values.  Every list and instance in the new values is new, and none is there twice. -/
theorem C69_again {env : Env} (hpost : env.noPost) (n : Nat) (x : Inst) (src : Src) (c : Nat) (st : St) :
    match Obj.unpack env n x.erase src st with
    | .ok v st' => ∃ y c', objUnpack env n x src c st = .ok (y, c') st' ∧ c ≤ c' ∧
        y.erase = v ∧ y.loc = x.loc ∧ y.cls = x.cls ∧ y.order = x.order ∧ ∃ ci news, env.classes x.cls = some ci ∧
        news.length = ci.attrs.length ∧ (∀ u ∈ y.vals, u ∈ x.vals ∨ u ∈ news) ∧
        (x.names = ci.attrs → ci.attrs.Nodup → x.names.length = x.vals.length → y.vals = news) ∧
        (∀ l ∈ locsL news, c ≤ l ∧ l < c') ∧ (locsL news).Nodup ∧ ∀ w ∈ oldsL news, Default env w
    | .err e st' => objUnpack env n x src c st = .err e st' := by
  have h := objUnpack_sim hpost n x src c st
  cases hy : Obj.unpack env n x.erase src st with
  | err e st' => rw [hy] at h; exact h
  | ok v st' => rw [hy] at h; exact h

/-- A `Msg` (7) with an empty list (8), unpacked again: the same object, a new list (10) with a new point (9). -/
example : (match objUnpack env 9 ⟨7, 1, .none, ["tag", "name", "points"], [.plain (.int 1), .plain (.bytes []), .list 8 []]⟩
      (.buf [7, 1, 65, 1, 1, 0, 2]) 9 st0 with
    | .ok (y, c) _ => (y.locs, c)
    | .err .. => ([], 0)) = ([7, 10, 9], 11) := by rfl

end Verif
