import Verif.Proofs.Names
import Verif.Samples
import Verif.Props.Classes
/-
C64: fields may have any name.
-/
namespace Verif
open Spec Samples Names

variable {env : Env} {n : Nat} {cls : ClassId} {bo : Option ByteOrder} {attrs : List (Name × Val)} {v : Val} {st : St}

/-- **C64** (packing).  Only a field called `pack`, `_serializer` or `serializer` has an influence on `obj.pack()` by its
name. -/
theorem C64_pack (h : Clear ["pack", "_serializer", "serializer"] attrs) :
    Names.pack env n (.obj cls bo attrs) = Obj.pack env n (.obj cls bo attrs) := by
  show (M.lift _ >>= fun _ => M.lift _ >>= fun _ => _) = _
  rw [lift_ok_bind (method_clear (getAttr_clear h (by decide))),
    lift_ok_bind (serializer_clear (getAttr_clear h (by decide)) (getAttr_clear h (by decide)))]

/-- **C64** (`pack_into`, `pack_write`). -/
theorem C64_pack_into (h : Clear ["pack_into", "_serializer", "serializer"] attrs) (off : Nat) :
    Names.packInto env n off (.obj cls bo attrs) = Obj.packInto env n off (.obj cls bo attrs) := by
  show (M.lift _ >>= fun _ => M.lift _ >>= fun _ => _) = _
  rw [lift_ok_bind (method_clear (getAttr_clear h (by decide))),
    lift_ok_bind (serializer_clear (getAttr_clear h (by decide)) (getAttr_clear h (by decide)))]

theorem C64_pack_write (h : Clear ["pack_write", "_serializer", "serializer"] attrs) :
    Names.packWrite env n (.obj cls bo attrs) = Obj.packWrite env n (.obj cls bo attrs) := by
  show (M.lift _ >>= fun _ => M.lift _ >>= fun _ => _) = _
  rw [lift_ok_bind (method_clear (getAttr_clear h (by decide))),
    lift_ok_bind (serializer_clear (getAttr_clear h (by decide)) (getAttr_clear h (by decide)))]

/-- **C64** (unpacking into an object). -/
theorem C64_unpack (src : Src) (h : Clear [unpackName src, "_serializer", "serializer", "attrs"] attrs) :
    Names.unpack env n (.obj cls bo attrs) src = Obj.unpack env n (.obj cls bo attrs) src := by
  show (M.lift _ >>= fun _ => M.lift _ >>= fun _ => _) = _
  rw [lift_ok_bind (method_clear (getAttr_clear h (by simp))),
    lift_ok_bind (serializer_clear (getAttr_clear h (by simp)) (getAttr_clear h (by simp)))]
  simp only [getAttr_clear h (show "attrs" ∈ _ by simp)]

/-- **C64** (equality). -/
theorem C64_eq {userEq : Val → Val → Except Err Bool} {d : ClassId} {bo' : Option ByteOrder} {bs : List (Name × Val)}
    (h : Clear ["attrs"] attrs) :
    Names.eq env userEq (n + 1) (.obj cls bo attrs) (.obj d bo' bs) = pyEq env userEq (n + 1) (.obj cls bo attrs) (.obj d bo' bs) := by
  unfold Names.eq
  simp only [getAttr_clear h (show "attrs" ∈ _ by simp)]
  split
  · rename_i hc
    unfold pyEq
    simp only [Val.isCustom, Bool.or_self, Bool.false_eq_true, if_false]
    rw [if_pos hc]
  · rfl

/-- **C64** (construction). -/
theorem C64_init {ci : ClassInfo} (hn : ci.attrs.Nodup) (h : "__post_init__" ∉ ci.attrs) (vals : List Val) :
    Names.init cls ci vals = callClass cls ci vals := by
  unfold Names.init callClass
  split
  · rfl
  · have e : (ci.attrs.zip vals).foldl (fun as nv => setAttr as nv.1 nv.2) [] = ci.attrs.zip vals := setAll_zip hn vals
    have hc : Clear ["__post_init__"] (ci.attrs.zip vals) := clear_zip fun a ha hm => by
      rw [List.mem_singleton] at hm
      exact h (hm ▸ ha)
    simp only [e]
    rw [method_clear (getAttr_clear hc (by simp))]
    rfl

/-- **C64** (creation).  Only `_Proxy__attrs` and `__post_init__` are of influence on `create_unpack` (besides `cls` in a class
with a `Self` field, see C52). -/
theorem C64_create {ci : ClassInfo} (hci : env.classes cls = some ci) (hn : ci.attrs.Nodup)
    (h : ∀ a ∈ ci.attrs, a ∉ ["_Proxy__attrs", "__post_init__"]) (src : Src) :
    Names.create env n cls src st = createUnpack env n cls src st := by
  unfold Names.create createUnpack createUnpackWith
  simp only [hci]
  simp only [bind, M.bind]
  cases h1 : ci.serializer.preunpack ⟨cls, true, []⟩ st with
  | err e s => rfl
  | ok s s1 =>
    simp only
    cases h2 : unpack env n (assignVals ci.attrs) s src s1 with
    | err e s => rfl
    | ok vals s2 =>
      simp only
      have e : (ci.attrs.zip vals).foldl (fun as nv => setAttr as nv.1 nv.2) [] = ci.attrs.zip vals := setAll_zip hn vals
      by_cases hl : vals.length = ci.attrs.length
      · rw [if_neg (by omega), e]
        have hc : Clear ["_Proxy__attrs", "__post_init__"] (ci.attrs.zip vals) := clear_zip h
        have hp : proxyIter (ci.attrs.zip vals) ci.attrs = .ok vals := by
          unfold proxyIter
          rw [getAttr_clear hc (by simp), ← setAll_zip hn]
          exact (Zips.getAttrs_proxy hn vals).1 hl.symm
        simp only [hp]
        show M.lift (Names.init cls ci vals) s2 = _
        rw [C64_init hn fun hm => h _ hm (by simp)]
        unfold callClass construct
        rw [if_neg (by omega), if_pos hl, e]
        simp only [bind, Except.bind]
        cases ci.postInit (ci.attrs.zip vals) <;> rfl
      · rw [if_pos hl]
        unfold construct
        rw [if_neg hl]
        rfl

/-- **C64** (`with_byte_order`). -/
theorem C64_with_byte_order {ci : ClassInfo} (hci : env.classes cls = some ci) (hn : ci.attrs.Nodup)
    (h : Clear ["with_byte_order", "serializer", "byte_order"] attrs) (hp : "__post_init__" ∉ ci.attrs)
    (hb : ∀ as as', ci.postInit as = .ok as' → Clear ["byte_order"] as → Clear ["byte_order"] as')
    (ha : "byte_order" ∉ ci.attrs) (b : ByteOrder) :
    Names.withByteOrder env b (.obj cls bo attrs) = Obj.withByteOrder env b (.obj cls bo attrs) := by
  unfold Names.withByteOrder Obj.withByteOrder orderSerializer
  simp only [method_clear (getAttr_clear h (show "with_byte_order" ∈ _ by simp)), getAttr_clear h (show "byte_order" ∈ _ by simp),
    getAttr_clear h (show "serializer" ∈ _ by simp), bind, Except.bind, adopt]
  cases h1 : objSer env cls bo with
  | error e => rfl
  | ok x =>
    obtain ⟨ci', ser⟩ := x
    have hcc : ci' = ci := objSer_class hci h1
    subst hcc
    simp only [decide_eq_true_eq]
    split
    · rfl
    · cases h2 : ser.withByteOrder b with
      | error e => rfl
      | ok s2 =>
        simp only
        cases h3 : getAttrs attrs ci'.attrs with
        | error e => rfl
        | ok vals =>
          simp only
          rw [C64_init hn hp]
          cases h4 : callClass cls ci' vals with
          | error e => rfl
          | ok w =>
            simp only
            obtain ⟨as, rfl, hc⟩ : ∃ as, w = .obj cls Option.none as ∧ Clear ["byte_order"] as := by
              unfold callClass at h4
              split at h4
              · cases h4
              · rw [show (ci'.attrs.zip vals).foldl (fun as nv => setAttr as nv.1 nv.2) [] = ci'.attrs.zip vals from setAll_zip hn vals] at h4
                cases h5 : ci'.postInit (ci'.attrs.zip vals) with
                | error e => rw [h5] at h4; cases h4
                | ok as =>
                  rw [h5] at h4
                  cases h4
                  refine ⟨as, rfl, hb _ _ h5 (clear_zip fun a hm hx => ?_)⟩
                  rw [List.mem_singleton] at hx
                  exact ha (hx ▸ hm)
            simp only [getAttr_clear hc (show "byte_order" ∈ _ by simp)]

/-- **C64** (objects in fields). -/
theorem C64_nested {id : SerId} {c : ClassId} (h : Clear ["pack", "pack_into", "pack_write", "_serializer", "serializer"] attrs)
    (off : Nat) :
    Names.nestedPack env n id (.obj cls bo attrs) = Verif.pack env (n + 1) (.structured id c) [.obj cls bo attrs] ∧
    Names.nestedPackInto env n id off (.obj cls bo attrs) = Verif.packInto env (n + 1) (.structured id c) off [.obj cls bo attrs] ∧
    Names.nestedPackWrite env n id (.obj cls bo attrs) = Verif.packWrite env (n + 1) (.structured id c) [.obj cls bo attrs] := by
  have hs := fun m => serializer_clear (m := m) (getAttr_clear h (by decide)) (getAttr_clear h (by decide))
  refine ⟨?_, ?_, ?_⟩ <;> show (M.lift _ >>= fun _ => M.lift _ >>= fun _ => _) = _
  · rw [lift_ok_bind (method_clear (getAttr_clear h (by decide))), lift_ok_bind (hs _)]; rfl
  · rw [lift_ok_bind (method_clear (getAttr_clear h (by decide))), lift_ok_bind (hs _)]; rfl
  · rw [lift_ok_bind (method_clear (getAttr_clear h (by decide))), lift_ok_bind (hs _)]; rfl

/-- **C64** (partial).  If no attribute of an object has one of the twelve names in `taken`, all methods work as they do
in the class, whatever the names.  Missing: these names, see the theorems below. -/
theorem C64_partial (h : Clear taken attrs) :
    Names.pack env n (.obj cls bo attrs) = Obj.pack env n (.obj cls bo attrs) ∧
    (∀ off, Names.packInto env n off (.obj cls bo attrs) = Obj.packInto env n off (.obj cls bo attrs)) ∧
    Names.packWrite env n (.obj cls bo attrs) = Obj.packWrite env n (.obj cls bo attrs) ∧
    (∀ src, Names.unpack env n (.obj cls bo attrs) src = Obj.unpack env n (.obj cls bo attrs) src) ∧
    ∀ userEq d bo' bs, Names.eq env userEq (n + 1) (.obj cls bo attrs) (.obj d bo' bs) =
      pyEq env userEq (n + 1) (.obj cls bo attrs) (.obj d bo' bs) := by
  have sub : ∀ {l : List Name}, (∀ m ∈ l, m ∈ taken) → Clear l attrs := fun hl a ha hm => h a ha (hl a hm)
  refine ⟨C64_pack (sub (by decide)), fun off => C64_pack_into (sub (by decide)) off, C64_pack_write (sub (by decide)),
    fun src => C64_unpack src (sub ?_), fun userEq d bo' bs => C64_eq (sub (by decide))⟩
  cases src with
  | buf b => exact show ∀ m ∈ ["unpack", "_serializer", "serializer", "attrs"], m ∈ taken by decide
  | «at» b off => exact show ∀ m ∈ ["unpack_from", "_serializer", "serializer", "attrs"], m ∈ taken by decide
  | io => exact show ∀ m ∈ ["unpack_read", "_serializer", "serializer", "attrs"], m ∈ taken by decide

/-- **C64** (other values).  What is no object has none of the methods. -/
theorem C64_no_object (hv : ∀ c b as, v ≠ .obj c b as) (b : ByteOrder) (off : Nat) (src : Src) (id : SerId) :
    Names.pack env n v st = .err .attributeError st ∧ Names.packInto env n off v st = .err .attributeError st ∧
    Names.packWrite env n v st = .err .attributeError st ∧ Names.unpack env n v src st = .err .attributeError st ∧
    Names.withByteOrder env b v = .error .attributeError ∧ Names.nestedPack env n id v st = .err .attributeError st ∧
    Names.nestedPackInto env n id off v st = .err .attributeError st ∧ Names.nestedPackWrite env n id v st = .err .attributeError st := by
  cases v with
  | obj c b as => exact absurd rfl (hv c b as)
  | _ => exact ⟨rfl, rfl, rfl, rfl, rfl, rfl, rfl, rfl⟩

example : result (Names.pack env 3 (.int 5) st0) = .error .attributeError := by rfl

/-- **C64** (no class).  What is no class has no `create_unpack`. -/
theorem C64_no_class (h : env.classes cls = none) (src : Src) : Names.create env n cls src st = .err .attributeError st := by
  simp only [Names.create, h]
  rfl

example : result (Names.create Samples.env 3 99 (.buf [1]) st0) = .error .attributeError := by rfl

/-! ### What goes wrong -/

/-- **C64 is false** (methods).  An object with a field named like a method has lost the method: `TypeError`, whatever the
class and the values. -/
theorem C64_method_is_false :
    (getAttr? attrs "pack" = some v → Names.pack env n (.obj cls bo attrs) st = .err .typeError st) ∧
    (∀ off, getAttr? attrs "pack_into" = some v → Names.packInto env n off (.obj cls bo attrs) st = .err .typeError st) ∧
    (getAttr? attrs "pack_write" = some v → Names.packWrite env n (.obj cls bo attrs) st = .err .typeError st) ∧
    (∀ src, getAttr? attrs (unpackName src) = some v → Names.unpack env n (.obj cls bo attrs) src st = .err .typeError st) ∧
    (∀ b, getAttr? attrs "with_byte_order" = some v → Names.withByteOrder env b (.obj cls bo attrs) = .error .typeError) := by
  refine ⟨fun h => lift_error_bind (method_taken h) st, fun off h => lift_error_bind (method_taken h) st,
    fun h => lift_error_bind (method_taken h) st, fun src h => lift_error_bind (method_taken h) st, fun b h => ?_⟩
  unfold Names.withByteOrder
  simp only [method_taken h]
  rfl

/-- **C64 is false** (`_serializer`, `serializer`).  Nothing can be packed or unpacked: `TypeError` or `AttributeError`. -/
theorem C64_serializer_is_false (h : getAttr? attrs "_serializer" = some v ∨ getAttr? attrs "serializer" = some v) :
    (∃ e, (e = .typeError ∨ e = .attributeError) ∧ Names.pack env n (.obj cls bo attrs) st = .err e st) ∧
    (∀ off, ∃ e, (e = .typeError ∨ e = .attributeError) ∧ Names.packInto env n off (.obj cls bo attrs) st = .err e st) ∧
    (∃ e, (e = .typeError ∨ e = .attributeError) ∧ Names.packWrite env n (.obj cls bo attrs) st = .err e st) ∧
    ∀ src, ∃ e, (e = .typeError ∨ e = .attributeError) ∧ Names.unpack env n (.obj cls bo attrs) src st = .err e st := by
  have hs : ∀ m, ∃ e, (e = Err.typeError ∨ e = .attributeError) ∧ serializer attrs m = .error e := by
    intro m
    unfold serializer method
    cases h1 : getAttr? attrs "_serializer" with
    | some w => exact ⟨_, .inl rfl, rfl⟩
    | none =>
      rcases h with h | h
      · rw [h1] at h; cases h
      · rw [h]
        refine ⟨onValue v m, ?_, rfl⟩
        unfold onValue
        split
        · split
          · exact .inl rfl
          · exact .inr rfl
        · exact .inr rfl
  have key : ∀ {α : Type} (name m : Name) (f : M α), ∃ e, (e = Err.typeError ∨ e = .attributeError) ∧
      (M.lift (method attrs name) >>= fun _ => M.lift (serializer attrs m) >>= fun _ => f) st = .err e st := by
    intro α name m f
    cases h1 : getAttr? attrs name with
    | some w => exact ⟨_, .inl rfl, lift_error_bind (method_taken h1) st⟩
    | none =>
      rw [lift_ok_bind (method_clear h1)]
      obtain ⟨e, h2, h3⟩ := hs m
      exact ⟨e, h2, lift_error_bind h3 st⟩
  exact ⟨key _ _ _, fun off => key _ _ _, key _ _ _, fun src => key _ _ _⟩

/-- **C64 is false** (`attrs`).  An object with a field called `attrs` that holds no sequence never compares equal to one of
its class, not even to itself, and can never be unpacked into. -/
theorem C64_attrs_is_false {userEq : Val → Val → Except Err Bool} (h : getAttr? attrs "attrs" = some v) (hv : single v = true)
    (bo' : Option ByteOrder) (bs : List (Name × Val)) :
    Names.eq env userEq n (.obj cls bo attrs) (.obj cls bo' bs) = .error .typeError ∧
    ∀ src w st', Names.unpack env n (.obj cls bo attrs) src st ≠ .ok w st' := by
  refine ⟨?_, fun src w st' hu => ?_⟩
  · unfold Names.eq
    simp [h, hv]
  · obtain ⟨_, s1, _, hu⟩ := M.bind_ok (show (M.lift _ >>= fun _ => _) st = _ from hu)
    obtain ⟨_, s2, _, hu⟩ := M.bind_ok hu
    simp only [h] at hu
    obtain ⟨_, s3, _, hu⟩ := M.bind_ok hu
    obtain ⟨_, s4, _, hu⟩ := M.bind_ok hu
    simp only [hv, if_true] at hu
    split at hu
    · cases hu
    · obtain ⟨_, s5, _, hu⟩ := M.bind_ok hu
      cases hu

/-- **C64** (`attrs`, what is raised).  The serializer is asked first, with the object itself as the partial object, and its exception wins;
a compound serializer has then read nothing, another one has read all. -/
theorem C64_attrs_errors (h : Clear ["_serializer", "serializer"] attrs) (h' : getAttr? attrs "attrs" = some v) (hv : single v = true)
    {ci : ClassInfo} {ser : Ser} (ho : objSer env cls bo = .ok (ci, ser)) (src : Src) (hm : getAttr? attrs (unpackName src) = Option.none) :
    Names.unpack env n (.obj cls bo attrs) src st = match ser.preunpack ⟨cls, false, attrs⟩ st with
      | .err e s1 => .err e s1
      | .ok s s1 => if s.isLazy then .err .typeError s1 else match Verif.unpack env n noUpd s src s1 with
        | .ok _ s2 => .err .typeError s2
        | .err e s2 => .err e s2 := by
  have hs : serializer attrs "preunpack" = .ok () := serializer_clear (getAttr_clear h (by decide)) (getAttr_clear h (by decide))
  show (M.lift (method attrs (unpackName src)) >>= fun _ => M.lift (serializer attrs "preunpack") >>= fun _ => _) st = _
  rw [lift_ok_bind (method_clear hm), lift_ok_bind hs]
  simp only [h', hv, if_true]
  rw [ho]
  show M.bind (ser.preunpack ⟨cls, false, attrs⟩) _ st = _
  unfold M.bind
  cases ser.preunpack ⟨cls, false, attrs⟩ st with
  | err e s1 => rfl
  | ok s s1 =>
    dsimp only
    cases hl : s.isLazy with
    | true => rfl
    | false =>
      show M.bind (Verif.unpack env n noUpd s src) _ s1 = _
      unfold M.bind
      simp only [Bool.false_eq_true, if_false]
      cases Verif.unpack env n noUpd s src s1 <;> rfl

/-- **C64 is false** (`__post_init__`).  A class with a field of this name can never be instantiated. -/
theorem C64_post_init_is_false {ci : ClassInfo} (h : "__post_init__" ∈ ci.attrs) (vals : List Val) :
    Names.init cls ci vals = .error .typeError := by
  unfold Names.init
  split
  · rfl
  · rename_i hl
    have : ∃ w, getAttr? ((ci.attrs.zip vals).foldl (fun as nv => setAttr as nv.1 nv.2) []) "__post_init__" = some w :=
      getAttr_assigned (by simpa using hl) h
    obtain ⟨w, hw⟩ := this
    show (method _ _ >>= fun _ => _) = _
    rw [method_taken hw]
    rfl

/-- **C64 is false** (`_Proxy__attrs`).  The comment in the code says that no attribute of the class is shadowed
(`structured.py:472-475`); with a field of this name that holds no sequence an instance cannot be made from the values read. -/
theorem C64_proxy_is_false {proxy : List (Name × Val)} {names : List Name} (h : getAttr? proxy "_Proxy__attrs" = some v)
    (hv : single v = true) : proxyIter proxy names = .error .typeError := by
  unfold proxyIter
  rw [h]
  show (pyIter v >>= fun l => getNamed proxy l) = _
  have : pyIter v = .error .typeError := by
    unfold pyIter
    unfold single at hv
    cases he : v.strip <;> rw [he] at hv <;> first | cases hv | rfl
  rw [this]
  rfl

/-- **C64** (`_Proxy__attrs` with a sequence).  The instance is made from the attributes that the sequence names, whatever the class says.
The first name that there is not is `AttributeError`, the first item that is no text is `TypeError`. -/
theorem C64_proxy_names {proxy : List (Name × Val)} {names : List Name} (h : getAttr? proxy "_Proxy__attrs" = some v) {ns : List Name} {rest : List Val}
    (hi : pyIter v = .ok (ns.map (fun a => .str (text a)) ++ rest)) (hns : ∀ a ∈ ns, (getAttr? proxy a).isSome = true) :
    (rest = [] → proxyIter proxy names = getAttrs proxy ns) ∧
    (∀ a rest', rest = .str (text a) :: rest' → getAttr? proxy a = none → proxyIter proxy names = .error .attributeError) ∧
    (∀ w rest', rest = w :: rest' → (∀ s, w ≠ .str s) → proxyIter proxy names = .error .typeError) := by
  have e : proxyIter proxy names = getNamed proxy (ns.map (fun a => .str (text a)) ++ rest) := by
    simp only [proxyIter, h, hi]
    rfl
  have hf : ∀ a, (proxy.find? fun p => text p.1 = text a).map (·.2) = getAttr? proxy a := by
    intro a
    have : (fun p : Name × Val => decide (text p.1 = text a)) = fun p => p.1 == a := by
      funext p
      rw [Bool.eq_iff_iff, decide_eq_true_eq, beq_iff_eq]
      exact ⟨fun h => String.toList_inj.1 (List.map_inj_right (fun a b => Char.toNat_inj.1) |>.1 h), fun h => by rw [h]⟩
    rw [this]
    rfl
  have step : ∀ (ns : List Name), (∀ a ∈ ns, (getAttr? proxy a).isSome = true) → getNamed proxy (ns.map (fun a => .str (text a)) ++ rest) = (do
      let vs ← getAttrs proxy ns
      let ws ← getNamed proxy rest
      .ok (vs ++ ws)) := by
    intro ns
    induction ns with
    | nil => intro _; cases hg : getNamed proxy rest <;> simp [getAttrs, hg] <;> rfl
    | cons a ns ih =>
      intro hns
      obtain ⟨w, hw⟩ := Option.isSome_iff_exists.1 (hns a (by simp))
      have h1 := hf a
      rw [hw] at h1
      obtain ⟨p, hp, rfl⟩ := Option.map_eq_some_iff.1 h1
      have ih := ih fun b hb => hns b (by simp [hb])
      simp only [List.map_cons, List.cons_append, getNamed, hp, ih, getAttrs, hw]
      cases getAttrs proxy ns <;> cases getNamed proxy rest <;> rfl
  have hall : ∃ vs, getAttrs proxy ns = .ok vs := by
    clear hi e
    induction ns with
    | nil => exact ⟨[], rfl⟩
    | cons a ns ih =>
      obtain ⟨w, hw⟩ := Option.isSome_iff_exists.1 (hns a (by simp))
      obtain ⟨vs, hv⟩ := ih fun b hb => hns b (by simp [hb])
      exact ⟨w :: vs, by simp only [getAttrs, hw, hv]; rfl⟩
  obtain ⟨vs, hvs⟩ := hall
  rw [e, step ns hns, hvs]
  refine ⟨?_, ?_, ?_⟩
  · rintro rfl
    simp only [getNamed]
    simp [bind, Except.bind]
  · rintro a rest' rfl ha
    have h1 := hf a
    rw [ha, Option.map_eq_none_iff] at h1
    simp only [getNamed, h1]
    rfl
  · rintro w rest' rfl hw
    have : getNamed proxy (w :: rest') = .error .typeError := by
      cases w with
      | str s => exact absurd rfl (hw s)
      | _ => rfl
    simp only [this]
    rfl

/-- A field `_Proxy__attrs` that holds the names `b`, `a`, then one that is unknown, then a number. -/
example :
    let proxy : List Val → List (Name × Val) := fun vs => [("a", .int 1), ("b", .int 2), ("_Proxy__attrs", .list vs)]
    proxyIter (proxy [.str (text "b"), .str (text "a")]) ["a", "b", "_Proxy__attrs"] = .ok [.int 2, .int 1] ∧
    proxyIter (proxy [.str (text "b"), .str (text "c")]) ["a", "b", "_Proxy__attrs"] = .error .attributeError ∧
    proxyIter (proxy [.str (text "b"), .int 5]) ["a", "b", "_Proxy__attrs"] = .error .typeError := ⟨by rfl, by rfl, by rfl⟩

/-- **C64 is false** (`byte_order`).  The copy made by `with_byte_order` has the byte order in the field of this name, in place
of the value. -/
theorem C64_byte_order_is_false {b : ByteOrder} {ci : ClassInfo} {w : Val} {c : ClassId} {bo' : Option ByteOrder}
    {as : List (Name × Val)} (hci : env.classes cls = some ci) (hn : ci.attrs.Nodup)
    (hi : ∀ as, ci.postInit as = .ok as) (hm : "byte_order" ∈ ci.attrs) (ha : getAttr? attrs "byte_order" = some w)
    (hw : isOrder b w = false) (h : Names.withByteOrder env b (.obj cls bo attrs) = .ok (.obj c bo' as)) :
    getAttr? as "byte_order" = some (.str (b.value.map Char.toNat)) := by
  obtain ⟨_, _, h⟩ := Except.bind_ok' (show (method _ _ >>= fun _ => _) = _ from h)
  obtain ⟨⟨ci', ser⟩, h1, h⟩ := Except.bind_ok' h
  have hcc : ci' = ci := objSer_class hci h1
  subst hcc
  simp only [ha, hw, Bool.false_eq_true, if_false] at h
  obtain ⟨held, _, h⟩ := Except.bind_ok' h
  obtain ⟨vals, _, h⟩ := Except.bind_ok' h
  obtain ⟨o, h4, h⟩ := Except.bind_ok' h
  have : ∃ as0 x, o = .obj cls Option.none as0 ∧ getAttr? as0 "byte_order" = some x := by
    unfold Names.init at h4
    split at h4
    · cases h4
    · rename_i hl
      obtain ⟨_, _, h4⟩ := Except.bind_ok' (show (method _ _ >>= fun _ => _) = _ from h4)
      rw [hi] at h4
      cases h4
      obtain ⟨x, hx⟩ := getAttr_assigned (a := "byte_order") (vals := vals) (by simpa using hl) hm
      exact ⟨_, x, rfl, hx⟩
  obtain ⟨as0, x, rfl, hx⟩ := this
  simp only at h
  cases h
  unfold adopt
  cases held with
  | none => simp only [hx]; rw [getAttr_setAttr, if_pos rfl]
  | some w =>
    have hx' : getAttr? (setAttr as0 "serializer" w) "byte_order" = some x := by
      rw [getAttr_setAttr, if_neg (by decide)]; exact hx
    simp only [hx']
    rw [getAttr_setAttr, if_pos rfl]

/-- **C64 is false** (`byte_order`).  `with_byte_order` compares with the field of this name: if its value is the text of the byte
order asked for, the object itself is returned, with the byte order it has. -/
theorem C64_same_order_is_false {b : ByteOrder} {ci : ClassInfo} (hci : env.classes cls = some ci)
    (hm : getAttr? attrs "with_byte_order" = Option.none) (ha : getAttr? attrs "byte_order" = some (.str (b.value.map Char.toNat))) :
    Names.withByteOrder env b (.obj cls Option.none attrs) = .ok (.obj cls Option.none attrs) := by
  have h1 : method attrs "with_byte_order" = .ok () := by unfold method; rw [hm]
  have h2 : objSer env cls Option.none = .ok (ci, ci.serializer) := by unfold objSer; rw [hci]
  unfold Names.withByteOrder
  simp only [h1, h2, ha, bind, Except.bind]
  rw [if_pos]
  simp [isOrder, Val.keyEq]

/-- **C64 is false** (order of fields).  `class A(Structured): x: uint8; attrs: uint16` has the fields in the other order: the
base class `Structured` has annotations called `serializer`, `attrs`, `_attrgetter` and `byte_order`, whose places in the
hints come first. -/
theorem C64_order_is_false : ∃ o, createClass hctx 3 [12] world0
      { bases := [.structured], anns := [("x", uint8H), ("attrs", uint16H)] } = .ok o ∧
    o.info.attrs = ["attrs", "x"] ∧ o.info.serializer = .struct ⟨"HB".toList, none⟩ := ⟨_, by rfl, by rfl, by rfl⟩

end Verif

namespace Verif.Samples
open Names

/-! ### Concrete cases -/

/-- Fields with names in use. -/
def named (n : Name) : Env := ⟨plat, fun c => if c = 0 then
  some { attrs := ["x", n], byteOrder := .le, serializer := .struct ⟨"<BH".toList, none⟩ } else none⟩

def held (n : Name) : Val := .obj 0 none [("x", .int 1), (n, .int 2)]

example : Names.withByteOrder (named "byte_order") .be (.obj 0 none [("x", .int 1), ("byte_order", .str [62])]) =
    .ok (.obj 0 none [("x", .int 1), ("byte_order", .str [62])]) := by rfl
example : result (Names.pack (named "y") 3 (held "y") st0) = .ok [1, 2, 0] := by rfl
example : result (Names.pack (named "pack") 3 (held "pack") st0) = .error .typeError := by rfl
example : result (Names.pack (named "pack_into") 3 (held "pack_into") st0) = .ok [1, 2, 0] := by rfl
example : result (Names.pack (named "serializer") 3 (held "serializer") st0) = .error .attributeError := by rfl
example : result (Names.pack (named "_serializer") 3 (held "_serializer") st0) = .error .typeError := by rfl
example : result (Names.pack (named "attrs") 3 (held "attrs") st0) = .ok [1, 2, 0] := by rfl
example : result (Names.unpack (named "attrs") 3 (held "attrs") (.buf [1, 2, 0]) st0) = .error .typeError := by rfl
-- `class A(Structured): attrs: Self`: the object is asked for its `cls`
example : result (Names.unpack ⟨plat, fun _ => some { attrs := ["attrs"], serializer := .selfT [1], byteOrder := .default }⟩ 3 (.obj 1 Option.none [("attrs", .int 1)]) (.buf []) st0) =
    .error .attributeError := by rfl
example : result (Names.unpack (named "y") 3 (held "y") (.buf [7, 8, 0]) st0) =
  .ok (.obj 0 none [("x", .int 7), ("y", .int 8)]) := by rfl
example : result (Names.create (named "attrs") 3 0 (.buf [1, 2, 0]) st0) = .ok (held "attrs") := by rfl
example : result (Names.create (named "_Proxy__attrs") 3 0 (.buf [1, 2, 0]) st0) = .error .typeError := by rfl
example : result (Names.create (named "__post_init__") 3 0 (.buf [1, 2, 0]) st0) = .error .typeError := by rfl
example : Names.eq (named "attrs") (fun _ _ => .ok true) 3 (held "attrs") (held "attrs") = .error .typeError := by rfl
example : Names.eq (named "y") (fun _ _ => .ok true) 3 (held "y") (held "y") = .ok true := by rfl
example : Names.withByteOrder (named "y") .be (held "y") = .ok (.obj 0 (some .be) [("x", .int 1), ("y", .int 2)]) := by rfl
example : Names.withByteOrder (named "byte_order") .be (held "byte_order") =
  .ok (.obj 0 (some .be) [("x", .int 1), ("byte_order", .str [62])]) := by rfl
example : result (Names.pack (named "byte_order") 3 (.obj 0 (some .be) [("x", .int 1), ("byte_order", .str [62])]) st0) =
  .error .structError := by rfl
example : Names.withByteOrder (named "serializer") .be (held "serializer") = .error .attributeError := by rfl
example : result (Names.nestedPack (named "y") 3 [0] (held "y") st0) = .ok [1, 2, 0] := by rfl
example : result (Names.nestedPack (named "pack") 3 [0] (held "pack") st0) = .error .typeError := by rfl
example : result (Names.nestedPackInto (named "pack_into") 3 [0] 0 (held "pack_into") st0) = .error .typeError := by rfl
example : result (Names.nestedPackWrite (named "pack_write") 3 [0] (held "pack_write") st0) = .error .typeError := by rfl
example : Spec.Clear Spec.taken [("x", .int 1), ("y", .int 2), ("unpack_into", .int 3)] := by decide
example : ¬ Spec.Clear Spec.taken [("x", .int 1), ("attrs", .int 2)] := by decide

end Verif.Samples
