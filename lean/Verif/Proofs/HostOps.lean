import Verif.Proofs.HostLemmas
import Verif.Proofs.Enough
/-
The operations themselves on machines of either byte order: reading, `pack_into` and `pack_write`.
-/
namespace Verif

section
variable {P : Platform} {b : Bool}

theorem orderBytes_one (l l' : Bool) {d : Bytes} (h : d.length ≤ 1) : orderBytes l d = orderBytes l' d := by
  match d with
  | [] => cases l <;> cases l' <;> rfl
  | [x] => cases l <;> cases l' <;> rfl
  | _ :: _ :: _ => simp at h

theorem unpackOne_host {bo : ByteOrder} {c : Code} (h : bo.Fixed ∨ c.wide = false) (d : Bytes) :
    unpackOne { P with le := b } bo c (d.take (c.bytes bo.isNative)) = unpackOne P bo c (d.take (c.bytes bo.isNative)) := by
  rcases h with h | h
  · unfold unpackOne
    simp only [little_fixed h]
  · cases c with
    | int s w =>
      cases w <;> simp [Code.wide] at h
      unfold unpackOne decodeInt
      simp only
      rw [orderBytes_one (bo.little { P with le := b }) (bo.little P)]
      simp only [Code.bytes, Width.bytes, List.length_take]
      omega
    | _ => first | rfl | simp [Code.wide] at h

theorem unpackMany_host {bo : ByteOrder} {c : Code} (h : bo.Fixed ∨ c.wide = false) : ∀ (k : Nat) (d : Bytes),
    unpackMany { P with le := b } bo c k d = unpackMany P bo c k d
  | 0, _ => rfl
  | k + 1, d => by
    simp only [unpackMany]
    rw [unpackOne_host h d, unpackMany_host h k]

theorem unpackTok_host {bo : ByteOrder} {t : Tok} (h : bo.Fixed ∨ t.c.wide = false) (d : Bytes) :
    unpackTok { P with le := b } bo t d = unpackTok P bo t d := by
  obtain ⟨k, c⟩ := t
  cases c <;> first | rfl | exact unpackMany_host h _ _

theorem unpackToks_host {bo : ByteOrder} : ∀ (ts : List Tok), (bo.Fixed ∨ ∀ t ∈ ts, t.c.wide = false) → ∀ (o : Nat) (d : Bytes),
    unpackToks { P with le := b } bo ts o d = unpackToks P bo ts o d
  | [], _, _, _ => rfl
  | t :: ts, h, o, d => by
    simp only [unpackToks]
    rw [unpackTok_host (h.imp id fun h => h t (by simp)),
      unpackToks_host ts (h.imp id fun h => fun x hx => h x (by simp [hx]))]

theorem packManyPrefix_host {bo : ByteOrder} {c : Code} (h : bo.Fixed ∨ c.wide = false) : ∀ (k : Nat) (vs : List Val),
    packManyPrefix { P with le := b } bo c k vs = packManyPrefix P bo c k vs
  | 0, _ => rfl
  | _ + 1, [] => rfl
  | k + 1, v :: vs => by
    simp only [packManyPrefix]
    rw [packOne_host h v, packManyPrefix_host h k vs]

theorem packToksPrefix_host {bo : ByteOrder} : ∀ (ts : List Tok), (bo.Fixed ∨ ∀ t ∈ ts, t.c.wide = false) → ∀ (o : Nat) (vs : List Val),
    packToksPrefix { P with le := b } bo ts o vs = packToksPrefix P bo ts o vs
  | [], _, _, _ => rfl
  | t :: ts, h, o, vs => by
    have ht := h.imp id fun h => h t (by simp)
    simp only [packToksPrefix]
    rw [packTok_host ht, packManyPrefix_host ht]
    simp only [packToksPrefix_host ts (h.imp id fun h => fun x hx => h x (by simp [hx]))]

theorem structUnpack_host {s : StructSer} (h : s.HostFree) (d : Bytes) : s.unpack { P with le := b } d = s.unpack P d := by
  unfold StructSer.unpack structUnpack
  rw [unpackToks_host _ (h.imp id toks_not_wide)]

theorem structUnpackFrom_host {s : StructSer} (h : s.HostFree) (d : Bytes) (o : Nat) :
    s.unpackFrom { P with le := b } d o = s.unpackFrom P d o := by
  unfold StructSer.unpackFrom structUnpackFrom
  rw [unpackToks_host _ (h.imp id toks_not_wide)]

theorem structUnpackRead_host {s : StructSer} (h : s.HostFree) (d : Bytes) : s.unpackRead { P with le := b } d = s.unpackRead P d := by
  unfold StructSer.unpackRead structUnpack
  rw [unpackToks_host _ (h.imp id toks_not_wide)]

theorem structPackInto_host {s : StructSer} (h : s.HostFree) (d : Bytes) (o : Nat) (vs : List Val) :
    s.packInto { P with le := b } d o vs = s.packInto P d o vs := by
  unfold StructSer.packInto structPackInto
  rw [packToks_host _ (h.imp id toks_not_wide), packToksPrefix_host _ (h.imp id toks_not_wide)]

end

variable {env : Env} {le : Bool}

theorem structUnpackM_host {s : StructSer} (h : s.HostFree) (src : Src) :
    structUnpackM (env.onHost le) s src = structUnpackM env s src := by
  cases src with
  | buf d => exact congrArg M.lift (structUnpack_host h d)
  | «at» d o => exact congrArg M.lift (structUnpackFrom_host h d o)
  | io => exact M.bind_then fun d _ _ _ => congrArg M.lift (structUnpackRead_host h d)

theorem structUnpackOpt_host {s : Option StructSer} (h : ∀ x, s = some x → x.HostFree) (src : Src) :
    structUnpackOpt (env.onHost le) s src = structUnpackOpt env s src := by
  cases s with
  | none => rfl
  | some s => exact structUnpackM_host (h s rfl) src

/-! ### Serializers with fixed byte orders stay such -/

theorem prepack_portable {s o : Ser} {p : PObj} {st st' : St} (h : s.prepack p st = .ok o st') (hp : s.Portable) : o.Portable := by
  cases s with
  | cond ser c defs =>
    obtain ⟨r, _, h⟩ := Except.bind_ok' (M.lift_ok h).1
    exact condPick_portable h fun b hb => hp b (by simpa [Ser.orders] using hb)
  | compound id ss =>
    cases h
    by_cases hn : needsPreprocess ss = true
    · rw [if_pos hn]; intro b hb; exact hp b (by simpa [Ser.orders] using hb)
    · rw [if_neg hn]; exact hp
  | selfT id => cases h; intro b hb; simp [Ser.orders] at hb
  | _ => cases h; exact hp

theorem preunpack_portable {s o : Ser} {p : PObj} {st st' : St} (h : s.preunpack p st = .ok o st') (hp : s.Portable) : o.Portable := by
  cases s with
  | selfT id =>
    obtain ⟨c, _, h⟩ := Except.bind_ok' (M.lift_ok h).1
    cases h
    intro b hb; simp [Ser.orders] at hb
  | cond ser c d => exact prepack_portable (s := .cond ser c d) h hp
  | compound id ss => exact prepack_portable (s := .compound id ss) h hp
  | _ => cases h; exact hp

theorem getSerializer_portable {packing : Bool} {id : SerId} {keys : List Val} {opts : List Ser} {dflt o : Ser} {r : Val}
    {st st' : St} (h : getSerializer packing id keys opts dflt r st = .ok o st')
    (ho : ∀ b ∈ Ser.ordersList opts ++ dflt.orders, b.Fixed) : o.Portable := by
  obtain ⟨s, st1, h1, h⟩ := M.bind_ok h
  obtain ⟨p, st2, _, h⟩ := M.bind_ok h
  have hp : s.Portable := by
    rcases unionPick_mem (M.lift_ok h1).1 with h | rfl
    · exact fun b hb => ho b (List.mem_append_left _ (ordersList_mem.2 ⟨s, h, hb⟩))
    · exact fun b hb => ho b (List.mem_append_right _ hb)
  cases packing
  · exact preunpack_portable h hp
  · exact prepack_portable h hp

/-! ### Reading -/

/-- Two readers agree on serializers with fixed byte orders. -/
def HostDec (f g : Ser → Src → M (List Val)) : Prop := ∀ s src, s.Portable → f s src = g s src

section
variable {f g : Ser → Src → M (List Val)}

theorem unpackLoop_host (hN : HostDec f g) {src : Src} : ∀ (ss : List Ser) (size : Nat), (∀ s ∈ ss, s.Portable) →
    unpackLoop f src size ss = unpackLoop g src size ss
  | [], _, _ => rfl
  | s :: ss, size, hp => by
    simp only [unpackLoop]
    rw [hN s _ (hp s (by simp))]
    refine M.bind_then fun vs _ _ _ => M.bind_then fun sz _ _ _ => ?_
    rw [unpackLoop_host hN ss _ fun s hs => hp s (by simp [hs])]

theorem unpackLoopSpec_host (hN : HostDec f g) {upd : Upd} {src : Src} : ∀ (ss : List Ser) (p : PObj) (done size : Nat),
    (∀ s ∈ ss, s.Portable) → unpackLoopSpec f upd src p done size ss = unpackLoopSpec g upd src p done size ss
  | [], _, _, _, _ => rfl
  | s :: ss, p, done, size, hp => by
    simp only [unpackLoopSpec]
    refine M.bind_then fun s' _ _ h => ?_
    rw [hN s' _ (preunpack_portable h (hp s (by simp)))]
    refine M.bind_then fun vs _ _ _ => M.bind_then fun p' _ _ _ => M.bind_then fun sz _ _ _ => ?_
    rw [unpackLoopSpec_host hN ss p' _ _ fun s hs => hp s (by simp [hs])]

theorem unpackItems_host (hN : HostDec f g) {item : Ser} (hp : item.Portable) {src : Src} : ∀ (k size : Nat),
    unpackItems f item src size k = unpackItems g item src size k
  | 0, _ => rfl
  | k + 1, size => by
    simp only [unpackItems]
    rw [hN item _ hp]
    refine M.bind_then fun vs _ _ _ => M.bind_then fun sz _ _ _ => ?_
    rw [unpackItems_host hN hp k]

theorem unionUnpack_host (hN : HostDec f g) {id : SerId} {s : Ser} (hp : s.Portable) {src : Src} :
    unionUnpack f id s src = unionUnpack g id s src := by
  unfold unionUnpack
  rw [hN s _ hp]

end

theorem createUnpackWith_host (he : ∀ c ci, env.classes c = some ci → ci.serializer.Portable)
    {f g : Upd → Ser → Src → M (List Val)} (hN : ∀ upd, HostDec (f upd) (g upd)) (cls : ClassId) (src : Src) :
    createUnpackWith (env.onHost le) f cls src = createUnpackWith env g cls src := by
  unfold createUnpackWith
  rw [show (env.onHost le).classes cls = env.classes cls from rfl]
  cases hc : env.classes cls with
  | none => rfl
  | some ci =>
    refine M.bind_then fun s _ _ h => ?_
    rw [hN _ s _ (preunpack_portable h (he cls ci hc))]

theorem hostFree_single {c : Int} {s : StructSer} (h : singleChar.matmul c = .ok (some s)) : s.HostFree := .inr (matmul_not_wide h)

theorem mul_hostFree {s c : StructSer} {n : Int} (hs : s.HostFree) (h : s.mul n = .ok (some c)) : c.HostFree := by
  have hf := mul_facts h
  rcases hs with hs | hs
  · refine .inl ?_
    rw [hf.2.1 (.inr (by rcases hs with h | h | h <;> rw [h] <;> decide))]
    exact hs
  · exact .inr (hf.1 hs)

theorem unpack_host (he : ∀ c ci, env.classes c = some ci → ci.serializer.Portable) :
    ∀ n upd, HostDec (unpack (env.onHost le) n upd) (unpack env n upd)
  | 0, _, _, _, _ => rfl
  | n + 1, upd, s, src, hp => by
    have ih := unpack_host he n
    cases s with
    | struct st => exact structUnpackM_host (hostFree_of (by simpa [Ser.Portable, Ser.orders] using hp)) src
    | dynChar id st =>
      have hs : st.HostFree := hostFree_of (by simpa [Ser.Portable, Ser.orders] using hp)
      simp only [unpack, dynCharUnpack]
      rw [structUnpackM_host hs]
      refine M.bind_then fun hv _ _ _ => M.bind_then fun c _ _ _ => M.bind_then fun _ _ _ _ => ?_
      cases src with
      | buf d => rfl
      | «at» d o =>
        refine M.bind_then fun s _ _ h => structUnpackOpt_host ?_ _
        rintro x rfl
        exact hostFree_single (M.lift_ok h).1
      | io =>
        refine M.bind_then fun s _ _ h => structUnpackOpt_host ?_ _
        rintro x rfl
        exact hostFree_single (M.lift_ok h).1
    | net id => exact absurd (hp .default (by simp [Ser.orders])) (by simp [ByteOrder.Fixed])
    | unicode inner en de =>
      simp only [unpack]
      rw [ih noUpd inner _ fun b hb => hp b (by simpa [Ser.orders] using hb)]
    | array id hdr item sl =>
      simp only [unpack]
      rw [structUnpackOpt_host (s := hdr) (by
        rintro x rfl
        exact hostFree_of fun b hb => hp b (by simp [Ser.orders, hb]))]
      refine M.bind_then fun hv _ _ _ => M.bind_then fun q _ _ _ => M.bind_then fun p _ _ _ => M.bind_then fun item' _ _ h => ?_
      rw [unpackItems_host (ih noUpd) (preunpack_portable h fun b hb => hp b (by simp [Ser.orders, hb]))]
    | staticArr count item ser =>
      simp only [unpack]
      rw [structUnpackOpt_host (s := ser) (by
        rintro x rfl
        exact hostFree_of fun b hb => hp b (by simp [Ser.orders, hb]))]
    | dynArr id cnt item =>
      have hc : cnt.HostFree := by
        cases hw : cnt.wide with
        | false => exact .inr hw
        | true => exact .inl (hp _ (by simp [Ser.orders, hw]))
      have hi : item.HostFree := hostFree_of fun b hb => hp b (by simp [Ser.orders, hb])
      simp only [unpack]
      rw [structUnpackM_host hc]
      refine M.bind_then fun hv _ _ _ => ?_
      have tail : ∀ c : Int, (do
          let s ← M.lift (item.mul c)
          let vs ← structUnpackOpt (env.onHost le) s (src.next cnt.size)
          setSize id (cnt.size + s.elim 0 StructSer.size)
          pure [.list vs] : M (List Val)) = (do
          let s ← M.lift (item.mul c)
          let vs ← structUnpackOpt env s (src.next cnt.size)
          setSize id (cnt.size + s.elim 0 StructSer.size)
          pure [.list vs]) := by
        intro c
        refine M.bind_then fun s _ _ h => ?_
        rw [structUnpackOpt_host]
        rintro x rfl
        exact mul_hostFree hi (M.lift_ok h).1
      match hv with
      | [c] => exact M.bind_then fun c _ _ _ => tail c
      | [] => rfl
      | _ :: _ :: _ => rfl
    | tuple id inner =>
      simp only [unpack]
      refine M.bind_then fun p _ _ _ => M.bind_then fun inner' _ _ h => ?_
      rw [ih noUpd inner' _ (preunpack_portable h fun b hb => hp b (by simpa [Ser.orders] using hb))]
    | lookback id d keys opts dflt =>
      simp only [unpack]
      refine M.bind_then fun p _ _ _ => M.bind_then fun r _ _ _ => M.bind_then fun s _ _ h => ?_
      exact unionUnpack_host (ih noUpd) (getSerializer_portable h fun b hb => hp b (by simpa [Ser.orders] using hb))
    | lookahead id ra d keys opts dflt =>
      simp only [unpack]
      rw [ih noUpd ra _ fun b hb => hp b (by simp [Ser.orders, hb])]
      refine M.bind_then fun hv _ _ _ => M.bind_then fun r _ _ _ => M.bind_then fun _ _ _ _ => M.bind_then fun s _ _ h => ?_
      exact unionUnpack_host (ih noUpd) (getSerializer_portable h fun b hb => hp b (by
        simp only [Ser.orders, List.mem_append] at hb ⊢; exact .inr hb))
    | structured id cls =>
      simp only [unpack]
      rw [createUnpackWith_host he ih]
    | compound id ss =>
      simp only [unpack]
      rw [unpackLoop_host (ih noUpd) ss 0 fun s hs b hb => hp b (by simp only [Ser.orders]; exact ordersList_mem.2 ⟨s, hs, hb⟩)]
    | specialized id p ss =>
      simp only [unpack]
      rw [unpackLoopSpec_host (ih noUpd) ss p 0 0 fun s hs b hb => hp b (by simp only [Ser.orders]; exact ordersList_mem.2 ⟨s, hs, hb⟩)]
    | _ => rfl

/-! ### Packing -/

theorem structPackIntoM_host {s : StructSer} (h : s.HostFree) (o : Nat) (vs : List Val) :
    structPackIntoM (env.onHost le) s o vs = structPackIntoM env s o vs := by
  funext st
  unfold structPackIntoM
  rw [show (env.onHost le).plat = { env.plat with le := le } from rfl, structPackInto_host h]

theorem packIntoOpt_host {s : Option StructSer} (h : ∀ x, s = some x → x.HostFree) (o : Nat) (vs : List Val) :
    packIntoOpt (env.onHost le) s o vs = packIntoOpt env s o vs := by
  cases s with
  | none => rfl
  | some s => exact structPackIntoM_host (h s rfl) o vs

theorem packOpt_host {s : Option StructSer} (h : ∀ x, s = some x → x.HostFree) (vs : List Val) :
    packOpt (env.onHost le).plat s vs = packOpt env.plat s vs := by
  cases s with
  | none => rfl
  | some s => exact structPack_host (h s rfl) vs

theorem nodes_take {vals : List Val} {k : Nat} (hn : PortableNodes env (Val.nodesList vals)) :
    PortableNodes env (Val.nodesList (vals.take k)) := hn.mono fun x hx => by
  obtain ⟨v, h1, h2⟩ := nodesList_mem.1 hx
  exact nodesList_mem.2 ⟨v, List.mem_of_mem_take h1, h2⟩

theorem nodes_drop {vals : List Val} {k : Nat} (hn : PortableNodes env (Val.nodesList vals)) :
    PortableNodes env (Val.nodesList (vals.drop k)) := hn.mono fun x hx => by
  obtain ⟨v, h1, h2⟩ := nodesList_mem.1 hx
  exact nodesList_mem.2 ⟨v, List.mem_of_mem_drop h1, h2⟩

theorem nodes_one {v : Val} {vals : List Val} (hn : PortableNodes env (Val.nodesList (v :: vals))) :
    PortableNodes env (Val.nodesList [v]) ∧ PortableNodes env (Val.nodesList vals) :=
  ⟨hn.mono fun x hx => by simp only [Val.nodesList, List.append_nil, List.mem_append] at hx ⊢; exact .inl hx,
   hn.mono fun x hx => by simp only [Val.nodesList, List.mem_append]; exact .inr hx⟩

theorem nodes_bytes {d : Bytes} : PortableNodes env (Val.nodesList [.bytes d]) := by
  intro c bo attrs ci ser h; simp [Val.nodesList, Val.nodes] at h

theorem dynArr_free {id : SerId} {cnt item : StructSer} (hp : (Ser.dynArr id cnt item).Portable) :
    cnt.byteOrder.Fixed ∨ cnt.wide = false ∧ item.wide = false := by
  cases hw : (cnt.wide || item.wide) with
  | false => exact .inr (by simpa using hw)
  | true => exact .inl (hp _ (by simp only [Ser.orders, hw, ↓reduceIte]; simp))

/-- Two packers agree on serializers and objects with fixed byte orders. -/
def HostPack (env : Env) (f g : Ser → List Val → M Bytes) : Prop :=
  ∀ s vs, s.Portable → PortableNodes env (Val.nodesList vs) → f s vs = g s vs

theorem packLoop_host {f g : Ser → List Val → M Bytes} (hN : HostPack env f g) {pr : Ser → M Ser}
    (hpre : ∀ s s' st st', pr s st = .ok s' st' → s.Portable → s'.Portable) :
    ∀ (ss : List Ser) (vals : List Val), (∀ s ∈ ss, s.Portable) → PortableNodes env (Val.nodesList vals) →
      packLoop f pr ss vals = packLoop g pr ss vals
  | [], _, _, _ => rfl
  | s :: ss, vals, hp, hn => by
    simp only [packLoop]
    refine M.bind_then fun s' _ _ h => ?_
    rw [hN s' _ (hpre s s' _ _ h (hp s (by simp))) (nodes_take hn)]
    refine M.bind_then fun _ _ _ _ => M.bind_then fun sz _ _ _ => ?_
    rw [packLoop_host hN hpre ss _ (fun s hs => hp s (by simp [hs])) (nodes_drop hn)]

theorem packItems_host {f g : Ser → List Val → M Bytes} (hN : HostPack env f g) {item : Ser} (hp : item.Portable) :
    ∀ (vals : List Val), PortableNodes env (Val.nodesList vals) → packItems f item vals = packItems g item vals
  | [], _ => rfl
  | v :: vals, hn => by
    simp only [packItems]
    rw [hN item _ hp (nodes_one hn).1]
    refine M.bind_then fun _ _ _ _ => M.bind_then fun sz _ _ _ => ?_
    rw [packItems_host hN hp vals (nodes_one hn).2]

theorem objPack_host {f g : Ser → List Val → M Bytes} (hN : HostPack env f g) (v : Val)
    (hn : PortableNodes env v.nodes) : objPack (env.onHost le) f v = objPack env g v := by
  cases v with
  | obj cls bo attrs =>
    simp only [objPack]
    rw [show objSer (env.onHost le) cls bo = objSer env cls bo from rfl]
    refine M.bind_then fun q _ _ h1 => M.bind_then fun s _ _ h2 => M.bind_then fun vals _ _ h3 => ?_
    have hp := hn cls bo attrs q.1 q.2 (by simp [Val.nodes]) (M.lift_ok h1).1
    rw [hN s vals (prepack_portable h2 hp) (hn.mono fun x hx => by simp [Val.nodes, getAttrs_nodes (M.lift_ok h3).1 hx])]
  | _ => rfl

theorem pack_host : ∀ n, HostPack env (pack (env.onHost le) n) (pack env n)
  | 0 => fun _ _ _ _ => rfl
  | n + 1 => by
    have ih := pack_host n
    intro s vs hp hn
    cases s with
    | struct st =>
      simp only [pack]
      exact congrArg M.lift (structPack_host (hostFree_of (by simpa [Ser.Portable, Ser.orders] using hp)) _)
    | dynChar id st =>
      have hs : st.HostFree := hostFree_of (by simpa [Ser.Portable, Ser.orders] using hp)
      simp only [pack]
      refine M.bind_then fun q _ _ h => M.bind_then fun _ _ _ _ => ?_
      exact congrArg M.lift (structPack_host (dynChar_hostFree hs (M.lift_ok h).1) _)
    | terminated id term =>
      simp only [pack]
      refine M.bind_then fun d _ _ _ => M.bind_then fun _ _ _ _ => congrArg M.lift (Except.bind_congr' fun c h => packOpt_host ?_ _)
      rintro x rfl
      exact hostFree_single h
    | net id => exact absurd (hp .default (by simp [Ser.orders])) (by simp [ByteOrder.Fixed])
    | unicode inner en de =>
      simp only [pack]
      exact M.bind_then fun d _ _ _ => ih inner _ (fun b hb => hp b (by simpa [Ser.orders] using hb)) nodes_bytes
    | array id hdr item sl =>
      simp only [pack]
      refine M.bind_then fun p _ _ _ => M.bind_then fun item' _ _ h => M.bind_then fun v _ _ h2 => M.bind_then fun items _ _ h3 => ?_
      have hn' := hn.mono fun x hx => first_nodes (M.lift_ok h2).1 (pyIter_nodes (M.lift_ok h3).1 hx)
      rw [packItems_host ih (prepack_portable h fun b hb => hp b (by simp [Ser.orders, hb])) items hn']
      refine M.bind_then fun q _ _ _ => M.bind_then fun hv _ _ _ => ?_
      rw [packOpt_host]
      rintro x rfl
      exact hostFree_of fun b hb => hp b (by simp [Ser.orders, hb])
    | staticArr count item ser =>
      simp only [pack]
      refine M.bind_then fun items _ _ _ => congrArg M.lift (packOpt_host ?_ _)
      rintro x rfl
      exact hostFree_of fun b hb => hp b (by simp [Ser.orders, hb])
    | dynArr id cnt item =>
      simp only [pack]
      refine M.bind_then fun q _ _ h => M.bind_then fun _ _ _ _ => ?_
      exact congrArg M.lift (structPack_host (dynArr_hostFree (dynArr_free hp) (M.lift_ok h).1) _)
    | tuple id inner =>
      match vs with
      | [v] =>
        simp only [pack]
        refine M.bind_then fun p _ _ _ => M.bind_then fun inner' _ _ h => M.bind_then fun vals _ _ h2 => ?_
        exact ih inner' vals (prepack_portable h fun b hb => hp b (by simpa [Ser.orders] using hb))
          (hn.mono fun x hx => by simpa [Val.nodesList] using pyIter_nodes (M.lift_ok h2).1 hx)
      | [] => rfl
      | _ :: _ :: _ => rfl
    | lookback id d keys opts dflt =>
      simp only [pack]
      refine M.bind_then fun p _ _ _ => M.bind_then fun r _ _ _ => M.bind_then fun s _ _ h => ?_
      rw [ih s vs (getSerializer_portable h fun b hb => hp b (by simpa [Ser.orders] using hb)) hn]
    | lookahead id ra d keys opts dflt =>
      simp only [pack]
      refine M.bind_then fun p _ _ _ => M.bind_then fun r _ _ _ => M.bind_then fun s _ _ h => ?_
      rw [ih s vs (getSerializer_portable h fun b hb => hp b (by
        simp only [Ser.orders, List.mem_append] at hb ⊢; exact .inr hb)) hn]
    | structured id cls =>
      match vs with
      | [v] =>
        simp only [pack]
        rw [objPack_host ih v (hn.mono fun x hx => by simpa [Val.nodesList] using hx)]
      | [] => rfl
      | _ :: _ :: _ => rfl
    | compound id ss =>
      simp only [pack]
      rw [packLoop_host ih (fun s s' st st' h hs => by cases h; exact hs) ss vs (fun s hs b hb => hp b (by
        simp only [Ser.orders]; exact ordersList_mem.2 ⟨s, hs, hb⟩)) hn]
    | specialized id p ss =>
      simp only [pack]
      rw [packLoop_host ih (fun s s' st st' h hs => prepack_portable h hs) ss vs (fun s hs b hb => hp b (by
        simp only [Ser.orders]; exact ordersList_mem.2 ⟨s, hs, hb⟩)) hn]
    | _ => rfl

/-- Two packers agree on serializers and objects with fixed byte orders. -/
def HostInto (env : Env) (f g : Ser → Nat → List Val → M Unit) : Prop :=
  ∀ s off vs, s.Portable → PortableNodes env (Val.nodesList vs) → f s off vs = g s off vs

theorem packIntoLoop_host {f g : Ser → Nat → List Val → M Unit} (hN : HostInto env f g) {pr : Ser → M Ser}
    (hpre : ∀ s s' st st', pr s st = .ok s' st' → s.Portable → s'.Portable) {off : Nat} :
    ∀ (ss : List Ser) (size : Nat) (vals : List Val), (∀ s ∈ ss, s.Portable) → PortableNodes env (Val.nodesList vals) →
      packIntoLoop f pr off size ss vals = packIntoLoop g pr off size ss vals
  | [], _, _, _, _ => rfl
  | s :: ss, size, vals, hp, hn => by
    simp only [packIntoLoop]
    refine M.bind_then fun s' _ _ h => ?_
    rw [hN s' _ _ (hpre s s' _ _ h (hp s (by simp))) (nodes_take hn)]
    refine M.bind_then fun _ _ _ _ => M.bind_then fun sz _ _ _ => ?_
    rw [packIntoLoop_host hN hpre ss _ _ (fun s hs => hp s (by simp [hs])) (nodes_drop hn)]

theorem packIntoItems_host {f g : Ser → Nat → List Val → M Unit} (hN : HostInto env f g) {item : Ser} (hp : item.Portable) {off : Nat} :
    ∀ (size : Nat) (vals : List Val), PortableNodes env (Val.nodesList vals) → packIntoItems f item off size vals = packIntoItems g item off size vals
  | _, [], _ => rfl
  | size, v :: vals, hn => by
    simp only [packIntoItems]
    rw [hN item _ _ hp (nodes_one hn).1]
    refine M.bind_then fun _ _ _ _ => M.bind_then fun sz _ _ _ => ?_
    rw [packIntoItems_host hN hp _ vals (nodes_one hn).2]

theorem objPackInto_host {f g : Ser → Nat → List Val → M Unit} (hN : HostInto env f g) {off : Nat} (v : Val)
    (hn : PortableNodes env v.nodes) : objPackInto (env.onHost le) f off v = objPackInto env g off v := by
  cases v with
  | obj cls bo attrs =>
    simp only [objPackInto]
    rw [show objSer (env.onHost le) cls bo = objSer env cls bo from rfl]
    refine M.bind_then fun q _ _ h1 => M.bind_then fun s _ _ h2 => M.bind_then fun vals _ _ h3 => ?_
    have hp := hn cls bo attrs q.1 q.2 (by simp [Val.nodes]) (M.lift_ok h1).1
    rw [hN s _ vals (prepack_portable h2 hp) (hn.mono fun x hx => by simp [Val.nodes, getAttrs_nodes (M.lift_ok h3).1 hx])]
  | _ => rfl

theorem packInto_host : ∀ n, HostInto env (packInto (env.onHost le) n) (packInto env n)
  | 0 => fun _ _ _ _ _ => rfl
  | n + 1 => by
    have ih := packInto_host n
    intro s off vs hp hn
    cases s with
    | struct st =>
      simp only [packInto]
      exact structPackIntoM_host (hostFree_of (by simpa [Ser.Portable, Ser.orders] using hp)) _ _
    | dynChar id st =>
      have hs : st.HostFree := hostFree_of (by simpa [Ser.Portable, Ser.orders] using hp)
      simp only [packInto]
      refine M.bind_then fun q _ _ h => M.bind_then fun _ _ _ _ => ?_
      exact structPackIntoM_host (dynChar_hostFree hs (M.lift_ok h).1) _ _
    | terminated id term =>
      simp only [packInto]
      refine M.bind_then fun d _ _ _ => M.bind_then fun _ _ _ _ => M.bind_then fun c _ _ h => packIntoOpt_host ?_ _ _
      rintro x rfl
      exact hostFree_single (M.lift_ok h).1
    | net id => exact absurd (hp .default (by simp [Ser.orders])) (by simp [ByteOrder.Fixed])
    | unicode inner en de =>
      simp only [packInto]
      exact M.bind_then fun d _ _ _ => ih inner _ _ (fun b hb => hp b (by simpa [Ser.orders] using hb)) nodes_bytes
    | array id hdr item sl =>
      simp only [packInto]
      refine M.bind_then fun v _ _ h2 => M.bind_then fun p _ _ _ => M.bind_then fun item' _ _ h => M.bind_then fun items _ _ h3 => ?_
      have hn' := hn.mono fun x hx => first_nodes (M.lift_ok h2).1 (pyIter_nodes (M.lift_ok h3).1 hx)
      rw [packIntoItems_host ih (prepack_portable h fun b hb => hp b (by simp [Ser.orders, hb])) _ items hn']
      refine M.bind_then fun q _ _ _ => M.bind_then fun hv _ _ _ => M.bind_then fun _ _ _ _ => ?_
      rw [packIntoOpt_host]
      rintro x rfl
      exact hostFree_of fun b hb => hp b (by simp [Ser.orders, hb])
    | staticArr count item ser =>
      simp only [packInto]
      refine M.bind_then fun items _ _ _ => packIntoOpt_host ?_ _ _
      rintro x rfl
      exact hostFree_of fun b hb => hp b (by simp [Ser.orders, hb])
    | dynArr id cnt item =>
      simp only [packInto]
      refine M.bind_then fun q _ _ h => M.bind_then fun _ _ _ _ => ?_
      exact structPackIntoM_host (dynArr_hostFree (dynArr_free hp) (M.lift_ok h).1) _ _
    | tuple id inner =>
      match vs with
      | [v] =>
        simp only [packInto]
        refine M.bind_then fun p _ _ _ => M.bind_then fun inner' _ _ h => M.bind_then fun vals _ _ h2 => ?_
        exact ih inner' _ vals (prepack_portable h fun b hb => hp b (by simpa [Ser.orders] using hb))
          (hn.mono fun x hx => by simpa [Val.nodesList] using pyIter_nodes (M.lift_ok h2).1 hx)
      | [] => rfl
      | _ :: _ :: _ => rfl
    | lookback id d keys opts dflt =>
      simp only [packInto]
      refine M.bind_then fun p _ _ _ => M.bind_then fun r _ _ _ => M.bind_then fun s _ _ h => ?_
      rw [ih s _ vs (getSerializer_portable h fun b hb => hp b (by simpa [Ser.orders] using hb)) hn]
    | lookahead id ra d keys opts dflt =>
      simp only [packInto]
      refine M.bind_then fun p _ _ _ => M.bind_then fun r _ _ _ => M.bind_then fun s _ _ h => ?_
      rw [ih s _ vs (getSerializer_portable h fun b hb => hp b (by
        simp only [Ser.orders, List.mem_append] at hb ⊢; exact .inr hb)) hn]
    | structured id cls =>
      match vs with
      | [v] =>
        simp only [packInto]
        rw [objPackInto_host ih v (hn.mono fun x hx => by simpa [Val.nodesList] using hx)]
      | [] => rfl
      | _ :: _ :: _ => rfl
    | compound id ss =>
      simp only [packInto]
      rw [packIntoLoop_host ih (fun s s' st st' h hs => by cases h; exact hs) ss 0 vs (fun s hs b hb => hp b (by
        simp only [Ser.orders]; exact ordersList_mem.2 ⟨s, hs, hb⟩)) hn]
    | specialized id p ss =>
      simp only [packInto]
      rw [packIntoLoop_host ih (fun s s' st st' h hs => prepack_portable h hs) ss 0 vs (fun s hs b hb => hp b (by
        simp only [Ser.orders]; exact ordersList_mem.2 ⟨s, hs, hb⟩)) hn]
    | _ => rfl

/-- Two packers agree on serializers and objects with fixed byte orders. -/
def HostWrite (env : Env) (f g : Ser → List Val → M Unit) : Prop :=
  ∀ s vs, s.Portable → PortableNodes env (Val.nodesList vs) → f s vs = g s vs

theorem packWriteLoop_host {f g : Ser → List Val → M Unit} (hN : HostWrite env f g) {pr : Ser → M Ser}
    (hpre : ∀ s s' st st', pr s st = .ok s' st' → s.Portable → s'.Portable) :
    ∀ (ss : List Ser) (size : Nat) (vals : List Val), (∀ s ∈ ss, s.Portable) → PortableNodes env (Val.nodesList vals) →
      packWriteLoop f pr size ss vals = packWriteLoop g pr size ss vals
  | [], _, _, _, _ => rfl
  | s :: ss, size, vals, hp, hn => by
    simp only [packWriteLoop]
    refine M.bind_then fun s' _ _ h => ?_
    rw [hN s' _ (hpre s s' _ _ h (hp s (by simp))) (nodes_take hn)]
    refine M.bind_then fun _ _ _ _ => M.bind_then fun sz _ _ _ => ?_
    rw [packWriteLoop_host hN hpre ss _ _ (fun s hs => hp s (by simp [hs])) (nodes_drop hn)]

theorem objPackWrite_host {f g : Ser → List Val → M Unit} (hN : HostWrite env f g) (v : Val)
    (hn : PortableNodes env v.nodes) : objPackWrite (env.onHost le) f v = objPackWrite env g v := by
  cases v with
  | obj cls bo attrs =>
    simp only [objPackWrite]
    rw [show objSer (env.onHost le) cls bo = objSer env cls bo from rfl]
    refine M.bind_then fun q _ _ h1 => M.bind_then fun s _ _ h2 => M.bind_then fun vals _ _ h3 => ?_
    have hp := hn cls bo attrs q.1 q.2 (by simp [Val.nodes]) (M.lift_ok h1).1
    rw [hN s vals (prepack_portable h2 hp) (hn.mono fun x hx => by simp [Val.nodes, getAttrs_nodes (M.lift_ok h3).1 hx])]
  | _ => rfl

theorem packWrite_host : ∀ n, HostWrite env (packWrite (env.onHost le) n) (packWrite env n)
  | 0 => fun _ _ _ _ => rfl
  | n + 1 => by
    have ih := packWrite_host n
    intro s vs hp hn
    cases s with
    | struct st =>
      simp only [packWrite]
      exact M.bind_congr (congrArg M.lift (structPack_host (hostFree_of (by simpa [Ser.Portable, Ser.orders] using hp)) _)) fun _ _ _ _ => rfl
    | dynChar id st =>
      have hs : st.HostFree := hostFree_of (by simpa [Ser.Portable, Ser.orders] using hp)
      simp only [packWrite]
      refine M.bind_then fun q _ _ h => M.bind_then fun _ _ _ _ => ?_
      exact M.bind_congr (congrArg M.lift (structPack_host (dynChar_hostFree hs (M.lift_ok h).1) _)) fun _ _ _ _ => rfl
    | terminated id term =>
      simp only [packWrite]
      refine M.bind_then fun d _ _ _ => M.bind_then fun _ _ _ _ => M.bind_congr (congrArg M.lift (Except.bind_congr' fun c h => packOpt_host ?_ _)) fun _ _ _ _ => rfl
      rintro x rfl
      exact hostFree_single h
    | net id => exact absurd (hp .default (by simp [Ser.orders])) (by simp [ByteOrder.Fixed])
    | unicode inner en de =>
      simp only [packWrite]
      exact M.bind_then fun d _ _ _ => ih inner _ (fun b hb => hp b (by simpa [Ser.orders] using hb)) nodes_bytes
    | array id hdr item sl =>
      simp only [packWrite]
      rw [pack_host (env := env) (le := le) (n + 1) _ _ hp hn]
    | staticArr count item ser =>
      simp only [packWrite]
      refine M.bind_then fun items _ _ _ => M.bind_congr (congrArg M.lift (packOpt_host ?_ _)) fun _ _ _ _ => rfl
      rintro x rfl
      exact hostFree_of fun b hb => hp b (by simp [Ser.orders, hb])
    | dynArr id cnt item =>
      simp only [packWrite]
      refine M.bind_then fun q _ _ h => M.bind_then fun _ _ _ _ => ?_
      exact M.bind_congr (congrArg M.lift (structPack_host (dynArr_hostFree (dynArr_free hp) (M.lift_ok h).1) _)) fun _ _ _ _ => rfl
    | tuple id inner =>
      match vs with
      | [v] =>
        simp only [packWrite]
        refine M.bind_then fun p _ _ _ => M.bind_then fun inner' _ _ h => M.bind_then fun vals _ _ h2 => ?_
        exact ih inner' vals (prepack_portable h fun b hb => hp b (by simpa [Ser.orders] using hb))
          (hn.mono fun x hx => by simpa [Val.nodesList] using pyIter_nodes (M.lift_ok h2).1 hx)
      | [] => rfl
      | _ :: _ :: _ => rfl
    | lookback id d keys opts dflt =>
      simp only [packWrite]
      refine M.bind_then fun p _ _ _ => M.bind_then fun r _ _ _ => M.bind_then fun s _ _ h => ?_
      rw [ih s vs (getSerializer_portable h fun b hb => hp b (by simpa [Ser.orders] using hb)) hn]
    | lookahead id ra d keys opts dflt =>
      simp only [packWrite]
      refine M.bind_then fun p _ _ _ => M.bind_then fun r _ _ _ => M.bind_then fun s _ _ h => ?_
      rw [ih s vs (getSerializer_portable h fun b hb => hp b (by
        simp only [Ser.orders, List.mem_append] at hb ⊢; exact .inr hb)) hn]
    | structured id cls =>
      match vs with
      | [v] =>
        simp only [packWrite]
        rw [objPackWrite_host ih v (hn.mono fun x hx => by simpa [Val.nodesList] using hx)]
      | [] => rfl
      | _ :: _ :: _ => rfl
    | compound id ss =>
      simp only [packWrite]
      rw [packWriteLoop_host ih (fun s s' st st' h hs => by cases h; exact hs) ss 0 vs (fun s hs b hb => hp b (by
        simp only [Ser.orders]; exact ordersList_mem.2 ⟨s, hs, hb⟩)) hn]
    | specialized id p ss =>
      simp only [packWrite]
      rw [packWriteLoop_host ih (fun s s' st st' h hs => prepack_portable h hs) ss 0 vs (fun s hs b hb => hp b (by
        simp only [Ser.orders]; exact ordersList_mem.2 ⟨s, hs, hb⟩)) hn]
    | _ => rfl

end Verif
