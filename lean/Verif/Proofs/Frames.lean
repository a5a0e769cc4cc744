import Verif.Proofs.RefineWrite
import Verif.Proofs.RefineUnpack
import Verif.Proofs.RefineInto
/-
What the operations can change at all, from every state, whether they return or raise.
-/
namespace Verif
open Sem

/-- Every run, successful or not, goes to an `R`-related state. -/
structure Safe (R : St → St → Prop) (x : M α) : Prop where
  run : ∀ st, match x st with
    | .ok _ st' => R st st'
    | .err _ st' => R st st'

/-- `R` allows what serializers do to their own cells. -/
structure CellFrame (R : St → St → Prop) : Prop where
  trans : ∀ {a b c}, R a b → R b c → R a c
  fr : ∀ {a b}, Fr a b → R a b

theorem Safe.ok {R : St → St → Prop} {x : M α} (h : Safe R x) {st st' : St} {a : α} (e : x st = .ok a st') :
    R st st' := by
  have := h.run st; rw [e] at this; exact this

theorem Safe.err {R : St → St → Prop} {x : M α} (h : Safe R x) {st st' : St} {e : Err} (k : x st = .err e st') :
    R st st' := by
  have := h.run st; rw [k] at this; exact this

variable {R : St → St → Prop} (hR : CellFrame R)
include hR

theorem Safe.bind {x : M α} {f : α → M β} (h : Safe R x) (k : ∀ a, Safe R (f a)) : Safe R (x >>= f) := by
  constructor; intro st
  show match M.bind x f st with | .ok _ st' => R st st' | .err _ st' => R st st'
  unfold M.bind
  have h1 := h.run st
  cases hx : x st with
  | err e st1 => rw [hx] at h1; exact h1
  | ok a st1 =>
    rw [hx] at h1
    have h2 := (k a).run st1
    show match f a st1 with | .ok _ st' => R st st' | .err _ st' => R st st'
    cases hf : f a st1 with
    | err e st2 => rw [hf] at h2; exact hR.trans h1 h2
    | ok b st2 => rw [hf] at h2; exact hR.trans h1 h2

theorem Safe.pure (a : α) : Safe R (Pure.pure a) := ⟨fun st => hR.fr (Fr.refl st)⟩
theorem Safe.throw (e : Err) : Safe R (M.throw e : M α) := ⟨fun st => hR.fr (Fr.refl st)⟩
theorem Safe.lift (e : Except Err α) : Safe R (M.lift e) := by
  constructor; intro st
  cases e <;> exact hR.fr (Fr.refl st)
theorem Safe.get : Safe R M.get := ⟨fun st => hR.fr (Fr.refl st)⟩
theorem Safe.setSize (i : SerId) (n : Nat) : Safe R (setSize i n) := ⟨fun st => hR.fr (Fr.withSize st i n)⟩
theorem Safe.setPart (i : SerId) (p : PObj) : Safe R (setPart i p) := ⟨fun st => hR.fr (Fr.withPart st i p)⟩
theorem Safe.getPart (i : SerId) : Safe R (getPart i) := by
  constructor; intro st
  unfold Verif.getPart
  cases (st.cells i).part <;> exact hR.fr (Fr.refl st)
theorem Safe.cellSize (i : SerId) : Safe R (getCellSize i) := ⟨fun st => hR.fr (Fr.refl st)⟩

theorem Safe.readSize : (s : Ser) → Safe R s.readSize
  | .unicode inner _ _ => Safe.readSize inner
  | .tuple _ inner => Safe.readSize inner
  | .cond .. => Safe.throw hR _
  | .selfT _ => Safe.throw hR _
  | .null => Safe.pure hR _
  | .struct _ => Safe.pure hR _
  | .staticArr .. => Safe.pure hR _
  | .skip _ => Safe.pure hR _
  | .dynChar .. => Safe.cellSize hR _
  | .consuming _ => Safe.cellSize hR _
  | .terminated .. => Safe.cellSize hR _
  | .net _ => Safe.cellSize hR _
  | .array .. => Safe.cellSize hR _
  | .dynArr .. => Safe.cellSize hR _
  | .lookback .. => Safe.cellSize hR _
  | .lookahead .. => Safe.cellSize hR _
  | .structured .. => Safe.cellSize hR _
  | .compound .. => Safe.cellSize hR _
  | .specialized .. => Safe.cellSize hR _

theorem Safe.prepack (s : Ser) (p : PObj) : Safe R (s.prepack p) := by
  cases s <;> simp only [Ser.prepack] <;>
    first
    | exact Safe.bind hR (Safe.setPart hR _ _) (fun _ => Safe.pure hR _)
    | exact Safe.lift hR _
    | exact Safe.pure hR _

theorem Safe.preunpack (s : Ser) (p : PObj) : Safe R (s.preunpack p) := by
  cases s <;> simp only [Ser.preunpack] <;>
    first
    | exact Safe.lift hR _
    | exact Safe.prepack hR _ _

theorem Safe.getSerializer (b : Bool) (id : SerId) (keys : List Val) (opts : List Ser) (dflt : Ser) (r : Val) :
    Safe R (getSerializer b id keys opts dflt r) := by
  refine Safe.bind hR (Safe.lift hR _) (fun s => Safe.bind hR (Safe.getPart hR _) (fun p => ?_))
  cases b
  · exact Safe.preunpack hR _ _
  · exact Safe.prepack hR _ _

omit hR

/-- Break an operation into its steps. -/
macro "safe" h:term : tactic => `(tactic| repeat' (first
  | intro _
  | with_reducible exact Safe.lift $h _
  | with_reducible exact Safe.pure $h _
  | with_reducible exact Safe.throw $h _
  | with_reducible exact Safe.get $h
  | with_reducible exact Safe.setSize $h _ _
  | with_reducible exact Safe.getPart $h _
  | with_reducible exact Safe.readSize $h _
  | with_reducible exact Safe.prepack $h _ _
  | with_reducible exact Safe.preunpack $h _ _
  | with_reducible exact Safe.getSerializer $h _ _ _ _ _ _
  | with_reducible assumption
  | with_reducible refine Safe.bind $h ?_ ?_))

theorem fr_frame : CellFrame Fr := ⟨Fr.trans, id⟩

/-! ### `pack` touches neither buffer nor stream -/

theorem packLoop_safe {packN : Ser → List Val → M Bytes} (hN : ∀ s vs, Safe Fr (packN s vs))
    {pre : Ser → M Ser} (hp : ∀ s, Safe Fr (pre s)) : ∀ ss vals, Safe Fr (packLoop packN pre ss vals) := by
  intro ss
  induction ss with
  | nil => intro vals; exact Safe.pure fr_frame _
  | cons s ss ih =>
    intro vals
    rw [packLoop]
    exact Safe.bind fr_frame (hp s) fun s' => Safe.bind fr_frame (hN _ _) fun b =>
      Safe.bind fr_frame (Safe.readSize fr_frame _) fun sz => Safe.bind fr_frame (ih _) fun _ =>
      Safe.pure fr_frame _

theorem packItems_safe {packN : Ser → List Val → M Bytes} (hN : ∀ s vs, Safe Fr (packN s vs)) (item : Ser) :
    ∀ vals, Safe Fr (packItems packN item vals) := by
  intro vals
  induction vals with
  | nil => exact Safe.pure fr_frame _
  | cons v vs ih =>
    rw [packItems]
    exact Safe.bind fr_frame (hN _ _) fun b =>
      Safe.bind fr_frame (Safe.readSize fr_frame _) fun sz => Safe.bind fr_frame ih fun _ =>
      Safe.pure fr_frame _

theorem objPack_safe (env : Env) {packN : Ser → List Val → M Bytes} (hN : ∀ s vs, Safe Fr (packN s vs)) (v : Val) :
    Safe Fr (objPack env packN v) := by
  cases v with
  | obj cls bo attrs =>
    exact Safe.bind fr_frame (Safe.lift fr_frame _) fun _ =>
      Safe.bind fr_frame (Safe.prepack fr_frame _ _) fun _ =>
      Safe.bind fr_frame (Safe.lift fr_frame _) fun _ => Safe.bind fr_frame (hN _ _) fun _ =>
      Safe.pure fr_frame _
  | _ => exact Safe.throw fr_frame _

theorem pack_safe (env : Env) : ∀ n s vs, Safe Fr (pack env n s vs) := by
  intro n
  induction n with
  | zero => intro s vs; exact Safe.throw fr_frame _
  | succ n ih =>
    intro s vs
    cases s with
    | tuple id inner =>
      simp only [pack]
      rcases vs with _ | ⟨v, _ | ⟨w, ws⟩⟩ <;> simp only <;> safe fr_frame
      exact ih _ _
    | structured id cls =>
      simp only [pack]
      rcases vs with _ | ⟨v, _ | ⟨w, ws⟩⟩ <;> simp only <;> safe fr_frame
      exact objPack_safe env ih _
    | _ =>
      simp only [pack]
      safe fr_frame
      all_goals first
        | exact ih _ _
        | exact packItems_safe ih _ _
        | exact packLoop_safe ih (fun _ => Safe.pure fr_frame _) _ _
        | exact packLoop_safe ih (fun _ => Safe.prepack fr_frame _ _) _ _

/-! ### `pack_write` only writes to the stream -/

/-- The stream was written to, nothing else happened to it or the buffer. -/
def WroteSome (st st' : St) : Prop := ∃ w, FrW w st st'

theorem wrote_frame : CellFrame WroteSome :=
  ⟨fun ⟨_, h⟩ ⟨_, k⟩ => ⟨_, h.trans k⟩, fun h => ⟨[], FrW.of_fr h⟩⟩

theorem Safe.ioWrite (b : Bytes) : Safe WroteSome (ioWrite b) := ⟨fun _ => ⟨b, rfl, rfl⟩⟩

theorem Safe.mono {R R' : St → St → Prop} {x : M α} (h : Safe R x) (k : ∀ {a b}, R a b → R' a b) : Safe R' x := by
  constructor; intro st
  have := h.run st
  cases hx : x st <;> rw [hx] at this <;> exact k this

theorem packWriteLoop_safe {packN : Ser → List Val → M Unit} (hN : ∀ s vs, Safe WroteSome (packN s vs))
    {pre : Ser → M Ser} (hp : ∀ s, Safe WroteSome (pre s)) :
    ∀ ss size vals, Safe WroteSome (packWriteLoop packN pre size ss vals) := by
  intro ss
  induction ss with
  | nil => intro size vals; exact Safe.pure wrote_frame _
  | cons s ss ih =>
    intro size vals
    rw [packWriteLoop]
    exact Safe.bind wrote_frame (hp s) fun s' => Safe.bind wrote_frame (hN _ _) fun b =>
      Safe.bind wrote_frame (Safe.readSize wrote_frame _) fun sz => ih _ _

theorem objPackWrite_safe (env : Env) {packN : Ser → List Val → M Unit}
    (hN : ∀ s vs, Safe WroteSome (packN s vs)) (v : Val) : Safe WroteSome (objPackWrite env packN v) := by
  cases v with
  | obj cls bo attrs =>
    exact Safe.bind wrote_frame (Safe.lift wrote_frame _) fun _ =>
      Safe.bind wrote_frame (Safe.prepack wrote_frame _ _) fun _ =>
      Safe.bind wrote_frame (Safe.lift wrote_frame _) fun _ => Safe.bind wrote_frame (hN _ _) fun _ =>
      Safe.pure wrote_frame _
  | _ => exact Safe.throw wrote_frame _

theorem packWrite_safe (env : Env) : ∀ n s vs, Safe WroteSome (packWrite env n s vs) := by
  intro n
  induction n with
  | zero => intro s vs; exact Safe.throw wrote_frame _
  | succ n ih =>
    intro s vs
    cases s with
    | tuple id inner =>
      simp only [packWrite]
      rcases vs with _ | ⟨v, _ | ⟨w, ws⟩⟩ <;> simp only <;> safe wrote_frame
      exact ih _ _
    | structured id cls =>
      simp only [packWrite]
      rcases vs with _ | ⟨v, _ | ⟨w, ws⟩⟩ <;> simp only <;> safe wrote_frame
      exact objPackWrite_safe env ih _
    | _ =>
      simp only [packWrite]
      safe wrote_frame
      all_goals first
        | exact ih _ _
        | exact Safe.ioWrite _
        | exact (pack_safe env _ _ _).mono wrote_frame.fr
        | exact packWriteLoop_safe ih (fun _ => Safe.pure wrote_frame _) _ _ _
        | exact packWriteLoop_safe ih (fun _ => Safe.prepack wrote_frame _ _) _ _ _

/-! ### `pack_into` changes nothing in front of the offset -/

/-- Bytes in front of `off` are unchanged, the buffer did not shrink, the stream is untouched. -/
def Behind (off : Nat) (st st' : St) : Prop :=
  st.buf.length ≤ st'.buf.length ∧ st'.io = st.io ∧
  ∀ i, i < off → i < st.buf.length → st'.buf[i]? = st.buf[i]?

theorem behind_frame (off : Nat) : CellFrame (Behind off) :=
  ⟨fun ⟨a1, a2, a3⟩ ⟨b1, b2, b3⟩ => ⟨Nat.le_trans a1 b1, b2.trans a2, fun i h1 h2 =>
      (b3 i h1 (Nat.lt_of_lt_of_le h2 a1)).trans (a3 i h1 h2)⟩,
    fun h => ⟨by rw [h.1]; exact Nat.le_refl _, h.2, fun i _ _ => by rw [h.1]⟩⟩

theorem Behind.weaken {a b : Nat} (hab : a ≤ b) {st st' : St} (h : Behind b st st') : Behind a st st' :=
  ⟨h.1, h.2.1, fun i h1 h2 => h.2.2 i (Nat.lt_of_lt_of_le h1 hab) h2⟩

theorem splice_behind (b : Bytes) (off : Nat) (d : Bytes) (i : Nat) (h1 : i < off) (h2 : i < b.length) :
    (splice b off d)[i]? = b[i]? := by
  simp only [splice, List.append_assoc]
  rw [List.getElem?_append_left (by simp; omega), List.getElem?_take_of_lt h1]

theorem structPackInto_safe (env : Env) (s : StructSer) (off : Nat) (vs : List Val) :
    Safe (Behind off) (structPackIntoM env s off vs) := by
  constructor; intro st
  simp only [structPackIntoM, StructSer.packInto, structPackInto]
  have key : ∀ d, Behind off st { st with buf := splice st.buf off d } := fun d =>
    ⟨splice_length_ge _ _ _, rfl, fun i h1 h2 => splice_behind _ _ _ i h1 h2⟩
  have key0 : Behind off st { st with buf := st.buf } := ⟨Nat.le_refl _, rfl, fun _ _ _ => rfl⟩
  by_cases h1 : vs.length = numVals s.toks
  · by_cases h2 : off ≤ st.buf.length ∧ sizeToks s.byteOrder.isNative s.toks ≤ st.buf.length - off
    · simp only [h1, h2, and_self, ↓reduceIte]
      cases packToks env.plat s.byteOrder s.toks 0 vs with
      | error e => exact key _
      | ok d => exact key _
    · simp only [h1, h2, ↓reduceIte]; exact key0
  · simp only [h1, ↓reduceIte]; exact key0

theorem packIntoOpt_safe (env : Env) (s : Option StructSer) (off : Nat) (vs : List Val) :
    Safe (Behind off) (packIntoOpt env s off vs) := by
  cases s with
  | none => exact Safe.pure (behind_frame off) _
  | some s => exact structPackInto_safe env s off vs

theorem packIntoLoop_safe {packN : Ser → Nat → List Val → M Unit}
    (hN : ∀ s off vs, Safe (Behind off) (packN s off vs)) (off : Nat)
    {pre : Ser → M Ser} (hp : ∀ s, Safe (Behind off) (pre s)) :
    ∀ ss size vals, Safe (Behind off) (packIntoLoop packN pre off size ss vals) := by
  intro ss
  induction ss with
  | nil => intro size vals; exact Safe.pure (behind_frame off) _
  | cons s ss ih =>
    intro size vals
    rw [packIntoLoop]
    exact Safe.bind (behind_frame off) (hp s) fun s' =>
      Safe.bind (behind_frame off) ((hN _ _ _).mono (Behind.weaken (Nat.le_add_right _ _))) fun b =>
      Safe.bind (behind_frame off) (Safe.readSize (behind_frame off) _) fun sz => ih _ _

theorem packIntoItems_safe {packN : Ser → Nat → List Val → M Unit}
    (hN : ∀ s off vs, Safe (Behind off) (packN s off vs)) (off : Nat) (item : Ser) :
    ∀ vals size, Safe (Behind off) (packIntoItems packN item off size vals) := by
  intro vals
  induction vals with
  | nil => intro size; exact Safe.pure (behind_frame off) _
  | cons v vs ih =>
    intro size
    rw [packIntoItems]
    exact Safe.bind (behind_frame off) ((hN _ _ _).mono (Behind.weaken (Nat.le_add_right _ _))) fun b =>
      Safe.bind (behind_frame off) (Safe.readSize (behind_frame off) _) fun sz => ih _

theorem objPackInto_safe (env : Env) {packN : Ser → Nat → List Val → M Unit} (off : Nat)
    (hN : ∀ s vs, Safe (Behind off) (packN s off vs)) (v : Val) :
    Safe (Behind off) (objPackInto env packN off v) := by
  have F := behind_frame off
  cases v with
  | obj cls bo attrs =>
    exact Safe.bind F (Safe.lift F _) fun _ => Safe.bind F (Safe.prepack F _ _) fun _ =>
      Safe.bind F (Safe.lift F _) fun _ => Safe.bind F (hN _ _) fun _ => Safe.pure F _
  | _ => exact Safe.throw F _

theorem packInto_safe (env : Env) : ∀ n s off vs, Safe (Behind off) (packInto env n s off vs) := by
  intro n
  induction n with
  | zero => intro s off vs; exact Safe.throw (behind_frame off) _
  | succ n ih =>
    intro s off vs
    have F := behind_frame off
    cases s with
    | tuple id inner =>
      simp only [packInto]
      rcases vs with _ | ⟨v, _ | ⟨w, ws⟩⟩ <;> simp only <;> safe F
      exact ih _ _ _
    | structured id cls =>
      simp only [packInto]
      rcases vs with _ | ⟨v, _ | ⟨w, ws⟩⟩ <;> simp only <;> safe F
      exact objPackInto_safe env off (fun s vs => ih s off vs) _
    | consuming id =>
      simp only [packInto]
      safe F
      exact ⟨fun st => ⟨splice_length_ge _ _ _, rfl, fun i h1 h2 => splice_behind _ _ _ i h1 h2⟩⟩
    | _ =>
      simp only [packInto]
      safe F
      all_goals first
        | exact ih _ _ _
        | exact structPackInto_safe env _ _ _
        | exact packIntoOpt_safe env _ _ _
        | exact packIntoItems_safe ih _ _ _ _
        | exact packIntoLoop_safe ih _ (fun _ => Safe.pure F _) _ _ _
        | exact packIntoLoop_safe ih _ (fun _ => Safe.prepack F _ _) _ _ _

/-! ### Unpacking changes no data -/

theorem frR_frame (src : Src) : CellFrame (FrR src) := ⟨FrR.trans, FrR.of_fr⟩

theorem ioRead_safe (n : Nat) : Safe (FrR .io) (ioRead n) :=
  ⟨fun _ => ⟨_, rfl, rfl, fun _ => rfl, fun h => (h rfl).elim⟩⟩

theorem structUnpackM_safe (env : Env) (s : StructSer) (src : Src) : Safe (FrR src) (structUnpackM env s src) := by
  constructor; intro st
  have h := structUnpackM_rel env s src st
  revert h
  cases structDec env s (src.sem st) with
  | error e => rintro ⟨st', h1, h2, _⟩; rw [h1]; exact h2
  | ok r => rintro ⟨a, st', h1, _, h2, _⟩; rw [h1]; exact h2.frR

theorem Safe.of_rel {F : St → St → Prop} {x : M α} {o : St → Out β} {Φ : St → α → β → St → Prop}
    (h : ∀ st, Rel (F st) x (o st) st (Φ st)) (hΦ : ∀ st a b st', Φ st a b st' → F st st')
    (ho : ∀ st, o st ≠ .stuck) : Safe F x := by
  constructor; intro st
  have h1 := h st
  have h2 := ho st
  revert h1 h2
  cases o st with
  | stuck => intro _ h; exact (h rfl).elim
  | err e => rintro ⟨st', h1, h2⟩ _; rw [h1]; exact h2
  | ok r => rintro ⟨a, st', h1, h2⟩ _; rw [h1]; exact hΦ _ _ _ _ h2

theorem ofE_ne_stuck {e : Except Err α} : Out.ofE e ≠ .stuck := by cases e <;> nofun

theorem structUnpackOpt_safe (env : Env) (s : Option StructSer) (src : Src) :
    Safe (FrR src) (structUnpackOpt env s src) := by
  cases s with
  | none => exact Safe.pure (frR_frame src) _
  | some s => exact structUnpackM_safe env s src

theorem Safe.nextSrc {src : Src} {k : Nat} {x : M α} (h : Safe (FrR (src.next k)) x) : Safe (FrR src) x :=
  h.mono (fun h => FrR.next.1 h)

theorem unpackLoop_safe {unpackN : Ser → Src → M (List Val)} (hN : ∀ s src, Safe (FrR src) (unpackN s src))
    (src : Src) : ∀ ss size, Safe (FrR src) (unpackLoop unpackN src size ss) := by
  intro ss
  have F := frR_frame src
  induction ss with
  | nil => intro size; exact Safe.pure F _
  | cons s ss ih =>
    intro size
    rw [unpackLoop]
    exact Safe.bind F (hN _ _).nextSrc fun _ => Safe.bind F (Safe.readSize F _) fun _ =>
      Safe.bind F (ih _) fun _ => Safe.pure F _

theorem unpackLoopSpec_safe {unpackN : Ser → Src → M (List Val)} (hN : ∀ s src, Safe (FrR src) (unpackN s src))
    (upd : Upd) (src : Src) : ∀ ss p done size, Safe (FrR src) (unpackLoopSpec unpackN upd src p done size ss) := by
  intro ss
  have F := frR_frame src
  induction ss with
  | nil => intro p done size; exact Safe.pure F _
  | cons s ss ih =>
    intro p done size
    rw [unpackLoopSpec]
    exact Safe.bind F (Safe.preunpack F _ _) fun _ => Safe.bind F (hN _ _).nextSrc fun _ =>
      Safe.bind F (Safe.lift F _) fun _ => Safe.bind F (Safe.readSize F _) fun _ =>
      Safe.bind F (ih _ _ _) fun _ => Safe.pure F _

theorem unpackItems_safe {unpackN : Ser → Src → M (List Val)} (hN : ∀ s src, Safe (FrR src) (unpackN s src))
    (item : Ser) (src : Src) : ∀ k size, Safe (FrR src) (unpackItems unpackN item src size k) := by
  intro k
  have F := frR_frame src
  induction k with
  | zero => intro size; exact Safe.pure F _
  | succ k ih =>
    intro size
    rw [unpackItems]
    exact Safe.bind F (hN _ _).nextSrc fun _ => Safe.bind F (Safe.readSize F _) fun _ =>
      Safe.bind F (ih _) fun _ => Safe.pure F _

theorem createUnpackWith_safe (env : Env) {unpackN : Upd → Ser → Src → M (List Val)}
    (hN : ∀ upd s src, Safe (FrR src) (unpackN upd s src)) (cls : ClassId) (src : Src) :
    Safe (FrR src) (createUnpackWith env unpackN cls src) := by
  have F := frR_frame src
  simp only [createUnpackWith]
  cases env.classes cls with
  | none => exact Safe.throw F _
  | some ci =>
    exact Safe.bind F (Safe.preunpack F _ _) fun _ => Safe.bind F (hN _ _ _) fun _ =>
      Safe.bind F (Safe.lift F _) fun _ => Safe.pure F _

theorem unionUnpack_safe {unpackN : Ser → Src → M (List Val)} (hN : ∀ s src, Safe (FrR src) (unpackN s src))
    (id : SerId) (s : Ser) (src : Src) : Safe (FrR src) (unionUnpack unpackN id s src) := by
  have F := frR_frame src
  simp only [unionUnpack]
  split
  · exact Safe.bind F (Safe.readSize F _) fun _ => Safe.bind F (Safe.setSize F _ _) fun _ => hN _ _
  · exact Safe.bind F (hN _ _) fun _ => Safe.bind F (Safe.readSize F _) fun _ =>
      Safe.bind F (Safe.setSize F _ _) fun _ => Safe.pure F _

theorem rewind_safe (src : Src) (ra : Ser) : Safe (FrR src) (src.rewind ra) := by
  have F := frR_frame src
  cases src with
  | buf b => exact Safe.pure F _
  | «at» b off => exact Safe.pure F _
  | io =>
    exact Safe.bind F (Safe.readSize F _) fun _ =>
      ⟨fun st => ⟨_, rfl, rfl, fun _ => rfl, fun h => (h rfl).elim⟩⟩

theorem unpack_safe (env : Env) : ∀ n upd s src, Safe (FrR src) (unpack env n upd s src) := by
  intro n
  induction n with
  | zero => intro upd s src; exact Safe.throw (frR_frame src) _
  | succ n ih =>
    intro upd s src
    have F := frR_frame src
    cases s with
    | dynChar id st =>
      exact Safe.of_rel (fun st' => dynCharUnpack_rel env id st src st') (fun _ _ _ _ h => h.2.adv.frR)
        (fun _ => ofE_ne_stuck)
    | consuming id =>
      exact Safe.of_rel (fun st' => consumingUnpack_rel id src st') (fun _ _ _ _ h => h.2.adv.frR) nofun
    | terminated id term =>
      exact Safe.of_rel (fun st' => terminatedUnpack_rel id term src st') (fun _ _ _ _ h => h.2.adv.frR)
        (fun _ => ofE_ne_stuck)
    | net id =>
      exact Safe.of_rel (fun st' => netUnpack_rel env id src st') (fun _ _ _ _ h => h.2.adv.frR)
        (fun _ => ofE_ne_stuck)
    | dynArr id c i =>
      simp only [unpack]
      refine Safe.bind F (structUnpackM_safe env _ _) fun hv => ?_
      rcases hv with _ | ⟨v, _ | ⟨w, ws⟩⟩ <;> simp only <;> safe F
      all_goals exact (structUnpackOpt_safe env _ _).nextSrc
    | tuple id inner =>
      simp only [unpack]
      safe F
      split
      · exact Safe.pure F _
      · exact Safe.bind F (ih _ _ _) fun _ => Safe.pure F _
    | _ =>
      simp only [unpack]
      safe F
      all_goals first
        | exact ih _ _ _
        | exact structUnpackM_safe env _ _
        | exact structUnpackOpt_safe env _ _
        | exact unpackItems_safe (ih _) _ _ _ _
        | exact unpackLoop_safe (ih _) _ _ _
        | exact unpackLoopSpec_safe (ih _) _ _ _ _ _ _
        | exact createUnpackWith_safe env ih _ _
        | exact unionUnpack_safe (ih _) _ _ _
        | exact rewind_safe _ _

end Verif
