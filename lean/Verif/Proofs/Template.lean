import Verif.Spec.Template
import Verif.Proofs.SpecHints
import Verif.Proofs.FormatClass
/-
Helper lemmas: the declarations of a specialized class.
-/
namespace Verif.Template
open Spec

variable {ctx : HintCtx} {n N : Nat} {id : SerId} {w : World} {d : ClassDecl} {o ob : ClassObj}

/-- No annotation is a variable or an alias. -/
def Quiet (h : Hint) : Prop := ∀ a ∈ h.flatten.tail, a.isAlias = false ∧ a.isTvar = false

theorem steps_same {f g : Hint → Hint → Except Err Hint} : ∀ (as : List Hint) (b : Hint), (∀ a ∈ as, ∀ b, f b a = g b a) → steps f b as = steps g b as
  | [], _, _ => rfl
  | a :: as, b, h => by
    simp only [steps]
    rw [h a (by simp)]
    congr 1
    funext b'
    exact steps_same as b' fun a' ha => h a' (by simp [ha])

/-- Without variables and aliases in the annotations, unwrapping is transforming. -/
theorem alias_transform {h : Hint} (hq : Quiet h) : transformAlias ctx n id h = transform ctx (n + 1) id h := by
  unfold transformAlias transform Quiet at *
  cases hf : h.flatten with
  | nil => rfl
  | cons b as =>
    rw [hf] at hq
    refine steps_same _ _ fun a ha b' => ?_
    congr 1
    unfold aliasCheck
    have : a.isAlias = false ∧ a.isTvar = false := by
      rcases List.mem_cons.1 ha with rfl | ha
      · exact ⟨rfl, rfl⟩
      · exact hq a ha
    simp [this.1, this.2]

theorem quiet_one {b m : Hint} (hb : b.flatMeta = [b]) (hm : m.flatMeta = [m]) (h1 : m.isAlias = false) (h2 : m.isTvar = false) :
    Quiet (.annot b [m]) := by
  intro a ha
  simp only [Hint.flatten, Hint.flatMetas, hb, hm, List.append_nil, List.singleton_append, List.tail_cons, List.mem_singleton] at ha
  subst ha; exact ⟨h1, h2⟩

theorem quiet_array {count : Count} {size : Option StructSer} {item h : Hint} (hv : item.isTvar = false)
    (e : mkArray ctx N (.header count size) item = .ok h) : Quiet h := by
  obtain ⟨s, _, _, h4, h5⟩ := mkArray_parts hv e
  by_cases hb : IsBasic s
  · obtain ⟨st, rfl, h1⟩ := hb
    rcases h5 st rfl h1 with ⟨_, _, _, _, rfl⟩ | ⟨_, _, _, rfl⟩ <;> exact quiet_one rfl rfl rfl rfl
  · obtain ⟨_, _, _, rfl⟩ := h4 hb
    exact quiet_one rfl rfl rfl rfl

theorem quiet_fmt (f : Fmt) {h : Hint} (e : f.hint ctx N = .ok h) : Quiet h := by
  have char : ∀ {f : Fmt} {b h : Hint}, f.bracket = some b → mkChar ctx b = .ok h → Quiet h := by
    intro f b h hb e
    obtain ⟨s, rfl⟩ := mkChar_annot hb e
    exact quiet_one rfl rfl rfl rfl
  cases f with
  | int | bool | half | single | double => cases e; exact quiet_one rfl rfl rfl rfl
  | pascal =>
    obtain ⟨_, _, e⟩ := Except.bind_ok' e
    cases e; exact quiet_one rfl rfl rfl rfl
  | chars k => exact char (f := .chars k) rfl e
  | via i f name own make =>
    simp only [Fmt.hint] at e
    obtain ⟨x, _, e⟩ := Except.bind_ok' e
    obtain ⟨y, h1, e⟩ := Except.bind_ok' e
    have hy : ∃ st, y = .serAs st := by
      unfold mkSerializeAs at h1
      obtain ⟨t, _, h1⟩ := Except.bind_ok' h1
      split at h1
      · split at h1 <;> cases h1
        exact ⟨_, rfl⟩
      · cases h1
    obtain ⟨st, rfl⟩ := hy
    split at e
    · cases e; exact quiet_one rfl rfl rfl rfl
    · obtain ⟨z, h2, e⟩ := Except.bind_ok' e
      obtain ⟨_, _, h2⟩ := Except.bind_ok' h2
      cases h2
      cases e; exact quiet_one rfl rfl rfl rfl
  | counted w => exact char (f := .counted w) rfl e
  | «until» t => exact char (f := .until t) rfl e
  | rest => exact char (f := .rest) rfl e
  | net => exact char (f := .net) rfl e
  | text f en de =>
    simp only [Fmt.hint] at e
    cases hb : f.bracket with
    | none => rw [hb] at e; cases e
    | some b =>
      rw [hb] at e
      have : b.isTvar = false := by cases f <;> simp only [Fmt.bracket] at hb <;> cases hb <;> rfl
      simp only [mkUnicode, this] at e
      obtain ⟨c, _, e⟩ := Except.bind_ok' e
      obtain ⟨t, _, e⟩ := Except.bind_ok' e
      cases t <;> cases e
      exact quiet_one rfl rfl rfl rfl
  | fixed k item =>
    simp only [Fmt.hint] at e
    obtain ⟨hd, h1, e⟩ := Except.bind_ok' e
    obtain ⟨hi, h2, e⟩ := Except.bind_ok' e
    cases header_static h1
    exact quiet_array (written_tvar (hint_written item h2)).1 e
  | list w item =>
    simp only [Fmt.hint] at e
    obtain ⟨hd, h1, e⟩ := Except.bind_ok' e
    obtain ⟨hi, h2, e⟩ := Except.bind_ok' e
    cases header_list h1
    exact quiet_array (written_tvar (hint_written item h2)).1 e
  | sized w w2 item =>
    simp only [Fmt.hint] at e
    obtain ⟨hd, h1, e⟩ := Except.bind_ok' e
    obtain ⟨hi, h2, e⟩ := Except.bind_ok' e
    cases header_counted w.isSizeType w2.isSizeType h1
    exact quiet_array (written_tvar (hint_written item h2)).1 e
  | tup items =>
    simp only [Fmt.hint] at e
    obtain ⟨hs, _, e⟩ := Except.bind_ok' e
    cases e; intro a ha; cases ha
  | obj => cases e; intro a ha; cases ha
  | me => cases e; intro a ha; cases ha
  | choice i args ahead decider keys opts other =>
    simp only [Fmt.hint] at e
    obtain ⟨os, _, e⟩ := Except.bind_ok' e
    obtain ⟨dd, _, e⟩ := Except.bind_ok' e
    cases ahead with
    | none =>
      obtain ⟨x, h1, e⟩ := Except.bind_ok' e
      have : ∃ s, x = .ser s := by
        unfold mkLookback at h1
        dsimp only at h1
        split at h1 <;>
        · obtain ⟨_, _, h1⟩ := Except.bind_ok' h1
          obtain ⟨_, _, h1⟩ := Except.bind_ok' h1
          cases h1; exact ⟨_, rfl⟩
      obtain ⟨s, rfl⟩ := this
      cases e; exact quiet_one rfl rfl rfl rfl
    | some a =>
      obtain ⟨_, _, e⟩ := Except.bind_ok' e
      obtain ⟨x, h1, e⟩ := Except.bind_ok' e
      have : ∃ s, x = .ser s := by
        unfold mkLookahead at h1
        dsimp only at h1
        split at h1 <;>
        · obtain ⟨_, _, h1⟩ := Except.bind_ok' h1
          obtain ⟨_, _, h1⟩ := Except.bind_ok' h1
          obtain ⟨t, _, h1⟩ := Except.bind_ok' h1
          cases t <;> cases h1
          exact ⟨_, rfl⟩
      obtain ⟨s, rfl⟩ := this
      cases e; exact quiet_one rfl rfl rfl rfl

theorem annotate_flatten {h : Hint} (c : Decider) (ds : List Val) : (annotate h [.cond c ds]).flatten.tail = 
    (if h.flatten = [] then [] else h.flatten.tail ++ [.cond c ds]) ∨ h.flatten = [] := by
  have key : (annotate h [.cond c ds]).flatten = h.flatten ++ [.cond c ds] := by
    cases h <;> simp only [annotate, Hint.flatten, Hint.flatMeta, Hint.flatMetas, List.append_nil]
    · rw [flatMetas_snoc, List.append_assoc]
    all_goals rfl
  cases hf : h.flatten with
  | nil => exact .inr rfl
  | cons b as => left; rw [key, hf]; simp

theorem quiet_field (f : Field) {h : Hint} (e : f.hint ctx N = .ok h) : Quiet h := by
  cases f with
  | value a f => exact quiet_fmt f e
  | pad a k =>
    obtain ⟨_, _, e⟩ := Except.bind_ok' e
    cases e; exact quiet_one rfl rfl rfl rfl
  | «when» a c f dv =>
    simp only [Field.hint] at e
    obtain ⟨x, h1, e⟩ := Except.bind_ok' e
    cases e
    have hq := quiet_fmt f h1
    have hw := written_flatten (hint_written f h1)
    intro y hy
    rcases annotate_flatten (h := x) c [dv] with h2 | h2
    · rw [h2, if_neg hw, List.mem_append] at hy
      rcases hy with hy | hy
      · exact hq y hy
      · rw [List.mem_singleton] at hy; subst hy; exact ⟨rfl, rfl⟩
    · exact absurd h2 hw

/-- It is evaluated already, and says something about serialization. -/
theorem field_plain (f : Field) {h : Hint} (e : f.hint ctx N = .ok h) : evalHint h = h ∧ unserialized h = false := by
  have key : ∀ {x : Hint}, x.written = true → evalHint x = x ∧ unserialized x = false := by
    intro x hx
    cases x <;> first | exact ⟨rfl, rfl⟩ | cases hx
  cases f with
  | value a f => exact key (hint_written f e)
  | pad a k =>
    obtain ⟨_, _, e⟩ := Except.bind_ok' e
    cases e; exact ⟨rfl, rfl⟩
  | «when» a c f dv =>
    simp only [Field.hint] at e
    obtain ⟨x, h1, e⟩ := Except.bind_ok' e
    cases e
    cases x <;> exact ⟨rfl, rfl⟩

/-- Only declarations with variables are replaced. -/
theorem own_open {own : Dict Hint} {m : TMap} : ∀ {hs r : Dict Hint}, ownSpecHints ctx n id own m hs = .ok r →
    ∀ a ∈ List.map (·.1) r, ∃ h u, (a, h) ∈ hs ∧ transformAlias ctx n id h = .ok u ∧ (u.isTvar = true ∨ u.isAlias = true)
  | [], r, h => by cases h; simp
  | (name, hh) :: rest, r, h => by
    have old : ∀ {ds : Dict Hint}, ownSpecHints ctx n id own m rest = .ok ds → ∀ a ∈ List.map (·.1) ds,
        ∃ h u, (a, h) ∈ (name, hh) :: rest ∧ transformAlias ctx n id h = .ok u ∧ (u.isTvar = true ∨ u.isAlias = true) := by
      intro ds hds a ha
      obtain ⟨h, u, h1, h2⟩ := own_open hds a ha
      exact ⟨h, u, List.mem_cons_of_mem _ h1, h2⟩
    have new : ∀ {ds : Dict Hint} {x u : Hint}, transformAlias ctx n id hh = .ok u → (u.isTvar = true ∨ u.isAlias = true) →
        ownSpecHints ctx n id own m rest = .ok ds → ∀ a ∈ List.map (·.1) ((name, x) :: ds),
        ∃ h u, (a, h) ∈ (name, hh) :: rest ∧ transformAlias ctx n id h = .ok u ∧ (u.isTvar = true ∨ u.isAlias = true) := by
      intro ds x u h1 h2 hds a ha
      rcases List.mem_cons.1 ha with rfl | ha
      · exact ⟨hh, u, by simp, h1, h2⟩
      · exact old hds a ha
    rw [ownSpecHints] at h
    split at h
    · obtain ⟨u, hu, h⟩ := Except.bind_ok' h
      split at h
      · obtain ⟨ds, h1, h⟩ := Except.bind_ok' h
        split at h <;> cases h
        · exact new hu (.inl rfl) h1
        · exact old h1
      · obtain ⟨v, _, h⟩ := Except.bind_ok' h
        obtain ⟨ds, h1, h⟩ := Except.bind_ok' h
        cases h
        exact new hu (.inr rfl) h1
      · obtain ⟨v, _, h⟩ := Except.bind_ok' h
        obtain ⟨ds, h1, h⟩ := Except.bind_ok' h
        cases h
        exact new hu (.inr rfl) h1
      · exact old h
    · exact old h

theorem get_of_mem : ∀ {hs : Dict Hint} {a : Name} {h : Hint}, (Dict.keys hs).Nodup → (a, h) ∈ hs → Dict.get hs a = some h
  | (b, x) :: hs, a, h, hn, hm => by
    have hn' := List.nodup_cons.1 hn
    rcases List.mem_cons.1 hm with e | hm
    · cases e; simp [Dict.get]
    · have : b ≠ a := by
        rintro rfl
        exact hn'.1 (List.mem_map_of_mem (f := (·.1)) hm)
      have ih := get_of_mem hn'.2 hm
      simp only [Dict.get, List.find?_cons, show (b == a) = false by simpa using this] at ih ⊢
      exact ih

/-- The declarations of a class without a body of its own are those with variables in the generic class. -/
theorem spec_names (h : createClass ctx n id w d = .ok o) {b : ClassId} {args : List Hint} (hs : Specializes b args d.bases) (he : d.anns = [])
    (hb : w b = some ob) (hsup : ∀ y ∈ ob.origBases, ∀ c, ¬ IsBase c y) :
    o.decls = ob.decls ++ o.anns ∧ ∀ a ∈ o.anns.map (·.1), a ∈ ob.decls.map (·.1) ∧
      ∃ u, transformAlias ctx n id (evalHint (lastDecl ob.decls a)) = .ok u ∧ (u.isTvar = true ∨ u.isAlias = true) := by
  obtain ⟨body, hbody, hc⟩ := (createClass_made h).chain
  have hbase := structuredBase_one (specializes_one hs)
  have hargs := origArgs_specializes hs
  rcases hc with ⟨h1, _⟩ | ⟨b', ob', h1, hw, _, h4, h5, h6⟩
  · rw [hbase] at h1; cases h1
  · rw [hbase] at h1
    cases h1
    rw [hb] at hw
    cases hw
    rw [origBases_specializes hs] at h5
    refine ⟨by unfold ClassObj.decls; rw [h4]; simp, ?_⟩
    rcases h6 with ⟨h7, _⟩ | ⟨args', hints, h7, h8, h9⟩
    · rw [h5, hargs] at h7; cases h7
    · rw [h5, hargs] at h7
      cases h7
      rw [he] at hbody
      cases hbody
      cases n with
      | zero => cases h8
      | succ n =>
        simp only [specHints, hb] at h8
        split at h8
        · cases h8
        · obtain ⟨own, h10, h8⟩ := Except.bind_ok' h8
          obtain ⟨sup, h11, h8⟩ := Except.bind_ok' h8
          cases h8
          rw [genericSupers_none hsup] at h11
          cases h11
          intro a ha
          have ha' : a ∈ own.map (·.1) := by
            have hk : a ∈ Dict.keys o.anns := ha
            rw [h9, keys_update, mem_foldl, keys_update, mem_foldl] at hk
            rcases hk with hk | hk | hk
            · cases hk
            · cases hk
            · exact hk
          obtain ⟨x, u, k1, k2, k3⟩ := own_open h10 a ha'
          have hmem : a ∈ ob.mro.flatten.map (·.1) := by
            have : a ∈ (typeHints ob.mro).keys := List.mem_map_of_mem (f := (·.1)) k1
            rw [typeHints_keys, mem_firsts] at this
            exact this
          have e1 := get_of_mem (by rw [typeHints_keys]; exact nodup_firsts _) k1
          rw [typeHints_get _ hmem] at e1
          cases e1
          exact ⟨hmem, u, k2, k3⟩

end Verif.Template
