import Verif.Proofs.Caches
import Verif.Samples
/-
C60: what is written in the brackets of `char`, `unicode` and `array` means the same whatever was written before.
-/
namespace Verif
open Spec Caches

/-- **C60**, partial: arguments that are not floats equal to an integer.  Every use in a program has the outcome that its own arguments give
without caches, where `ident` says which serializer objects are the same: one for equal arguments, different ones for different arguments. -/
theorem C60_partial {w : Setup} (hw : ∀ i j, w.items i = w.items j → i = j) (us : List Use) (hu : ∀ u ∈ us, ExactUse u) :
    ∃ ident, (runAll w us {}).1 = us.map (meaning w ident) ∧
      (∀ k args k' args', ident k args ≠ [] → ident k args = ident k' args' → k = k' ∧ args = args') ∧
      (∀ a h, .char a ∈ us → meaning w ident (.char a) = .ok h → ident .char [a.hint] ≠ []) ∧
      (∀ l z i h, .array l z i ∈ us → mkHeader l.hint z.hint = .ok h → h.isAlias = false → ident .array [h, w.items i] ≠ []) := by
  obtain ⟨hs, -, hl, hb⟩ := all_run (Inv.empty w) hu
  have each : ∀ u ∈ us, ∃ r, UseBy w u r (runAll w us {}).2 := by
    intro u hm
    obtain ⟨n, hn, rfl⟩ := List.getElem_of_mem hm
    refine ⟨(runAll w us {}).1[n]'(by omega), hb (us[n], (runAll w us {}).1[n]'(by omega)) ?_⟩
    have : (us.zip (runAll w us {}).1)[n]'(by rw [List.length_zip]; omega) = (us[n], (runAll w us {}).1[n]'(by omega)) := List.getElem_zip
    rw [← this]
    exact List.getElem_mem _
  refine ⟨identOf w (runAll w us {}).2, ?_, ident_inj hs, ?_, ?_⟩
  · refine List.ext_getElem (by simp [hl]) fun n h1 h2 => ?_
    rw [List.getElem_map]
    have hn : n < us.length := by simpa using h2
    refine use_means hw hs (hb (us[n], (runAll w us {}).1[n]) ?_)
    have : (us.zip (runAll w us {}).1)[n]'(by rw [List.length_zip]; omega) = (us[n], (runAll w us {}).1[n]) := List.getElem_zip
    rw [← this]
    exact List.getElem_mem _
  · intro a h hm hok
    obtain ⟨r, hr⟩ := each _ hm
    rcases hr with ⟨b, k, t, h1, h2, _⟩ | ⟨e, _, h1⟩
    · rw [← h2, ident_char hs h1]; exact List.cons_ne_nil _ _
    · have := mkChar_error (d := { w.ctx with ident := identOf w (runAll w us {}).2 }) (h1 [])
      exact absurd (this.symm.trans hok) nofun
  · intro l z i h hm hok ha
    obtain ⟨r, hr⟩ := each _ hm
    rcases hr with ⟨e, h1, _⟩ | ⟨l', z', k, h', h1, h2, h3, _⟩
    · rw [h1] at hok; cases hok
    · have h4 := (hs.headers _ _ _ _ h1).2.2.2
      rw [h2, h3, hok] at h4
      cases h4
      rw [ident_array hw hs h1 ha]
      exact List.cons_ne_nil _ _

/-- **C60** (exceptions).  After any such uses, `char[a]` and `unicode[a, e]` raise what they raise without caches. -/
theorem C60_errors {w : Setup} (us : List Use) (hu : ∀ u ∈ us, ExactUse u) (a e : Arg) (x : Err)
    (ident : AliasKind → List Hint → SerId) :
    (ExactUse (.char a) → ((char w a (runAll w us {}).2).1 = .error x ↔ meaning w ident (.char a) = .error x)) ∧
    (ExactUse (.unicode a e) → ((unicode w a e (runAll w us {}).2).1 = .error x ↔ meaning w ident (.unicode a e) = .error x)) := by
  obtain ⟨hs, -, -, -⟩ := all_run (Inv.empty w) hu
  constructor
  · intro ha
    have h := char_run hs ha
    rw [char_means h.1 h.2.2]
    exact ⟨mkChar_error, mkChar_error⟩
  · intro ha
    have h := unicode_run hs ha.1 ha.2
    rw [text_means h.1 h.2.2]
    exact ⟨mkUnicode_error, mkUnicode_error⟩

/-- **C60** (floats).  A float that is equal to an integer is a `TypeError`, unless `char` was used with that integer before: then it is that. -/
theorem C60_float {w : Setup} (us : List Use) (hu : ∀ u ∈ us, ExactUse u) (f : UInt64) (i : Int) (hf : floatEqInt f i = true) :
    ((∀ b k h, (b, (k, h)) ∈ (runAll w us {}).2.chars → b.hint ≠ .int i) → (char w (.val (.float f)) (runAll w us {}).2).1 = .error .typeError) ∧
    (∀ b k h, (b, (k, h)) ∈ (runAll w us {}).2.chars → b.hint = .int i → (char w (.val (.float f)) (runAll w us {}).2).1 = .ok h) := by
  obtain ⟨hs, -, -, -⟩ := all_run (Inv.empty w) hu
  exact float_run hs hf

/-- **C60** (unhashable).  What cannot be hashed is a `TypeError`, and nothing changes. -/
theorem C60_unhashable (w : Setup) (s : Caches) (a b : Arg) (h : a.hashable = false) :
    char w a s = (.error .typeError, s) ∧ unicode w a b s = (.error .typeError, s) ∧ unicode w b a s = (.error .typeError, s) ∧
    header a b s = (.error .typeError, s) ∧ header b a s = (.error .typeError, s) := by
  simp [char, unicode, header, h]

/-- **C60** (infinity).  Of all floats only positive infinity, whose exponent is all ones and whose sign and fraction are 0, makes a string that is read to the end; the
others are a `TypeError`. -/
theorem C60_infinity (w : Setup) (f : UInt64) :
    (char w (.val (.float f)) {}).1 = if f.toNat = 0x7FF * 2 ^ 52 then .ok (typed "bytes" (.consuming [0])) else .error .typeError := by
  have e : (f = infBits) ↔ f.toNat = 0x7FF * 2 ^ 52 := by
    constructor
    · rintro rfl; rfl
    · intro h; exact UInt64.toNat_inj.mp h
  by_cases h : f = infBits
  · rw [if_pos (e.mp h), h]; rfl
  · rw [if_neg (fun k => h (e.mpr k))]
    simp [char, Arg.hashable, Val.hashable, find, Arg.hint, h, mkChar, sizeType?]

namespace Samples

def hintCtx : HintCtx := { clsFinal := fun _ => false, spec := fun _ _ => .error .typeError, ident := fun _ _ => [], call := fun _ v => .ok v }

def setup : Setup where
  ctx := hintCtx
  limit := 10
  named := fun _ => (fun _ => .ok [], fun _ => .ok [])
  custom := fun _ => none
  items := fun i => if i = 0 then basicHint "int" 'B' else .int i

/-- `4` and `4.0` -/
def four : Arg := .val (.int 4)
def fourFloat : Arg := .val (.float 0x4010000000000000)

end Samples
open Samples

/-- **C60 is false** for floats: `char[4.0]` raises `TypeError`, but not after `char[4]`; and the same with `unicode` and `Header`. -/
theorem C60_float_is_false :
    (runAll setup [.char fourFloat] {}).1 = [.error .typeError] ∧
    (∃ h, (runAll setup [.char four, .char fourFloat] {}).1 = [.ok h, .ok h]) ∧
    (∃ h, (runAll setup [.unicode four (.val (.str [])), .unicode fourFloat (.val (.str []))] {}).1 = [.ok h, .ok h]) ∧
    (runAll setup [.array fourFloat (.val .none) 0] {}).1 = [.error .typeError] ∧
    ∃ h, (runAll setup [.array four (.val .none) 0, .array fourFloat (.val .none) 0] {}).1 = [.ok h, .ok h] :=
  ⟨rfl, ⟨_, rfl⟩, ⟨_, rfl⟩, rfl, ⟨_, rfl⟩⟩

/-- `char[uint8]` twice is one object, `char[uint16]` another; `char[True]` is `char[1]`; `char[-1]` raises. -/
example : ∃ h, (runAll setup [.char (.size 'B'), .char (.size 'H'), .char (.size 'B'), .char (.val (.int 1)), .char (.val (.bool true)), .char (.val (.int (-1)))] {}).1 =
    [.ok (typed "bytes" (.dynChar [0] ⟨['B'], none⟩)), .ok (typed "bytes" (.dynChar [1] ⟨['H'], none⟩)), .ok (typed "bytes" (.dynChar [0] ⟨['B'], none⟩)),
     .ok h, .ok h, .error .valueError] := ⟨_, rfl⟩

/-- `ExactUse` holds of ordinary arguments. -/
example : ∀ u ∈ [Use.char four, .char (.size 'B'), .unicode (.val (.bytes [0])) (.val (.str [])), .char (.val (.float infBits)), .array four (.size 'H') 3], ExactUse u := by
  intro u hu
  simp only [List.mem_cons, List.not_mem_nil, or_false] at hu
  rcases hu with rfl | rfl | rfl | rfl | rfl
  · exact ⟨rfl, nofun⟩
  · exact ⟨rfl, nofun⟩
  · exact ⟨⟨rfl, nofun⟩, rfl⟩
  · exact ⟨rfl, fun f i e => by cases e; rfl⟩
  · exact ⟨⟨rfl, nofun⟩, ⟨rfl, nofun⟩⟩

end Verif
