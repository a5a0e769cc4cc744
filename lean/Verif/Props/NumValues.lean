import Verif.Proofs.NumValues
/-
C82: the number of values of a format comes from a dictionary that all serializers share, and is always right.
-/
namespace Verif
open NumValues

/-- **C82** (meaning).  The number is the number of values that `unpack_from` returns for every buffer, and the only one that `pack`
accepts. -/
theorem C82_meaning (P : Platform) (s : StructSer) (cache : Cache) (n : Nat) (hc : Right cache) (h : (compute P s cache).1 = .ok n) :
    (∀ buf off vs, structUnpackFrom P s.byteOrder s.toks buf off = .ok vs → vs.length = n) ∧
    (∀ vs out, structPack P s.byteOrder s.toks vs = .ok out → vs.length = n) := by
  rw [(compute_right P s hc).1] at h
  cases h
  refine ⟨fun buf off vs h => ?_, fun vs out h => ?_⟩
  · unfold structUnpackFrom at h
    split at h
    · cases h; exact unpackToks_length ..
    · cases h
  · unfold structPack at h
    split at h
    · assumption
    · cases h

/-- **C82** (history).  Whatever serializers were made before, in whatever order, each of them gets the number of values of its
own format, and the dictionary is right afterwards. -/
theorem C82_calls (P : Platform) (ss : List StructSer) :
    (calls P ss []).1 = ss.map (fun s => .ok (numVals s.toks)) ∧ Right (calls P ss []).2 :=
  calls_right P ss (by intro f n h; cases h)

/-- **C82** (threads).  Threads that make serializers at the same time and take turns in any order: every call that has ended
returned the right number, and every call has ended when its thread had two turns. -/
theorem C82_threads (P : Platform) (sers : Nat → StructSer) (is : List Nat) (ss : List StructSer) (i : Nat) :
    (∀ r, (schedule P sers is (fun _ => .start, (calls P ss []).2)).1 i = .done r → r = .ok (numVals (sers i).toks)) ∧
    (2 ≤ is.count i → ∃ r, (schedule P sers is (fun _ => .start, (calls P ss []).2)).1 i = .done r) ∧
    Right (schedule P sers is (fun _ => .start, (calls P ss []).2)).2 := by
  obtain ⟨h1, h2⟩ := schedule_right P sers is (ph := fun _ => .start) (C82_calls P ss).2 (fun _ => trivial)
  refine ⟨fun r hr => ?_, fun hn => ?_, h2⟩
  · have := h1 i
    rw [hr] at this
    exact this
  · have := schedule_left P sers i is (fun _ => .start) (calls P ss []).2
    cases hp : (schedule P sers is (fun _ => .start, (calls P ss []).2)).1 i with
    | done r => exact ⟨r, rfl⟩
    | start => rw [hp] at this; simp only [left] at this; omega
    | counted n => rw [hp] at this; simp only [left] at this; omega

/-- `'<3h'` has three values, `'<2x4sI'` two; the second call for `'<3h'` is answered from the dictionary, which has one entry
for it. -/
example (P : Platform) :
    (calls P [⟨"<3h".toList, none⟩, ⟨"<2x4sI".toList, none⟩, ⟨"<3h".toList, none⟩] []).1 = [.ok 3, .ok 2, .ok 3] ∧
    (calls P [⟨"<3h".toList, none⟩, ⟨"<2x4sI".toList, none⟩, ⟨"<3h".toList, none⟩] []).2
      = [("<2x4sI".toList, 2), ("<3h".toList, 3)] := ⟨(C82_calls P _).1, by rfl⟩

/-- Two threads make the same serializer at once, both count, and both store the number. -/
example (P : Platform) : (schedule P (fun _ => ⟨"<3h".toList, none⟩) [0, 1, 1, 0] (fun _ => .start, [])).2
    = [("<3h".toList, 3), ("<3h".toList, 3)] := by rfl

end Verif
