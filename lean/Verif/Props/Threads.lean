import Verif.Proofs.ThreadTasks
import Verif.Samples
/-
C40: concurrent use of one class.  Threads take turns at single reads and writes of the attributes
`size` and `_partial_object` of the shared serializers; buffers and streams are their own.
-/
namespace Verif.Threads

/-! ### A program of threads

    class Row(Structured):              # 0
        n: uint8
        at: tuple[uint8, uint8]
        vals: array[Header[uint8], tuple[uint8, uint8]]
    class Lines(Structured):            # 1
        lines: array[Header[uint8, uint8], char[uint8]]
    class Item(Structured):             # 2
        name: char[uint8]
        n: uint8
    class Point(Structured):            # 3
        x: uint8
        y: uint16
    class Dot(Structured):              # 4
        x: uint8
    class Mark(Structured):             # 5
        at: Point
        to: tuple[Point]
        name: char[uint8]
-/

def u8 : StructSer := Samples.u8

def rowClasses : ClassId → Option ClassInfo
  | 0 => some { attrs := ["n", "at", "vals"], byteOrder := .default
                serializer := .compound [1] [.struct u8, .tuple [2] (.struct ⟨"BB".toList, Option.none⟩),
                  .array [3] (some u8) (.tuple [4] (.struct ⟨"BB".toList, Option.none⟩)) (-1)] }
  | _ => Option.none

def rows : Env := ⟨Samples.plat, rowClasses⟩

def pair (x y : Int) : Val := .tup [.int x, .int y]

def row (n : Int) (xy : Val) (vals : List Val) : Val := .obj 0 none [("n", .int n), ("at", xy), ("vals", .list vals)]

def itemClasses : ClassId → Option ClassInfo
  | 1 => some { attrs := ["lines"], byteOrder := .default
                serializer := .array [1] (some ⟨"BB".toList, Option.none⟩) (.dynChar [2] u8) (-1) }
  | 2 => some { attrs := ["name", "n"], byteOrder := .default
                serializer := .compound [3] [.dynChar [4] u8, .struct u8] }
  | _ => Option.none

def items : Env := ⟨Samples.plat, itemClasses⟩

def markClasses : ClassId → Option ClassInfo
  | 3 => some { attrs := ["x", "y"], byteOrder := .default, serializer := .struct ⟨"BH".toList, Option.none⟩ }
  | 4 => some { attrs := ["x"], byteOrder := .default, serializer := .struct u8 }
  | 5 => some { attrs := ["at", "to", "name"], byteOrder := .default
                serializer := .compound [1] [.structured [2] 3, .tuple [3] (.structured [4] 3), .dynChar [5] u8] }
  | _ => Option.none

def marks : Env := ⟨Samples.plat, markClasses⟩

/-- The serializers of the fields `at` and `to` have the size of `Point`. -/
def pointSizes : Sizes := fun id => if id = [2] ∨ id = [4] then some 4 else Option.none

def point (x y : Int) : Val := .obj 3 none [("x", .int x), ("y", .int y)]
def mark (p q : Val) (name : Bytes) : Val := .obj 5 none [("at", p), ("to", .tup [q]), ("name", .bytes name)]

def lines (ls : List Bytes) : Val := .obj 1 none [("lines", .list (ls.map .bytes))]

def item (name : Bytes) (n : Int) : Val := .obj 2 none [("name", .bytes name), ("n", .int n)]

/-- No buffer and an empty stream. -/
def blank : Loc := ⟨[], ⟨[], 0⟩⟩

/-- The replies of the threads that have finished. -/
def replies (env : Env) (schedule : List Nat) (tasks : List (Task × Loc)) : List (Option (Except Err Reply)) :=
  (interleave schedule (fun _ => {}) (threads env 9 tasks)).2.map fun
    | .ret y => some y.1
    | _ => Option.none

/-- Thread 0 takes `k` turns, then thread 1 runs to its end, then thread 0. -/
def interrupted (k : Nat) : List Nat := List.replicate k 0 ++ List.replicate 30 1 ++ List.replicate 30 0

/-! ### The general statement -/

/-- A thread that has finished has the result it gets without other threads: the same reply or exception,
the same bytes in its buffer and stream.  The threads, the schedule, the objects of other classes and the
attributes at the start are arbitrary; the classes have no unions and no arrays with a size in the header.
For methods that compute positions in a buffer, a field of varying size comes last; when unpacking, `Self`
occurs only as a field. -/
theorem C40_partial {env : Env} {n : Nat} (tasks : List (Task × Loc)) (schedule : List Nat) (c : Cells) (i : Nat) {t : Task} {l : Loc}
    (hi : tasks[i]? = some (t, l)) (hp : Parallel noSizes t.inBuffer t.unpacks env) {y : Except Err Reply × Loc}
    (hy : (interleave schedule c (threads env n tasks)).2[i]? = some (.ret y)) (st : St) (hb : st.buf = l.buf) (hs : st.io = l.io) :
    y = outcome (t.alone env n st) :=
  task_alone tasks schedule c i hi hp (allSafe_noSizes _ _) (safe_noSizes _ _) hy st hb hs

/-- The same for unpacking threads and classes with a nested class before another field: when the nested class has
only numbers and characters of fixed length, every thread writes the same size. -/
theorem C40_nested_partial {F : Sizes} {env : Env} {n : Nat} (tasks : List (Task × Loc)) (schedule : List Nat) (c : Cells) (i : Nat) {t : Task} {l : Loc}
    (hi : tasks[i]? = some (t, l)) (hp : Parallel F t.inBuffer true env) (hf : Fitting F env) (hu : ∀ tl ∈ tasks, tl.1.unpacks = true)
    {y : Except Err Reply × Loc} (hy : (interleave schedule c (threads env n tasks)).2[i]? = some (.ret y)) (st : St) (hb : st.buf = l.buf)
    (hs : st.io = l.io) : y = outcome (t.alone env n st) := by
  have ht := hu _ (List.mem_of_getElem? hi)
  exact task_alone tasks schedule c i hi (ht ▸ hp) (safe_tasks hf n c tasks hu) (safe_task hf n t ht l _) hy st hb hs

/-- Whatever the threads have done so far, each can finish. -/
theorem C40_finishes (env : Env) (n : Nat) (tasks : List (Task × Loc)) (schedule : List Nat) (c : Cells) (i : Nat) (hi : i < tasks.length) :
    ∃ k y, (interleave (schedule ++ List.replicate k i) c (threads env n tasks)).2[i]? = some (.ret y) := by
  have hl : i < (interleave schedule c (threads env n tasks)).2.length := by
    rw [interleave_length, threads, List.length_map]; exact hi
  obtain ⟨k, y, h⟩ := finishes i _ (interleave schedule c (threads env n tasks)).1 _ (List.getElem?_eq_getElem hl)
  exact ⟨k, y, by rw [interleave_append]; exact h⟩

theorem rows_parallel (u : Bool) : Parallel noSizes true u rows := by
  intro cls bo ci ser h
  unfold objSer at h
  match cls with
  | 0 =>
    simp only [rows, rowClasses] at h
    cases bo with
    | none => cases h; cases u <;> rfl
    | some b => cases b <;> (cases h; cases u <;> rfl)
  | k + 1 => simp only [rows, rowClasses] at h; cases h

theorem items_parallel : Parallel noSizes false true ⟨Samples.plat, fun c => if c = 2 then itemClasses 2 else Option.none⟩ := by
  intro cls bo ci ser h
  unfold objSer at h
  by_cases hc : cls = 2
  · subst hc
    cases bo with
    | none => cases h; rfl
    | some b => cases b <;> (cases h; rfl)
  · simp only [if_neg hc] at h; cases h

-- two threads unpack rows, another packs one: whatever the turns, as alone
example (schedule : List Nat) (c : Cells) (y : Except Err Reply × Loc)
    (hy : (interleave schedule c (threads rows 9 [(.createUnpack 0 (.buf [5, 1, 2, 2, 3, 4, 5, 6]), blank), (.pack (row 6 (pair 1 2) [pair 7 8]), blank),
      (.createUnpack 0 (.buf [1, 2, 3, 0]), blank)])).2[0]? = some (.ret y)) :
    y = (.ok (.value (row 5 (pair 1 2) [pair 3 4, pair 5 6])), blank) :=
  C40_partial (t := .createUnpack 0 (.buf [5, 1, 2, 2, 3, 4, 5, 6])) (l := blank) _ schedule c 0 rfl (rows_parallel true) hy Samples.st0 rfl rfl

example : replies rows ([0, 1, 1, 0, 2, 2, 0, 1, 2] ++ List.replicate 30 2 ++ List.replicate 30 0 ++ List.replicate 30 1)
    [(.createUnpack 0 (.buf [5, 1, 2, 2, 3, 4, 5, 6]), blank), (.pack (row 6 (pair 1 2) [pair 7 8]), blank),
      (.createUnpack 0 (.buf [1, 2, 3, 0]), blank)] =
    [some (.ok (.value (row 5 (pair 1 2) [pair 3 4, pair 5 6]))), some (.ok (.bytes [6, 1, 2, 1, 7, 8])), some (.ok (.value (row 1 (pair 2 3) [])))] := by rfl

-- a class with a string in the middle, read from a stream
example (schedule : List Nat) (c : Cells) (other : Task) (l' : Loc) (y : Except Err Reply × Loc)
    (hy : (interleave schedule c (threads ⟨Samples.plat, fun c => if c = 2 then itemClasses 2 else Option.none⟩ 9
      [(.createUnpack 2 .io, ⟨[], ⟨[1, 9, 5, 77], 0⟩⟩), (other, l')])).2[0]? = some (.ret y)) :
    y = (.ok (.value (item [9] 5)), ⟨[], ⟨[1, 9, 5, 77], 3⟩⟩) :=
  C40_partial (t := .createUnpack 2 .io) (l := ⟨[], ⟨[1, 9, 5, 77], 0⟩⟩) _ schedule c 0 rfl items_parallel hy ⟨fun _ => {}, [], ⟨[1, 9, 5, 77], 0⟩⟩ rfl rfl

theorem marks_parallel : Parallel pointSizes true true marks := by
  intro cls bo ci ser h
  unfold objSer at h
  match cls with
  | 0 | 1 | 2 => simp only [marks, markClasses] at h; cases h
  | 3 | 4 | 5 =>
    simp only [marks, markClasses] at h
    cases bo with
    | none => cases h; rfl
    | some b => cases b <;> (cases h; rfl)
  | k + 6 => simp only [marks, markClasses] at h; cases h

theorem marks_fitting : Fitting pointSizes marks := by
  intro cls bo ci ser h
  unfold objSer at h
  match cls with
  | 0 | 1 | 2 => simp only [marks, markClasses] at h; cases h
  | 3 | 4 | 5 =>
    simp only [marks, markClasses] at h
    cases bo with
    | none => cases h; rfl
    | some b => cases b <;> (cases h; rfl)
  | k + 6 => simp only [marks, markClasses] at h; cases h

-- two threads unpack marks from their buffers: whatever the turns, as alone
example (schedule : List Nat) (c : Cells) (y : Except Err Reply × Loc)
    (hy : (interleave schedule c (threads marks 9 [(.createUnpack 5 (.buf [1, 0, 2, 0, 3, 0, 4, 0, 1, 9]), blank),
      (.createUnpack 5 (.at [7, 5, 0, 6, 0, 7, 0, 8, 0, 1, 3] 1), blank)])).2[0]? = some (.ret y)) :
    y = (.ok (.value (mark (point 1 2) (point 3 4) [9])), blank) :=
  C40_nested_partial (t := .createUnpack 5 (.buf [1, 0, 2, 0, 3, 0, 4, 0, 1, 9])) (l := blank) _ schedule c 0 rfl marks_parallel marks_fitting
    (by simp [Task.unpacks]) hy Samples.st0 rfl rfl

example : replies marks (interrupted 2) [(.createUnpack 5 (.buf [1, 0, 2, 0, 3, 0, 4, 0, 1, 9]), blank),
      (.createUnpack 5 (.at [7, 5, 0, 6, 0, 7, 0, 8, 0, 1, 3] 1), blank)] =
    [some (.ok (.value (mark (point 1 2) (point 3 4) [9]))), some (.ok (.value (mark (point 5 6) (point 7 8) [3])))] := by rfl

/-! ### Where the property fails -/

/-- One thread unpacks a `Mark` while another packs a `Mark` with a `Dot` for a `Point`: the fields after the
first are read at the offset that fits the `Dot`. -/
theorem C40_other_class_is_false :
    replies marks (interrupted 1) [(.createUnpack 5 (.buf [1, 0, 2, 0, 3, 0, 4, 0, 1, 9]), blank),
        (.pack (mark (.obj 4 none [("x", .int 7)]) (point 3 4) [9]), blank)] =
      [some (.ok (.value (mark (point 1 2) (point 0 768) []))), some (.ok (.bytes [7, 3, 0, 4, 0, 1, 9]))] ∧
    (outcome ((Task.createUnpack 5 (.buf [1, 0, 2, 0, 3, 0, 4, 0, 1, 9])).alone marks 9 Samples.st0)).1 =
      .ok (.value (mark (point 1 2) (point 3 4) [9])) :=
  ⟨by rfl, by rfl⟩

/-- Two threads packing `Lines`: the size in the first header counts bytes of the other thread's object. -/
theorem C40_sized_array_is_false :
    replies items (interrupted 3) [(.pack (lines [[1], [2, 3]]), blank), (.pack (lines [[7, 7, 7, 7]]), blank)] =
      [some (.ok (.bytes [2, 8, 1, 1, 2, 2, 3])), some (.ok (.bytes [1, 5, 4, 7, 7, 7, 7]))] ∧
    (outcome ((Task.pack (lines [[1], [2, 3]])).alone items 9 Samples.st0)).1 = .ok (.bytes [2, 5, 1, 1, 2, 2, 3]) :=
  ⟨by rfl, by rfl⟩

/-- Two threads unpacking `Item`s from buffers: a field is read at the offset that fits the other thread's string. -/
theorem C40_offset_is_false :
    replies items (interrupted 1) [(.createUnpack 2 (.buf [1, 9, 5, 77]), blank), (.createUnpack 2 (.buf [2, 8, 8, 6]), blank)] =
      [some (.ok (.value (item [9] 77))), some (.ok (.value (item [8, 8] 6)))] ∧
    (outcome ((Task.createUnpack 2 (.buf [1, 9, 5, 77])).alone items 9 Samples.st0)).1 = .ok (.value (item [9] 5)) :=
  ⟨by rfl, by rfl⟩

/-- Two threads packing objects with a union: the decider is asked about the other thread's object. -/
theorem C40_union_is_false :
    replies Samples.env (interrupted 1) [(.pack (Samples.alt 0 (.int 5) 6), blank), (.pack (Samples.alt 1 (.bytes [5]) 6), blank)] =
      [some (.error .typeError), some (.ok (.bytes [1, 1, 5, 6]))] ∧
    (outcome ((Task.pack (Samples.alt 0 (.int 5) 6)).alone Samples.env 9 Samples.st0)).1 = .ok (.bytes [0, 5, 6]) :=
  ⟨by rfl, by rfl⟩

/-- One thread unpacks a tree while another packs one: `Self` in the array finds an object that is no proxy. -/
theorem C40_self_is_false :
    replies Samples.env (interrupted 1) [(.createUnpack 2 (.buf [1, 1, 2, 0]), blank), (.pack (Samples.tree 1 []), blank)] =
      [some (.error .attributeError), some (.ok (.bytes [1, 0]))] ∧
    (outcome ((Task.createUnpack 2 (.buf [1, 1, 2, 0])).alone Samples.env 9 Samples.st0)).1 = .ok (.value (Samples.tree 1 [Samples.tree 2 []])) :=
  ⟨by rfl, by rfl⟩

/-- So not every schedule gives the results of running alone. -/
theorem C40_is_false : ¬ ∀ (env : Env) (n : Nat) (tasks : List (Task × Loc)) (schedule : List Nat) (c : Cells) (i : Nat) (t : Task) (l : Loc)
    (y : Except Err Reply × Loc) (st : St), tasks[i]? = some (t, l) → (interleave schedule c (threads env n tasks)).2[i]? = some (.ret y) →
    st.buf = l.buf → st.io = l.io → y = outcome (t.alone env n st) := by
  intro h
  have := h items 9 [(.createUnpack 2 (.buf [1, 9, 5, 77]), blank), (.createUnpack 2 (.buf [2, 8, 8, 6]), blank)] (interrupted 1)
    (fun _ => {}) 0 _ _ (.ok (.value (item [9] 77)), blank) Samples.st0 rfl rfl rfl rfl
  cases congrArg Prod.fst this

end Verif.Threads
