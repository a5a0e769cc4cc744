import Verif.Spec.ReadToEnd
import Verif.Props.Adding
import Verif.Props.Hints
/-
C24: what counts as reading to the end, array items, and what is overlooked.
-/
namespace Verif
open Spec Samples

variable {cf : ClassId → Bool}

theorem lastFinal_append (ss : List Ser) (s : Ser) : Ser.lastFinal cf (ss ++ [s]) = s.isFinal cf := by
  induction ss with
  | nil => rfl
  | cons a ss ih =>
    cases ss with
    | nil => rfl
    | cons b ss => exact ih

theorem anyFinal_iff (ss : List Ser) : Ser.anyFinal cf ss = true ↔ ∃ s ∈ ss, s.isFinal cf = true := by
  induction ss with
  | nil => simp [Ser.anyFinal]
  | cons a ss ih => simp [Ser.anyFinal, ih]

/-- **C24** (`get_final`).  A serializer counts as reading to the end exactly if it does so itself or inside of a text
encoding, tuple, union option, `Condition` or nested class. -/
theorem C24_noticed (s : Ser) : s.isFinal cf = true ↔ ToEnd cf s := by
  constructor
  · intro h
    have all : (∀ s : Ser, s.isFinal cf = true → ToEnd cf s) := by
      intro s
      apply Ser.rec (motive_1 := fun s => s.isFinal cf = true → ToEnd cf s)
        (motive_2 := fun ss => ∀ s ∈ ss, s.isFinal cf = true → ToEnd cf s)
      case consuming => exact fun id _ => .consuming id
      case unicode => exact fun inner e d ih h => .unicode e d (ih h)
      case tuple => exact fun id inner ih h => .tuple id (ih h)
      case cond => exact fun s c ds ih h => .cond c ds (ih h)
      case structured => exact fun id c h => .structured id h
      case lookback =>
        intro id d keys opts dflt ih _ h
        obtain ⟨x, hx, hf⟩ := (anyFinal_iff opts).1 h
        exact .lookback id d keys dflt hx (ih x hx hf)
      case lookahead =>
        intro id ra d keys opts dflt _ ih _ h
        obtain ⟨x, hx, hf⟩ := (anyFinal_iff opts).1 h
        exact .lookahead id ra d keys dflt hx (ih x hx hf)
      case compound =>
        intro id ss ih h
        rcases List.eq_nil_or_concat ss with rfl | ⟨ss', x, rfl⟩
        · cases h
        · rw [List.concat_eq_append] at h ih ⊢
          rw [Ser.isFinal, lastFinal_append] at h
          exact .compound id ss' (ih x (by simp) h)
      case specialized =>
        intro id p ss ih h
        rcases List.eq_nil_or_concat ss with rfl | ⟨ss', x, rfl⟩
        · cases h
        · rw [List.concat_eq_append] at h ih ⊢
          rw [Ser.isFinal, lastFinal_append] at h
          exact .specialized id p ss' (ih x (by simp) h)
      case nil => exact fun x hx => by cases hx
      case cons =>
        intro a as iha ihas x hx
        rcases List.mem_cons.1 hx with rfl | hx
        · exact iha
        · exact ihas x hx
      all_goals (intros; rename_i h; cases h)
    exact all s h
  · intro h
    induction h with
    | consuming id => rfl
    | unicode e d _ ih => exact ih
    | tuple id _ ih => exact ih
    | cond c ds _ ih => exact ih
    | lookback id d keys dflt hm _ ih => exact (anyFinal_iff _).2 ⟨_, hm, ih⟩
    | lookahead id ra d keys dflt hm _ ih => exact (anyFinal_iff _).2 ⟨_, hm, ih⟩
    | compound id ss _ ih => rw [Ser.isFinal, lastFinal_append]; exact ih
    | specialized id p ss _ ih => rw [Ser.isFinal, lastFinal_append]; exact ih
    | structured id h => exact h

/-- `tuple[uint8, Condition(unicode[math.inf])]` reads to the end. -/
example : ToEnd (fun _ => false) (.tuple [1] (.compound [2] [.struct u8, .cond (.unicode (.consuming [3])
    (fun _ => .error .typeError) (fun _ => .error .typeError)) kindOf []])) :=
  .tuple _ (.compound _ [.struct u8] (.cond _ _ (.unicode _ _ (.consuming _))))

/-- **C24** (fields of a class).  If anything that takes up bytes follows a field that reads to the end, in one of these
ways, the serializer of the class cannot be made: `TypeError`. -/
theorem C24_fields_to_end_partial {bo : ByteOrder} {ss pre post : List Ser} {x y : Ser} {id : SerId} (hs : ∀ x ∈ ss, FieldOf bo x)
    (he : ss = pre ++ x :: post) (hx : ToEnd cf x) (hy : y ∈ post) (hy0 : y ≠ .null) :
    sumSers cf id ss = .error .typeError := C24_fields_partial hs he ((C24_noticed x).2 hx) hy hy0

example : sumSers (fun c => c == 3) [7] [.struct u8, .cond (.consuming [3]) kindOf [.bytes []], .struct u8] = .error .typeError ∧
    sumSers (fun c => c == 3) [7] [.structured [8] 3, .struct u8] = .error .typeError ∧
    sumSers (fun c => c == 3) [7] [.lookback [8] kindOf [.int 0, .int 1] [.struct u8, .consuming [5]] .null, .struct u8] = .error .typeError :=
  ⟨by rfl, by rfl, by rfl⟩

/-- **C24** (array items).  A type that reads to the end cannot be an array item: `TypeError`. -/
theorem C24_array_items {ctx : HintCtx} {n : Nat} {count : Count} {size : Option StructSer} {item : Hint} {s : Ser}
    (ht : transform ctx n (7 :: ctx.ident .array [.header count size, item]) item = .ok (.ser s)) (hs : ToEnd ctx.clsFinal s)
    (hv : item.isTvar = false) : mkArray ctx n (.header count size) item = .error .typeError := by
  unfold mkArray
  simp only [Hint.isAlias, hv, Bool.or_self, ht, bind, Except.bind, (C24_noticed s).2 hs]
  rfl

/-- `array[Header[3], char[math.inf]]`, and of the class 3, which reads to the end. -/
example : ((mkChar hctx .inf) >>= fun item => mkArray hctx 2 (.header (.static 3) none) item).toOption.isNone = true ∧
    (mkArray hctx 2 (.header (.static 3) none) (.cls 3)).toOption.isNone = true ∧
    (mkArray hctx 2 (.header (.static 3) none) (.cls 0)).toOption.isSome = true := ⟨by rfl, by rfl, by rfl⟩

/-- **C24 is false in full.**  A union whose default reads to the end is not noticed (`unions.py:56-59`): a field after it
is accepted. -/
theorem C24_default_is_false : ∃ s : Ser,
    mkLookback hctx 1 [8] kindOf [.int 0] [uint8H] (some (.annot (.plain "bytes") [.ser (.consuming [5])])) = .ok (.ser s) ∧
    sumSers (fun _ => false) [7] [s, .struct u8] = .ok (.compound [7] [s, .struct u8]) :=
  ⟨.lookback [8] kindOf [.int 0] [.struct u8] (.consuming [5]), by rfl, by rfl⟩

end Verif
