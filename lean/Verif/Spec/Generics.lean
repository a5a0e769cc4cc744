import Verif.Spec.Override
/-
Vocabulary for generic hints: type expressions as they are written, with variables to be replaced.
-/
namespace Verif.Spec

/-- `h` is neither a variable nor an alias. -/
def _root_.Verif.Hint.solid (h : Hint) : Bool := !h.isTvar && !h.isAlias

/-- A type expression of a program: `uint8`, `T`, `char[T]`, `array[Header[S, uint16], T]`, `tuple[T, char[S]]`, ... -/
inductive HExp
  | lit (h : Hint)
  | var (t : TVar)
  | app (k : AliasKind) (args : List HExp)
  deriving Inhabited

mutual
/-- The variables that occur in the expression. -/
def HExp.vars : HExp → List TVar
  | .lit _ => []
  | .var t => [t]
  | .app _ args => HExp.varsList args
def HExp.varsList : List HExp → List TVar
  | [] => []
  | e :: es => e.vars ++ HExp.varsList es
end

mutual
/-- The expression with variables replaced; the first entry for a variable counts. -/
def HExp.subst (s : List (TVar × HExp)) : HExp → HExp
  | .lit h => .lit h
  | .var t => match s.find? (fun p => p.1 == t) with
    | some p => p.2
    | none => .var t
  | .app k args => .app k (HExp.substList s args)
def HExp.substList (s : List (TVar × HExp)) : List HExp → List HExp
  | [] => []
  | e :: es => e.subst s :: HExp.substList s es
end

mutual
def HExp.depth : HExp → Nat
  | .lit _ => 0
  | .var _ => 0
  | .app _ args => HExp.depthList args + 1
def HExp.depthList : List HExp → Nat
  | [] => 0
  | e :: es => max e.depth (HExp.depthList es)
end

/-- What the expression `k[args]` is.  `tuple[...]` is made an alias when the hint is looked at (`hint_types/tuples.py:13-14`), here
at once. -/
def index (ctx : HintCtx) (N : Nat) (k : AliasKind) (args : List Hint) : Except Err Hint :=
  if k = .tuple ∧ args.any (fun a => !a.solid) then .ok (.alias .tuple args) else indexAlias ctx N k args

mutual
/-- The value of the expression. -/
def HExp.value (ctx : HintCtx) (N : Nat) : HExp → Except Err Hint
  | .lit h => .ok h
  | .var t => .ok (.tvar t)
  | .app k args => do index ctx N k (← HExp.valueList ctx N args)
def HExp.valueList (ctx : HintCtx) (N : Nat) : List HExp → Except Err (List Hint)
  | [] => .ok []
  | e :: es => do
    let h ← e.value ctx N
    let hs ← HExp.valueList ctx N es
    .ok (h :: hs)
end

def HExp.isVar : HExp → Bool
  | .var _ => true
  | _ => false

/-- `Header[...]` or the like with variables in it. -/
def HExp.isOpenApp : HExp → Bool
  | .app _ args => !(HExp.varsList args).isEmpty
  | _ => false

/-- Variables are where the library's types accept them: lengths, sizes and item types, but not inside the item type of an array
with a fixed header. -/
def varsAllowed : AliasKind → List HExp → Bool
  | .char, [c] => c.isVar
  | .unicode, [c, _] => c.isVar
  | .header, [l, s] => l.isVar || s.isVar
  | .array, [h, i] => h.isOpenApp || i.isVar
  | .tuple, _ => true
  | _, _ => false

/-- `tuple[...]` with variables in it -/
def HExp.isOpenTuple : HExp → Bool
  | .app .tuple args => !(HExp.varsList args).isEmpty
  | _ => false

mutual
/-- The expression makes sense: literals are types without variables, variables are where they are allowed, and tuples
with variables are not inside something else. -/
def HExp.proper : HExp → Bool
  | .lit h => h.solid
  | .var _ => true
  | .app k args => HExp.properList args && ((HExp.varsList args).isEmpty || varsAllowed k args)
def HExp.properList : List HExp → Bool
  | [] => true
  | e :: es => e.proper && !e.isOpenTuple && HExp.properList es
end

mutual
/-- The variables in an alias. -/
def _root_.Verif.Hint.aliasVars : Hint → List TVar
  | .tvar t => [t]
  | .alias _ args => Hint.aliasVarsList args
  | .galias _ _ args => Hint.aliasVarsList args
  | _ => []
def _root_.Verif.Hint.aliasVarsList : List Hint → List TVar
  | [] => []
  | h :: hs => h.aliasVars ++ Hint.aliasVarsList hs
end

/-- The variables are replaced by types without variables. -/
def _root_.Verif.TMap.Solid (m : TMap) : Prop := ∀ p ∈ m, p.2.solid = true

/-- `m` is the map of variables given by the substitution `s`: every expression is evaluated. -/
def MapOf (ctx : HintCtx) (N : Nat) : List (TVar × HExp) → TMap → Prop
  | [], [] => True
  | p :: s, q :: m => (p.1 = q.1 ∧ p.2.value ctx N = .ok q.2) ∧ MapOf ctx N s m
  | _, _ => False

/-- The variables of the substituted expressions are not replaced themselves. -/
def Apart (s : List (TVar × HExp)) : Prop := ∀ p ∈ s, ∀ t ∈ p.2.vars, t ∉ s.map (·.1)

/-- The type hint a program gets by writing the expression: `tuple[...]` is not an object of the library. -/
def HExp.written (ctx : HintCtx) (N : Nat) : HExp → Except Err Hint
  | .app .tuple args => (HExp.valueList ctx N args).map (.tup · false)
  | e => e.value ctx N

/-- `Base[args]`, with `Base` the class `b`, is the only `Structured` class among the bases. -/
def Specializes (b : ClassId) (args : List Hint) (bases : List BaseRef) : Prop :=
  ∃ pre post, bases = pre ++ .gen b args :: post ∧ ∀ y ∈ pre ++ post, ∀ c', ¬ IsBase c' y

/-- The class was declared with `Generic[ts]`. -/
def HasVars (ts : List TVar) (bases : List BaseRef) : Prop :=
  ∃ pre post, bases = pre ++ .generic ts :: post ∧ ∀ ts', BaseRef.generic ts' ∉ post

end Verif.Spec
