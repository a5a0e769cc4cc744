import Verif.Ser
/-
Which serializers read to the end of the input.
-/
namespace Verif.Spec

/-- The serializer may read to the end: it is `char[math.inf]`, or one stands inside of a text encoding, a tuple, a
`Condition`, at the end of a compound, among the options of a union, or in a class of which `cls` says so.  What follows
an array count or a default of a union is not looked at here. -/
inductive ToEnd (cls : ClassId → Bool) : Ser → Prop
  | consuming (id : SerId) : ToEnd cls (.consuming id)
  | unicode {s : Ser} (e d) : ToEnd cls s → ToEnd cls (.unicode s e d)
  | tuple {s : Ser} (id : SerId) : ToEnd cls s → ToEnd cls (.tuple id s)
  | cond {s : Ser} (c : Decider) (ds : List Val) : ToEnd cls s → ToEnd cls (.cond s c ds)
  | lookback {s : Ser} {opts : List Ser} (id : SerId) (d : Decider) (keys : List Val) (dflt : Ser) : s ∈ opts → ToEnd cls s →
      ToEnd cls (.lookback id d keys opts dflt)
  | lookahead {s : Ser} {opts : List Ser} (id : SerId) (ra : Ser) (d : Decider) (keys : List Val) (dflt : Ser) : s ∈ opts →
      ToEnd cls s → ToEnd cls (.lookahead id ra d keys opts dflt)
  | compound {s : Ser} (id : SerId) (ss : List Ser) : ToEnd cls s → ToEnd cls (.compound id (ss ++ [s]))
  | specialized {s : Ser} (id : SerId) (p : PObj) (ss : List Ser) : ToEnd cls s → ToEnd cls (.specialized id p (ss ++ [s]))
  | structured (id : SerId) {c : ClassId} : cls c = true → ToEnd cls (.structured id c)

end Verif.Spec
