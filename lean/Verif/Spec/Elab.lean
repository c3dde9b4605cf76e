import Verif.Spec.Language

/-
What type checking may do to a syntax tree.
-/

namespace P4C.Spec

/-- Common fields without the type. -/
def untyped (i : Info) : Info := ⟨i.start, i.stop, .notSet⟩

/-- Remove types and casts; keep everything else, in particular locations. -/
def strip : Expr → Expr
  | .notSet i => .notSet (untyped i)
  | .boolConst i b => .boolConst (untyped i) b
  | .intConst i s => .intConst (untyped i) s
  | .key i n => .key (untyped i) n
  | .actionParam i n => .actionParam (untyped i) n
  | .boolNeg i e => .boolNeg (untyped i) (strip e)
  | .arithNeg i e => .arithNeg (untyped i) (strip e)
  | .typeCast _ e => strip e
  | .bin i op l r => .bin (untyped i) op (strip l) (strip r)
  | .field i e f => .field (untyped i) (strip e) f
  | .attr i n => .attr (untyped i) n

/-- No casts. -/
def CastFree : Expr → Prop
  | .typeCast _ _ => False
  | .boolNeg _ e | .arithNeg _ e | .field _ e _ => CastFree e
  | .bin _ _ l r => CastFree l ∧ CastFree r
  | _ => True

/-- Every node has a supported type, and every cast is a single conversion step. -/
def WellElab : Expr → Prop
  | .typeCast i e => Supported i.ty ∧ WellElab e ∧ CastStep e.ty i.ty ∧ i.start = e.start ∧ i.stop = e.stop
  | .boolNeg i e | .arithNeg i e | .field i e _ => Supported i.ty ∧ WellElab e
  | .bin i _ l r => Supported i.ty ∧ WellElab l ∧ WellElab r
  | .notSet i | .boolConst i _ | .intConst i _ | .key i _ | .actionParam i _ | .attr i _ => Supported i.ty

end P4C.Spec
