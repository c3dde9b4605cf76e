import Verif.Spec.Language

/-
How the data structures of the library represent declarations and entries.
-/

namespace P4C.Spec

/-- The declarations held by a table or action definition. -/
def sigOf : Scope → Sig
  | .table keys => { key := fun n => (lookup n keys).map VarInfo.ty, param := fun _ => none }
  | .action params => { key := fun _ => none, param := fun n => (lookup n params).map VarInfo.ty }

/-- The entry or action invocation held by an evaluation context. -/
def envOf (ctx : EvalCtx) : Env :=
  match ctx.vals with
  | .table t => { key := fun n => lookup n t.keys, param := fun _ => none, priority := some t.priority }
  | .action a => { key := fun _ => none, param := fun n => lookup n a.params, priority := none }

/-- The context provides a value of the right shape for every name declared: the entry is consistent with
the table, the action invocation is complete. -/
structure Consistent (Γ : Sig) (ρ : Env) : Prop where
  key : ∀ n t, Γ.key n = some t → Supported t → ∃ v, ρ.key n = some v ∧ HasShape t v
  param : ∀ n t, Γ.param n = some t → Supported t → ∃ z, ρ.param n = some z ∧ HasShape t (.int z)

/-- Bit widths of declared names are not negative (and so are those of all types that arise). -/
def NonNeg : Ty → Prop
  | .fixedUnsigned w | .exact w | .ternary w | .lpm w | .range w | .optionalMatch w => 0 ≤ w
  | _ => True

/-- All declared widths are non-negative. -/
structure WidthsOk (Γ : Sig) : Prop where
  key : ∀ n t, Γ.key n = some t → NonNeg t
  param : ∀ n t, Γ.param n = some t → NonNeg t

/-- A constraint does not use attributes (such as `::priority`). -/
def AttrFree : SExpr → Prop
  | .attr _ => False
  | .not e | .neg e | .field e _ => AttrFree e
  | .cmp _ l r | .conn _ l r => AttrFree l ∧ AttrFree r
  | _ => True

/-- A constraint contains no ordered comparison (`<`, `<=`, `>`, `>=`) at an `exact` type, i.e. with a key
of match kind `exact` as operand. -/
def NoOrderedExact (Γ : Sig) : SExpr → Prop
  | .not e | .neg e | .field e _ => NoOrderedExact Γ e
  | .conn _ l r => NoOrderedExact Γ l ∧ NoOrderedExact Γ r
  | .cmp o l r => NoOrderedExact Γ l ∧ NoOrderedExact Γ r ∧
      (o.isOrder = true → ∀ w, ¬ HasTy Γ l (.exact w) ∧ ¬ HasTy Γ r (.exact w))
  | _ => True

end P4C.Spec
