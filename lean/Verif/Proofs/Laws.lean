import Verif.Proofs.Elab
/-!
# Evaluation of comparisons, operator by operator
-/
namespace P4C
open Spec

/-- The relation on integers computed by an ordered comparison. -/
def ordHolds (op : BinOp) (x y : Int) : Bool :=
  match op with
  | .gt => decide (x > y)
  | .ge => decide (x ≥ y)
  | .lt => decide (x < y)
  | _ => decide (x ≤ y)

theorem boolTy {i : Info} {op : BinOp} {L R : Expr} :
    (Expr.bin (i.withTy .boolean) op L R).ty = .boolean := rfl

theorem shape_bool (b : Bool) : HasShape .boolean (.bool b) := .bool b

theorem evalP_eq_iff {ctx : EvalCtx} {i : Info} {op : BinOp} {L R : Expr} {b : Bool}
    (h : op = .eq ∨ op = .ne) :
    evalP ctx (.bin (i.withTy .boolean) op L R) = .ok (.bool b) ↔
      ∃ v w, evalP ctx L = .ok v ∧ evalP ctx R = .ok w ∧
        b = (if op = .eq then decide (v = w) else !decide (v = w)) := by
  rcases h with rfl | rfl <;>
  · simp only [evalP, chkP_ok, Res.bind_eq_ok, Res.ok.injEq, Value.bool.injEq, boolTy]
    constructor
    · rintro ⟨⟨v, hv, w, hw, rfl⟩, _⟩
      exact ⟨v, w, hv, hw, rfl⟩
    · rintro ⟨v, w, hv, hw, rfl⟩
      exact ⟨⟨v, hv, w, hw, rfl⟩, shape_bool _⟩

theorem evalP_ord_iff {ctx : EvalCtx} {i : Info} {op : BinOp} {L R : Expr} {b : Bool}
    (h : op.isOrd = true) :
    evalP ctx (.bin (i.withTy .boolean) op L R) = .ok (.bool b) ↔
      ∃ x y, evalP ctx L = .ok (.int x) ∧ evalP ctx R = .ok (.int y) ∧ b = ordHolds op x y := by
  cases op <;> simp only [BinOp.isOrd, Bool.false_eq_true] at h <;>
  · simp only [evalP, chkP_ok, Res.bind_eq_ok, Res.ok.injEq, Value.bool.injEq, boolTy, toIntP_ok, ordHolds]
    constructor
    · rintro ⟨⟨v, hv, w, hw, rfl⟩, _⟩
      exact ⟨v, w, hv, hw, rfl⟩
    · rintro ⟨v, w, hv, hw, rfl⟩
      exact ⟨⟨v, hv, w, hw, rfl⟩, shape_bool _⟩

end P4C
