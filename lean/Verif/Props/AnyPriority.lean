import Verif.Props.Verdict
import Verif.Proofs.AnyPriority

/-
Verdicts on actions whose constraints mention the priority: property C45.
-/

namespace P4C

open Spec

/-- C45 for actions whose constraint may mention the priority, which an action does not have: an answer that is given is
right whatever the priority. -/
theorem C45_action_any {ci : ConstraintInfo} {a : RtAction} {ai : ActionInfo} {s : SExpr}
    {ρ : Env} {msg : Str} (h : ActionCase ci a ai s ρ) (hr : reasonAction a ci = .ok msg) (p : Int) :
    (msg = [] → Holds (sigOf (.action ai.paramsByName)) { ρ with priority := some p } s) ∧
    (msg ≠ [] → Fails (sigOf (.action ai.paramsByName)) { ρ with priority := some p } s) := by
  obtain ⟨c, ctx, hc, hp, hm⟩ := h.anyPriority p
  rw [reasonAction_found h.found hc] at hr
  constructor
  · rintro rfl
    obtain ⟨_, ctx', hp', he⟩ := checkConstraint_satisfied.1 hr
    rw [hp] at hp'; cases hp'
    exact hm _ he
  · intro hne
    obtain ⟨_, ctx', m, hp', he, _⟩ := checkConstraint_violated hne hr
    rw [hp] at hp'; cases hp'
    exact hm _ he
/-- A constraint that mentions the priority, and an action for which it is not needed. -/
example : (∃ s, ActionCase (Ex.ci Ex.tc1 c!"p == 3 || ::priority > 3") (Ex.action 3 4) (Ex.ai c!"p == 3 || ::priority > 3") s
      (envOf (Ex.actx c!"p == 3 || ::priority > 3" (Ex.action 3 4)))) ∧
    reasonAction (Ex.action 3 4) (Ex.ci Ex.tc1 c!"p == 3 || ::priority > 3") = .ok [] :=
  ⟨⟨.conn .or (.cmp .eq (.param c!"p") (.int 3)) (.cmp .gt (.attr c!"priority") (.int 3)), Ex.actionCase (by decide +kernel)⟩,
    by decide +kernel⟩

end P4C
