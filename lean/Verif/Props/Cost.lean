import Verif.Proofs.Cost2
import Verif.Props.Examples

/-
The cost of checking an entry: property C57.
-/

namespace P4C

open Spec

/-- C57: the interpreter that counts calls gives the same results. -/
theorem C57_same_results (entry : RtEntry) (ci : ConstraintInfo) :
    (reasonEntryT entry ci).res = reasonEntryViolatesConstraint entry ci := res_reasonEntryT entry ci

/-- C57: the number of calls of `Eval`, `EvalToBool`, `EvalToInt`, `MinimalSubexpressionLeadingToEvalResult`, `Size` and
`AddVariables` is linear in the size of the constraints of the table and of the actions of the entry, whatever the result. -/
theorem C57_linear (entry : RtEntry) (ci : ConstraintInfo) :
    (reasonEntryT entry ci).calls ≤ 13 * nodesFor ci entry := reasonEntryT_calls entry ci

/-- C57: hence it is linear in the length of their texts. -/
theorem C57_text {sys : Sys} {p : P4Info} {ci : ConstraintInfo} (h : p4ToConstraintInfo sys p = .ok ci) (entry : RtEntry) :
    (reasonEntryT entry ci).calls ≤ 39 * textFor ci entry := by
  have := reasonEntryT_calls entry ci
  have := nodesFor_text h entry
  omega

/-- A violation, including the search for its explanation: 46 calls, for a constraint of 27 nodes and 87 characters. -/
example : ((reasonEntryT (Ex.entry 4) (Ex.ci Ex.tc1 Ex.ac1)).calls, nodesFor (Ex.ci Ex.tc1 Ex.ac1) (Ex.entry 4),
    textFor (Ex.ci Ex.tc1 Ex.ac1) (Ex.entry 4)) = (46, 27, 87) ∧
    Ex.isOk (p4ToConstraintInfo Ex.sys (Ex.p4info Ex.tc1 Ex.ac1)) = true := by decide +kernel

end P4C
