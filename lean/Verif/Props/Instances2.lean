import Verif.Props.Compose
import Verif.Props.Exchange

/-
Instances of theorems with hypotheses: C66, C81.
-/

namespace P4C

open Spec

/-! ### C66 -/

theorem Ex.partsA : p4ToConstraintInfo Ex.sys ⟨[Ex.tableDecl c!"opt == 3 // optional", Ex.freeTable], [Ex.actionDecl c!"true", Ex.freeAction]⟩ =
    .ok (Ex.ci c!"opt == 3 // optional" c!"true") := Ex.get_of_isOk (by decide +kernel)

theorem Ex.partsB : p4ToConstraintInfo Ex.sys ⟨[Ex.tableDecl c!"ex == 2;", Ex.freeTable], [Ex.actionDecl c!"true", Ex.freeAction]⟩ =
    .ok (Ex.ci c!"ex == 2;" c!"true") := Ex.get_of_isOk (by decide +kernel)

theorem Ex.partsJoined (o : Spec.Conn) : p4ToConstraintInfo Ex.sys
    ⟨[Ex.tableDecl (joined o c!"opt == 3 // optional" c!"ex == 2;"), Ex.freeTable], [Ex.actionDecl c!"true", Ex.freeAction]⟩ =
    .ok (Ex.ci (joined o c!"opt == 3 // optional" c!"ex == 2;") c!"true") := by
  cases o <;> exact Ex.get_of_isOk (by decide +kernel)

/-- Both parts are boolean. -/
example (o : Spec.Conn) : TableBoolean Ex.sys.inetPton6 (Ex.tableDecl c!"opt == 3 // optional") ∧
    TableBoolean Ex.sys.inetPton6 (Ex.tableDecl c!"ex == 2;") :=
  (C66_accepted (Ex.joinedTables o) Ex.partsA Ex.partsB).1 ⟨_, Ex.partsJoined o⟩

example : TableBoolean Ex.sys.inetPton6 (Ex.tableDecl c!"opt == 4 // optional") :=
  (C66_accepted_not (ts := [Ex.freeTable]) (as := [Ex.actionDecl c!"true", Ex.freeAction]) (ca := Ex.ci c!"opt == 4 // optional" c!"true")
    Ex.negatedTable (Ex.get_of_isOk (by decide +kernel))).1
    ⟨Ex.ci (negated c!"opt == 4 // optional") c!"true", Ex.get_of_isOk (by decide +kernel)⟩

/-- The entry satisfies `opt == 3`, but not `ex == 2`. -/
example : reasonEntryViolatesConstraint (Ex.entry 7) (Ex.ci (joined .or c!"opt == 3 // optional" c!"ex == 2;") c!"true") = .ok [] :=
  (C66_or (Ex.nonNeg _ _) Ex.partsA Ex.partsB (Ex.partsJoined .or) (Ex.entry 7) (Ex.joinedTables .or)).1 (by decide +kernel)

example : reasonEntryViolatesConstraint (Ex.entry 7) (Ex.ci (joined .or c!"opt == 3 // optional" c!"ex == 2;") c!"true") = .ok [] :=
  (C66_or_exact (Ex.nonNeg _ _) Ex.partsA Ex.partsB (Ex.partsJoined .or) (Ex.entry 7) (Ex.joinedTables .or) rfl).2 (.inl (by decide +kernel))

/-- So it does not satisfy the implication, but the entry for 2 does. -/
example : reasonEntryViolatesConstraint (Ex.entry 7) (Ex.ci (joined .implies c!"opt == 3 // optional" c!"ex == 2;") c!"true") ≠ .ok [] :=
  fun h => absurd ((C66_implies (Ex.nonNeg _ _) Ex.partsA Ex.partsB (Ex.partsJoined .implies) (Ex.entry 7) (Ex.joinedTables .implies)).2.2 h
    (by decide +kernel)) (by decide +kernel)

example : reasonEntryViolatesConstraint (Ex.entry 2) (Ex.ci (joined .implies c!"opt == 3 // optional" c!"ex == 2;") c!"true") = .ok [] :=
  (C66_implies_exact (Ex.nonNeg _ _) Ex.partsA Ex.partsB (Ex.partsJoined .implies) (Ex.entry 2) (Ex.joinedTables .implies) rfl).2
    (.inl ⟨by decide +kernel, by decide +kernel⟩)

/-- The constraint `opt == 4` is false of the entry, since it satisfies the negation. -/
example : TableValue Ex.sys.inetPton6 (Ex.tableDecl c!"opt == 4 // optional") (Ex.entry 2) false :=
  ((C66_not_exact (ts := [Ex.freeTable]) (as := [Ex.actionDecl c!"true", Ex.freeAction]) (Ex.nonNeg _ _)
    (ca := Ex.ci c!"opt == 4 // optional" c!"true") (ci := Ex.ci (negated c!"opt == 4 // optional") c!"true")
    (Ex.get_of_isOk (by decide +kernel)) (Ex.get_of_isOk (by decide +kernel)) (Ex.entry 2) Ex.negatedTable rfl).1 (by decide +kernel)).1

theorem Ex.actionA : p4ToConstraintInfo Ex.sys ⟨[Ex.tableDecl c!"true", Ex.freeTable], [Ex.actionDecl c!"p == 1", Ex.freeAction]⟩ =
    .ok (Ex.ci c!"true" c!"p == 1") := Ex.get_of_isOk (by decide +kernel)

theorem Ex.actionB : p4ToConstraintInfo Ex.sys ⟨[Ex.tableDecl c!"true", Ex.freeTable], [Ex.actionDecl c!"q > 2 // q", Ex.freeAction]⟩ =
    .ok (Ex.ci c!"true" c!"q > 2 // q") := Ex.get_of_isOk (by decide +kernel)

theorem Ex.actionJoined (o : Spec.Conn) : p4ToConstraintInfo Ex.sys
    ⟨[Ex.tableDecl c!"true", Ex.freeTable], [Ex.actionDecl (joined o c!"p == 1" c!"q > 2 // q"), Ex.freeAction]⟩ =
    .ok (Ex.ci c!"true" (joined o c!"p == 1" c!"q > 2 // q")) := by
  cases o <;> exact Ex.get_of_isOk (by decide +kernel)

theorem Ex.negatedAction : ActionNegated (Ex.actionDecl c!"p == 1") (Ex.actionDecl (negated c!"p == 1")) := by
  obtain ⟨_, _, a, b, h1, _, _, h2, _⟩ := Ex.joinedActions .and
  refine ⟨rfl, rfl, c!"p == 1", ⟨⟨c!"p == 1", { src := .actionName c!"act" }⟩, attached_iff.1 (by decide +kernel), rfl⟩,
    ⟨⟨negated c!"p == 1", { src := .actionName c!"act" }⟩, attached_iff.1 (by decide +kernel), rfl⟩, ?_⟩
  exact C66_closed (sys := Ex.sys) (k := .action) (src := ⟨c!"p == 1", {}⟩)
    (e := Ex.get (.notSet {}) (parseConstraint Ex.sys .action ⟨c!"p == 1", {}⟩))
    (Ex.get_of_isOk (by decide +kernel)) (Ex.notInfix (by decide +kernel))

theorem Ex.actionNot : p4ToConstraintInfo Ex.sys
    ⟨[Ex.tableDecl c!"true", Ex.freeTable], [Ex.actionDecl (negated c!"p == 1"), Ex.freeAction]⟩ =
    .ok (Ex.ci c!"true" (negated c!"p == 1")) := Ex.get_of_isOk (by decide +kernel)

example (o : Spec.Conn) : ActionBoolean Ex.sys.inetPton6 (Ex.actionDecl c!"p == 1") ∧
    ActionBoolean Ex.sys.inetPton6 (Ex.actionDecl c!"q > 2 // q") :=
  (C66_action_accepted (Ex.joinedActions o) Ex.actionA Ex.actionB).1 ⟨_, Ex.actionJoined o⟩

example : ActionBoolean Ex.sys.inetPton6 (Ex.actionDecl c!"p == 1") :=
  (C66_action_accepted_not Ex.negatedAction Ex.actionA).1 ⟨_, Ex.actionNot⟩

/-- Invocations with the arguments 1 and 3, 1 and 2, 2 and 2. -/
example : reasonAction (Ex.action 1 3) (Ex.ci c!"true" (joined .and c!"p == 1" c!"q > 2 // q")) = .ok [] :=
  (C66_action_and (Ex.nonNeg _ _) Ex.actionA Ex.actionB (Ex.actionJoined .and) (Ex.action 1 3) (Ex.joinedActions .and)).2
    ⟨by decide +kernel, by decide +kernel⟩

example : reasonAction (Ex.action 1 2) (Ex.ci c!"true" (joined .implies c!"p == 1" c!"q > 2 // q")) ≠ .ok [] :=
  fun h => absurd ((C66_action_implies (Ex.nonNeg _ _) Ex.actionA Ex.actionB (Ex.actionJoined .implies) (Ex.action 1 2)
    (Ex.joinedActions .implies)).2.2 h (by decide +kernel)) (by decide +kernel)

example : reasonAction (Ex.action 2 2) (Ex.ci c!"true" (negated c!"p == 1")) = .ok [] :=
  (C66_action_not (Ex.nonNeg _ _) Ex.actionA Ex.actionNot (Ex.action 2 2) Ex.negatedAction rfl).1
    (Ex.get [] (reasonAction (Ex.action 2 2) (Ex.ci c!"true" c!"p == 1"))) (Ex.get_of_isOk (by decide +kernel)) (by decide +kernel)

theorem Ex.action_false : ActionValue Ex.sys.inetPton6 (Ex.actionDecl c!"p == 1") (Ex.action 2 2) false :=
  (C66_action_not_exact (Ex.nonNeg _ _) Ex.actionA Ex.actionNot (Ex.action 2 2) Ex.negatedAction rfl).1 (by decide +kernel)

example : reasonAction (Ex.action 2 2) (Ex.ci c!"true" (joined .implies c!"p == 1" c!"q > 2 // q")) = .ok [] :=
  ((C66_action_exact (Ex.nonNeg _ _) Ex.actionA Ex.actionB (Ex.actionJoined .implies) (Ex.action 2 2) rfl).2
    (Ex.joinedActions .implies)).2 (.inl Ex.action_false)

/-! ### C81 -/

example : ∃ ci, p4ToConstraintInfo Ex.sys ⟨[Ex.tableDecl (enclosed c!"opt == 3 &&" c!"!(ex != 0x2)" c!"|| false")], []⟩ = .ok ci := by
  obtain ⟨vs, s, t, ty, h1, h2, h3, _⟩ := Ex.exchanged_same (enclosed c!"opt == 3 &&" c!"ex == 2 // two" c!"|| false") (Ex.entry 2)
  exact (C81_accepted Ex.exchangedTables ⟨vs, s, t, ty, h1, h2, h3⟩).1
    ⟨Ex.get ⟨[], []⟩ (p4ToConstraintInfo Ex.sys ⟨[Ex.tableDecl (enclosed c!"opt == 3 &&" c!"ex == 2 // two" c!"|| false")], []⟩),
      Ex.get_of_isOk (by decide +kernel)⟩

/-- The entry violates both constraints. -/
example {m : Str} (h : reasonEntryViolatesConstraint (Ex.entry 7)
    (Ex.ci (enclosed c!"opt == 3 &&" c!"!(ex != 0x2)" c!"|| false") c!"true") = .ok m) : m ≠ [] :=
  fun hm => absurd ((C81_reports (ts := [Ex.freeTable]) (as := [Ex.actionDecl c!"true", Ex.freeAction]) (Ex.nonNeg _ _)
    (ci := Ex.ci (enclosed c!"opt == 3 &&" c!"ex == 2 // two" c!"|| false") c!"true")
    (Ex.get_of_isOk (by decide +kernel)) (Ex.get_of_isOk (by decide +kernel)) Ex.exchangedTables (Ex.exchanged_same _ _)
    (m := Ex.get [] (reasonEntryViolatesConstraint (Ex.entry 7) (Ex.ci (enclosed c!"opt == 3 &&" c!"ex == 2 // two" c!"|| false") c!"true")))
    (Ex.get_of_isOk (by decide +kernel)) h).2 hm) (by decide +kernel)

example : ∃ ci, p4ToConstraintInfo Ex.sys ⟨[], [Ex.actionDecl (enclosed c!"q > 2 ->" c!"!(p != 1)" c!"")]⟩ = .ok ci := by
  obtain ⟨vs, s, t, ty, h1, h2, h3, _⟩ := Ex.exchanged_same_args (enclosed c!"q > 2 ->" c!"p == 1" c!"") (Ex.action 1 2)
  exact (C81_action_accepted Ex.exchangedActions ⟨vs, s, t, ty, h1, h2, h3⟩).1
    ⟨Ex.get ⟨[], []⟩ (p4ToConstraintInfo Ex.sys ⟨[], [Ex.actionDecl (enclosed c!"q > 2 ->" c!"p == 1" c!"")]⟩),
      Ex.get_of_isOk (by decide +kernel)⟩

end P4C
