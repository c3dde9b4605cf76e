import Verif.Proofs.ComposeVerdict
import Verif.Props.EntryReport

/-!
# C65: exactly which entries are accepted
-/

namespace P4C

open Spec

/-- C65: for any program that is accepted, the entries that are accepted are those for a table without constraint, or with
one that has the value true, and with actions of that kind. `Accepted` is in terms of the declarations of the program.
`hw`: bitwidths are not negative. -/
theorem C65_accepted {sys : Sys} {p : P4Info} {ci : ConstraintInfo} (h : p4ToConstraintInfo sys p = .ok ci)
    (hw : NonNegProgram p) (entry : RtEntry) :
    reasonEntryViolatesConstraint entry ci = .ok [] ↔ Accepted sys.inetPton6 p entry := reason_accepts h hw

/-- C65: the same for actions by themselves. -/
theorem C65_action {sys : Sys} {p : P4Info} {ci : ConstraintInfo} (h : p4ToConstraintInfo sys p = .ok ci)
    (hw : NonNegProgram p) (a : RtAction) : reasonAction a ci = .ok [] ↔ ActionAccepted sys.inetPton6 p a :=
  reasonAction_accepts h hw

/-- C65: an entry is said to violate constraints only if one of them has the value false, and then it is not accepted. -/
theorem C65_violated {sys : Sys} {p : P4Info} {ci : ConstraintInfo} (h : p4ToConstraintInfo sys p = .ok ci)
    (hw : NonNegProgram p) {entry : RtEntry} {m : Str} (hr : reasonEntryViolatesConstraint entry ci = .ok m) (hm : m ≠ []) :
    (∃ d ∈ p.tables, d.preamble.id = entry.tableId ∧ TableValue sys.inetPton6 d entry false) ∨
    ∃ as a, actionsOf entry.action = some as ∧ a ∈ as ∧
      ∃ d ∈ p.actions, d.preamble.id = a.actionId ∧ ActionValue sys.inetPton6 d a false := by
  have hact : ∀ {a : RtAction} {m : Str}, reasonAction a ci = .ok m → m ≠ [] →
      ∃ d ∈ p.actions, d.preamble.id = a.actionId ∧ ActionValue sys.inetPton6 d a false := by
    intro a m hr hm
    cases hl : lookup a.actionId ci.actions with
    | none =>
      unfold reasonAction getActionInfo at hr
      rw [hl] at hr
      cases hr
    | some ai =>
      obtain ⟨d, h1, h2, h3⟩ := (action_of_info h).1 hl
      rw [reasonAction_info hl] at hr
      exact ⟨d, h1, h2, (actionReason_value h3 (hw.2 d h1) hr).2 hm⟩
  have hset : ∀ {as : List RtAction} {m : Str}, reasonActionSet ci as = .ok m → m ≠ [] →
      ∃ a ∈ as, ∃ d ∈ p.actions, d.preamble.id = a.actionId ∧ ActionValue sys.inetPton6 d a false := by
    intro as
    induction as with
    | nil => intro m hr hm; cases hr; exact (hm rfl).elim
    | cons a as ih =>
      intro m hr hm
      unfold reasonActionSet at hr
      obtain ⟨r, h1, h2⟩ := Res.bind_eq_ok.1 hr
      by_cases hn : r = []
      · subst hn
        obtain ⟨a', h3, h4⟩ := ih (by simpa using h2) hm
        exact ⟨a', List.mem_cons_of_mem _ h3, h4⟩
      · exact ⟨a, by simp, hact h1 hn⟩
  cases hl : lookup entry.tableId ci.tables with
  | none =>
    unfold reasonEntryViolatesConstraint getTableInfo at hr
    rw [hl] at hr
    cases hr
  | some ti =>
    obtain ⟨d, h1, h2, h3⟩ := (table_of_info h).1 hl
    rw [reason_found hl] at hr
    obtain ⟨r, g1, g2⟩ := Res.bind_eq_ok.1 hr
    by_cases hn : r = []
    · subst hn
      simp only [ne_eq, not_true, if_false] at g2
      right
      unfold reasonTableAction at g2
      cases ha : entry.action with
      | none => rw [ha] at g2; cases g2; exact (hm rfl).elim
      | some ta =>
        rw [ha] at g2
        cases ta with
        | action a => exact ⟨[a], a, rfl, by simp, hact g2 hm⟩
        | actionSet as =>
          obtain ⟨a, h5, h6⟩ := hset g2 hm
          exact ⟨as, a, rfl, h5, h6⟩
        | memberId | groupId | notSet => cases g2
    · exact .inl ⟨d, h1, h2, (tableReason_value h3 (hw.1 d h1) g1).2 hn⟩

/-- C65: constraints do not have two values, so that no entry is both accepted and violates the constraint of its table. -/
theorem C65_value {pton : Str → Option Bytes} (d : TableDecl) (entry : RtEntry) (c : ActionDecl) (a : RtAction) :
    ¬ (TableValue pton d entry true ∧ TableValue pton d entry false) ∧
    ¬ (ActionValue pton c a true ∧ ActionValue pton c a false) := ⟨tableValue_unique, actionValue_unique⟩

theorem Ex.nonNeg (tc ac : Str) : NonNegProgram (Ex.p4info tc ac) := by
  constructor
  · intro d hd
    simp only [Ex.p4info, List.mem_cons, List.not_mem_nil, or_false] at hd
    rcases hd with rfl | rfl
    · simp [Ex.tableDecl]
    · simp [Ex.freeTable]
  · intro d hd
    simp only [Ex.p4info, List.mem_cons, List.not_mem_nil, or_false] at hd
    rcases hd with rfl | rfl
    · simp [Ex.actionDecl]
    · simp [Ex.freeAction]

/-- An operand that does not matter may be one without a value; the order of operands matters for that. -/
example : Accepted Ex.sys.inetPton6 (Ex.p4info c!"opt == 3 || ex < 7" c!"p == 1") { Ex.entry 2 with action := some (.action (Ex.action 1 2)) } ∧
    ¬ Accepted Ex.sys.inetPton6 (Ex.p4info c!"ex < 7 || opt == 3" c!"p == 1") { Ex.entry 2 with action := some (.action (Ex.action 1 2)) } ∧
    ¬ Accepted Ex.sys.inetPton6 (Ex.p4info c!"opt == 3 || ex < 7" c!"p == 1") { Ex.entry 2 with action := some (.action (Ex.action 2 2)) } :=
  ⟨(C65_accepted (ci := Ex.ci c!"opt == 3 || ex < 7" c!"p == 1") (Ex.get_of_isOk (by decide +kernel)) (Ex.nonNeg _ _) _).1
      (by decide +kernel),
    fun h => absurd ((C65_accepted (ci := Ex.ci c!"ex < 7 || opt == 3" c!"p == 1") (Ex.get_of_isOk (by decide +kernel))
      (Ex.nonNeg _ _) _).2 h) (by decide +kernel),
    fun h => absurd ((C65_accepted (ci := Ex.ci c!"opt == 3 || ex < 7" c!"p == 1") (Ex.get_of_isOk (by decide +kernel))
      (Ex.nonNeg _ _) _).2 h) (by decide +kernel)⟩

example : ∃ m, reasonEntryViolatesConstraint (Ex.entry 2) (Ex.ci c!"opt == 4" c!"p == 1") = .ok m ∧ m ≠ [] :=
  ⟨Ex.get [] (reasonEntryViolatesConstraint (Ex.entry 2) (Ex.ci c!"opt == 4" c!"p == 1")),
    Ex.get_of_isOk (by decide +kernel), by decide +kernel⟩

end P4C
