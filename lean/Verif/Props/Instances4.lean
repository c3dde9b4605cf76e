import Verif.Props.Solve
import Verif.Props.Small
import Verif.Props.Runtime
import Verif.Props.Obtain
import Verif.Props.Skipped
import Verif.Props.Slice
import Verif.Props.Bounds
import Verif.Props.Violation
import Verif.Props.Found
import Verif.Props.Constant
import Verif.Props.SolveLaws
import Verif.Props.CrashSolver

/-
Instances of theorems with hypotheses: C62, C69, C72, C78, C82, C83, C95, C99, C100, C107.
-/

namespace P4C

open Spec

/-! ### C62, C78 -/

/-- A node of a constraint. -/
theorem Ex.whole_parsed : parseConstraint Ex.sys .table ⟨Ex.par, {}⟩ =
    .ok (Ex.get (.notSet {}) (parseConstraint Ex.sys .table ⟨Ex.par, {}⟩)) := Ex.get_of_isOk (by decide +kernel)

example : ∃ m, m ≠ [] ∧ Between ⟨Ex.par, {}⟩ (Ex.get (.notSet {}) (parseConstraint Ex.sys .table ⟨Ex.par, {}⟩)).start
    (Ex.get (.notSet {}) (parseConstraint Ex.sys .table ⟨Ex.par, {}⟩)).stop m :=
  (C62_reads_partial Ex.whole_parsed (by decide +kernel) (.self _)).1

example {t : Token} (h : t ∈ tokenize ⟨Ex.par, {}⟩) : WithinText {} 22 t.start ∧ WithinText {} 22 t.stop :=
  C78_tokens ⟨Ex.par, {}⟩ (by decide) h

example {x : Expr} (h : NodeOf x (Ex.get (.notSet {}) (parseConstraint Ex.sys .table ⟨Ex.par, {}⟩))) :
    WithinText {} 22 x.start ∧ WithinText {} 22 x.stop :=
  C78_tree Ex.whole_parsed (by decide) h

/-! ### C69 -/

example : ActionReport Ex.sys.inetPton6 (Ex.actionDecl c!"p == 1") (Ex.action 2 2)
    (Ex.get [] (reasonAction (Ex.action 2 2) (Ex.ci c!"ex == 6" c!"p == 1"))) := by
  obtain ⟨d, hd, hid, hr⟩ := (C69_action (sys := Ex.sys) (p := Ex.p4info c!"ex == 6" c!"p == 1") (ci := Ex.ci c!"ex == 6" c!"p == 1")
    (Ex.get_of_isOk (by decide +kernel)) (Ex.nonNeg _ _) (Ex.action 2 2)
    (Ex.get [] (reasonAction (Ex.action 2 2) (Ex.ci c!"ex == 6" c!"p == 1")))).1 ⟨Ex.get_of_isOk (by decide +kernel), by decide +kernel⟩
  simp only [Ex.p4info, List.mem_cons, List.not_mem_nil, or_false] at hd
  rcases hd with rfl | rfl
  · exact hr
  · exact absurd hid (by decide)

/-! ### C72, C94, C95 -/

/-- Whatever entry is returned after adding `tern::mask == 0xf0; pre::value != 7` satisfies the constraint of the table. -/
example {z : Z3Oracle} (hz : z.Sound) {s s' : Solver} {entry : RtEntry}
    (hr : SolverRun z Ex.sys (Ex.symTi Ex.d1) (fun _ => false) s [Ex.solveText]) (hc : s.concretize z = (.ok entry, s')) :
    reasonEntryViolatesConstraint entry (Ex.symCi Ex.d1) = .ok [] :=
  C72_checked_partial Ex.solve_ci (List.mem_singleton.2 rfl) Ex.solve_ti Ex.solvable1 hz Ex.solve_plain Ex.solve_nonNeg hr Ex.solve_text hc

example : ∃ s entry s', SolverRun Ex.perfect Ex.sys (Ex.symTi Ex.d1) (fun _ => false) s [Ex.solveText] ∧
    s.concretize Ex.perfect = (.ok entry, s') := by
  obtain ⟨s, hr⟩ := Ex.solve_run Ex.perfect_sound Ex.perfect_decides
  obtain ⟨entry, s', h⟩ := C72_always Ex.solve_ci (List.mem_singleton.2 rfl) Ex.solve_ti Ex.solvable1 Ex.perfect_sound
    Ex.perfect_decides Ex.perfect_priority hr
  exact ⟨s, entry, s', hr, h⟩

/-- After the constraint has been added its negation is refused, so no entry satisfies both. -/
example (entry : RtEntry) (hsm : SmallFor Ex.sys.inetPton6 Ex.d1 [negated Ex.solveText, Ex.solveText] entry) :
    ¬ Solution Ex.sys.inetPton6 (Ex.symInfo Ex.d1) Ex.d1 (fun _ => false) [negated Ex.solveText, Ex.solveText] entry := by
  have hd : Ex.d1 ∈ (Ex.symInfo Ex.d1).tables := List.mem_singleton.2 rfl
  obtain ⟨s, hr⟩ := Ex.solve_run Ex.perfect_sound Ex.perfect_decides
  exact C72_refused_small_partial Ex.solve_ci hd Ex.solve_ti Ex.solvable1 Ex.perfect_sound Ex.perfect_decides hr
    (C79_contradiction Ex.solve_ci hd Ex.solve_ti Ex.solvable1 Ex.perfect_sound Ex.perfect_decides hr (List.mem_singleton.2 rfl)
      Ex.solve_closed) entry hsm

example {s : Solver} (hr : SolverRun Ex.perfect Ex.sys (Ex.symTi Ex.d1) (fun _ => false) s []) :
    ∃ text, Obtains Ex.perfect Ex.sys s text Ex.e1 := by
  obtain ⟨text, h⟩ := C95_pick Ex.solve_ci (List.mem_singleton.2 rfl) Ex.solve_ti Ex.solvable1 Ex.perfect_sound
    Ex.perfect_decides Ex.keysNameable1 Ex.perfect_priority Ex.solution1.canonical
  exact ⟨text, (h s [] hr).1 Ex.solutions1.1⟩

/-! ### C99, C100 -/

theorem Ex.both_solvable : Solvable (Ex.symDecl []) Ex.withoutBoth := by
  refine ⟨fun vs hv ki hki hsk => ?_, ?_, ?_, ?_⟩
  · cases keys_same hv (show Each KeyDecl (Ex.symDecl []).matchFields Ex.solveKeys from Ex.solve_keys)
    simp only [Ex.solveKeys, List.mem_cons, List.not_mem_nil, or_false] at hki
    rcases hki with rfl | rfl | rfl | rfl
    · exact absurd hsk (by decide)
    · exact ⟨_, .ternary _⟩
    · exact absurd hsk (by decide)
    · exact ⟨_, .optional _⟩
  all_goals decide +kernel

theorem Ex.both_created : Solver.create (constOracle Ex.m1) (Ex.symTi (Ex.symDecl [])) (fun n => .ok (Ex.withoutBoth n)) =
    .ok (Ex.runtimeSolver (Ex.symDecl []) Ex.withoutBoth) := Ex.get_of_isOk (by decide +kernel)

/-- The program without the keys that are skipped is accepted. -/
example {z : Z3Oracle} (hz : z.Sound) (hdec : Z3Oracle.Decides z) {s : Solver}
    (hs : Solver.create z (Ex.symTi (Ex.symDecl [])) (fun n => .ok (Ex.without n)) = .ok s) :
    ∃ ci', p4ToConstraintInfo Ex.sys (withUnskipped Ex.without (Ex.symDecl []) (Ex.symInfo (Ex.symDecl []))) = .ok ci' :=
  C99_accepted Ex.moved_ci (List.mem_singleton.2 rfl) Ex.moved_ti Ex.without_solvable hz hdec hs

/-- If `tern` is skipped, too, an entry is returned with a priority, though for a table without these keys it would have none. -/
example {s' u' : Solver} {e' : RtEntry} {texts : List Str}
    (hr : SolverRun (constOracle Ex.m1) Ex.sys (Ex.symTi (unskipped Ex.withoutBoth (Ex.symDecl []))) (fun _ => false) s' texts)
    (he : s'.concretize (constOracle Ex.m1) = (.ok e', u')) : 0 < Ex.e1.priority ∧ e'.priority = 0 :=
  C99_priority (e := { Ex.e1 with matches_ := [⟨1, .exact [5]⟩, ⟨3, .lpm [0xab, 0] 8⟩] })
    Ex.moved_ci (p' := Ex.symInfo (unskipped Ex.withoutBoth (Ex.symDecl []))) (Ex.get_of_isOk (d := ⟨[], []⟩) (by decide +kernel))
    (List.mem_singleton.2 rfl) (List.mem_singleton.2 rfl) Ex.moved_ti (by decide +kernel) Ex.both_solvable (constOracle_sound Ex.m1)
    (constOracle_sound Ex.m1) (fun h => absurd (h (by decide +kernel)) (by decide +kernel)) (.create Ex.both_created) hr
    (Prod.ext (by decide +kernel) rfl) he

/-- The entry that is returned has no match for `opt` and is well-formed; if `ex` is skipped it is not. -/
example : RuntimeEntry (Ex.symDecl []) Ex.eWithout :=
  (C100_exact Ex.moved_ci (List.mem_singleton.2 rfl) Ex.moved_ti (constOracle_sound Ex.m1)
    (.create (s := Ex.runtimeSolver (Ex.symDecl []) Ex.without) (Ex.get_of_isOk (by decide +kernel)))
    (Prod.ext (by decide +kernel) rfl)).2 ⟨by decide +kernel, by decide +kernel⟩

/-! ### C82, C83 -/

/-- No constraint says that a parameter is `true`. -/
example : ¬ ∃ ci, p4ToConstraintInfo Ex.sys (Ex.p4info c!"true" c!"q == 2 -> p == true") = .ok ci :=
  C82_fails_action (d := Ex.actionDecl c!"q == 2 -> p == true") List.mem_cons_self
    (s := .conn .implies (.cmp .eq (.param c!"q") (.int 2)) (.cmp .eq (.param c!"p") (.bool true)))
    ⟨⟨c!"q == 2 -> p == true", { src := .actionName c!"act" }⟩, _, _, attached_iff.1 (by decide +kernel), tokenize_iff.1 rfl,
      parseConstraint_iff.1 (Ex.get_of_isOk (d := .notSet {}) (by decide +kernel)), by decide +kernel⟩
    (.connR .here) (.right _ _ (.param _))

/-- The key `pre` is not matched, and its prefix length is a number nevertheless. -/
example : ∃ z, ∀ y, FieldNumber ⟨3, c!"pre", 16, .matchType .lpm⟩ c!"prefix_length" (Ex.entry 2) y ↔ y = z :=
  C83_number (sys := Ex.sys) (p := Ex.p4info c!"ex == 6" c!"p == 1") (ci := Ex.ci c!"ex == 6" c!"p == 1") (d := Ex.tableDecl c!"ex == 6")
    (Ex.get_of_isOk (by decide +kernel)) (.head _) (Ex.keysDeclared _) (Ex.entryFits 2) (by decide +kernel) .lpmPrefix

/-! ### C107 -/

/-- A violation of `tern::value != 3` is found if and only if there is one. -/
example {z : Z3Oracle} (hz : z.Sound) (hdec : Z3Oracle.Decides z) {s : Solver} {r : Bool}
    (hr : SolverRun z Ex.sys (Ex.symTi (Ex.symDecl [])) (fun _ => false) s [])
    (ha : (s.addConstraintStr z Ex.sys (negated c!"tern::value != 3")).1 = .ok r) :
    r = true ↔ ∃ entry m, RuntimeEntry (Ex.symDecl []) entry ∧ (∀ t ∈ [], TextHolds Ex.sys.inetPton6 (Ex.symDecl []) t entry) ∧
      reasonEntryViolatesConstraint entry (Ex.symCi (Ex.symDecl [])) = .ok [] ∧
      reasonEntryViolatesConstraint entry (Ex.symCi Ex.notThree) = .ok m ∧ m ≠ [] :=
  C107_found_partial Ex.moved_ci Ex.notThree_ci ⟨by decide +kernel, by decide +kernel⟩
    ⟨by decide +kernel, by decide +kernel⟩ Ex.notThree_versions (by decide) Ex.moved_ti hz
    (fun se hse => (free_says Ex.moved1.free hse).elim) Ex.notThree_plain (Ex.sym_solvable _) hdec hr nofun ha

end P4C
