import Verif.Props.SolveLaws
import Verif.Props.Widen
import Verif.Props.Evolve
import Verif.Props.Rename
import Verif.Props.Crash
import Verif.Props.CrashSolver
import Verif.Props.EntryReport
import Verif.Props.Shuffle
import Verif.Props.Priority

/-
Instances of theorems with hypotheses: C61, C63, C64, C75 to C77, C79, C84, C87.
-/

namespace P4C

open Spec

/-! ### C75, C76, C77 -/

/-- The larger program is accepted since the smaller is. -/
example : ∃ ci, p4ToConstraintInfo Ex.sys (Ex.larger Ex.tc1 Ex.ac1) = .ok ci := by
  refine C75_accepted ⟨_, Ex.accepted⟩ (fun d' hd' => .inl ?_) (fun d' hd' => .inl ?_) (by decide +kernel) (by decide +kernel)
  · simp only [Ex.larger, List.mem_cons, List.not_mem_nil, or_false] at hd'
    rcases hd' with rfl | rfl
    · exact ⟨_, .tail _ (.head _), rfl, by simp [Ex.freeTable], by simp [Ex.freeTable, MayOmit], by simp [Ex.freeTable], by simp [Ex.freeTable]⟩
    · exact ⟨_, .head _, rfl, by simp [Ex.tableDecl], by simp [Ex.tableDecl, MayOmit], by simp [Ex.tableDecl], by simp [Ex.tableDecl]⟩
  · simp only [Ex.larger, List.mem_cons, List.not_mem_nil, or_false] at hd'
    rcases hd' with rfl | rfl
    · exact ⟨_, .tail _ (.head _), rfl, by simp [Ex.freeAction], by simp [Ex.freeAction], by simp [Ex.freeAction]⟩
    · exact ⟨_, .head _, rfl, by simp [Ex.actionDecl], by simp [Ex.actionDecl], by simp [Ex.actionDecl]⟩

/-- The keys and parameters in another order. -/
def Ex.reordered (tc ac : Str) : P4Info :=
  ⟨[Ex.freeTable, { Ex.tableDecl tc with matchFields := (Ex.tableDecl tc).matchFields.reverse }],
   [Ex.freeAction, { Ex.actionDecl ac with params := (Ex.actionDecl ac).params.reverse }]⟩

example (n q r : UInt8) (m : Str) :
    reasonEntryViolatesConstraint { Ex.entry n with action := some (.action (Ex.action q r)) } (Ex.ci Ex.tc1 Ex.ac1) = .ok m ↔
    reasonEntryViolatesConstraint { Ex.entry n with action := some (.action (Ex.action q r)) }
      (Ex.get ⟨[], []⟩ (p4ToConstraintInfo Ex.sys (Ex.reordered Ex.tc1 Ex.ac1))) = .ok m := by
  refine C75_order Ex.accepted (Ex.get_of_isOk (by decide +kernel)) (fun d hd => ?_) (fun d hd => ?_)
    (by simp [NonNegProgram, Ex.reordered, Ex.tableDecl, Ex.actionDecl, Ex.freeTable, Ex.freeAction]) (Ex.entry_known _ _ n q r) m
  · simp only [Ex.p4info, List.mem_cons, List.not_mem_nil, or_false] at hd
    rcases hd with rfl | rfl
    · exact ⟨_, .tail _ (.head _), rfl, (List.reverse_perm _).symm⟩
    · exact ⟨_, .head _, rfl, .refl _⟩
  · simp only [Ex.p4info, List.mem_cons, List.not_mem_nil, or_false] at hd
    rcases hd with rfl | rfl
    · exact ⟨_, .tail _ (.head _), rfl, (List.reverse_perm _).symm⟩
    · exact ⟨_, .head _, rfl, .refl _⟩

example : ∃ ci', p4ToConstraintInfo Ex.sys Ex.redot2 = .ok ci' :=
  C76_accepted Ex.renaming_oneToOne Ex.redot_renamed
    ⟨Ex.get ⟨[], []⟩ (p4ToConstraintInfo Ex.sys Ex.redot1), Ex.get_of_isOk (by decide +kernel)⟩

/-- An entry that violates the constraint of the first program, so the renamed one violates that of the second. -/
example {m' : Str} (h : reasonEntryViolatesConstraint (renamedEntry Ex.renaming ⟨1, [⟨1, .exact [6]⟩], 0, none⟩)
    (Ex.get ⟨[], []⟩ (p4ToConstraintInfo Ex.sys Ex.redot2)) = .ok m') : m' ≠ [] :=
  fun hm => absurd ((C76_judged_alike Ex.renaming_oneToOne (Ex.get_of_isOk (by decide +kernel)) (Ex.get_of_isOk (by decide +kernel))
    Ex.redot_renamed (by simp [NonNegProgram, Ex.redot1, Ex.dotted])
    (m := Ex.get [] (reasonEntryViolatesConstraint ⟨1, [⟨1, .exact [6]⟩], 0, none⟩ (Ex.get ⟨[], []⟩ (p4ToConstraintInfo Ex.sys Ex.redot1))))
    (Ex.get_of_isOk (by decide +kernel)) h).2 hm) (by decide +kernel)

/-- The key `tern` is not matched, so its mask is zero; `opt` is matched exactly. -/
example {ρ : Env} (hρ : EntryMeans Ex.keys (Ex.entry 2) ρ) :
    Evaluates (keySig Ex.keys) ρ (exactOrWildcard c!"tern") .boolean (.bool true) :=
  (C77_mask ⟨by decide +kernel, by decide +kernel⟩ (k := ⟨2, c!"tern", .ternary 8⟩) (by decide) (W := 8) rfl hρ (x := 0) (m := 0)
    (.inr ⟨by decide +kernel, .ternary _⟩)).2 (.inl rfl)

example {ρ : Env} (hρ : EntryMeans Ex.keys (Ex.entry 2) ρ) :
    Evaluates (keySig Ex.keys) ρ (exactOrWildcard c!"opt") .boolean (.bool true) :=
  C77_optional_mask ⟨by decide +kernel, by decide +kernel⟩ (k := ⟨5, c!"opt", .optionalMatch 4⟩) (by decide) (W := 4) rfl (Ex.entryFits 2) hρ

/-- Every entry of the program has a counterpart if optional keys become ternary. -/
example (n : UInt8) : ∃ d' ∈ (ternaryForOptional (Ex.p4info c!"opt == 3" c!"p == 1")).tables, d'.preamble = (Ex.tableDecl c!"opt == 3").preamble ∧
    ∃ e', EntryWidens (Ex.tableDecl c!"opt == 3") d' (Ex.entry n) e' :=
  have h : p4ToConstraintInfo Ex.sys (Ex.p4info c!"opt == 3" c!"p == 1") = .ok (Ex.ci c!"opt == 3" c!"p == 1") :=
    Ex.get_of_isOk (by decide +kernel)
  C77_exists h (C77_ternary ⟨_, h⟩).1 (Ex.nonNeg _ _) (.head _) (Ex.keysDeclared _) (Ex.entryFits n)

/-! ### C79 -/

/-- Two perfect oracles need not be the same; the answers are. -/
example {z : Z3Oracle} (hz : z.Sound) (hdec : Z3Oracle.Decides z) (text : Str) :
    ∃ s s', SolverRun z Ex.sys (Ex.symTi Ex.d1) (fun _ => false) s [Ex.solveText] ∧
      SolverRun Ex.perfect Ex.sys (Ex.symTi Ex.d1) (fun _ => false) s' [Ex.solveText] ∧
      (s.addConstraintStr z Ex.sys text).1 = (s'.addConstraintStr Ex.perfect Ex.sys text).1 := by
  have hd : Ex.d1 ∈ (Ex.symInfo Ex.d1).tables := List.mem_singleton.2 rfl
  obtain ⟨s, hr⟩ := Ex.solve_run hz hdec
  obtain ⟨s', hr'⟩ := Ex.solve_run Ex.perfect_sound Ex.perfect_decides
  exact ⟨s, s', hr, hr', C79_history Ex.solve_ci hd Ex.solve_ti Ex.solvable1 hz hdec Ex.perfect_sound Ex.perfect_decides hr hr'
    (fun _ => Iff.rfl) text⟩

/-- What is accepted after a constraint is accepted without it. -/
example {z : Z3Oracle} (hz : z.Sound) (hdec : Z3Oracle.Decides z) {s : Solver}
    (hr : SolverRun z Ex.sys (Ex.symTi Ex.d1) (fun _ => false) s []) :
    (s.addConstraintStr z Ex.sys Ex.solveText).1 = .ok true := by
  have hd : Ex.d1 ∈ (Ex.symInfo Ex.d1).tables := List.mem_singleton.2 rfl
  obtain ⟨s', hr'⟩ := Ex.solve_run hz hdec
  exact C79_monotone Ex.solve_ci hd Ex.solve_ti Ex.solvable1 hz hdec hz hdec hr hr' (by simp) _
    (C79_again Ex.solve_ci hd Ex.solve_ti Ex.solvable1 hz hdec hr' (List.mem_singleton.2 rfl))

/-- The constraint and its negation are not accepted one after the other in either order, so their conjunction is rejected;
their disjunction is accepted. -/
example {z : Z3Oracle} (hz : z.Sound) (hdec : Z3Oracle.Decides z) :
    ∃ s, SolverRun z Ex.sys (Ex.symTi Ex.d1) (fun _ => false) s [Ex.solveText] ∧
      (AllAccepted z Ex.sys s [Ex.solveText, negated Ex.solveText] ↔ AllAccepted z Ex.sys s [negated Ex.solveText, Ex.solveText]) ∧
      (∃ r, (s.addConstraintStr z Ex.sys (joined .and Ex.solveText (negated Ex.solveText))).1 = .ok r ∧
        (r = true ↔ AllAccepted z Ex.sys s [Ex.solveText, negated Ex.solveText])) ∧
      (s.addConstraintStr z Ex.sys (joined .or Ex.solveText (negated Ex.solveText))).1 = .ok true := by
  have hd : Ex.d1 ∈ (Ex.symInfo Ex.d1).tables := List.mem_singleton.2 rfl
  have h : Ex.isOk (parseConstraint Ex.sys .table ⟨negated Ex.solveText, { src := .tableName [] }⟩) = true := by
    decide +kernel
  have hc := parsed_closed (Ex.get_of_isOk (d := .boolConst {} true) h) (Ex.notInfix (by decide +kernel))
  obtain ⟨s, hr⟩ := Ex.solve_run hz hdec
  have h1 := C79_again Ex.solve_ci hd Ex.solve_ti Ex.solvable1 hz hdec hr (List.mem_singleton.2 rfl)
  have h2 := C79_contradiction Ex.solve_ci hd Ex.solve_ti Ex.solvable1 hz hdec hr (List.mem_singleton.2 rfl) Ex.solve_closed
  exact ⟨s, hr, C79_order Ex.solve_ci hd Ex.solve_ti Ex.solvable1 hz hdec hr (by simp [or_comm]),
    C79_and Ex.solve_ci hd Ex.solve_ti Ex.solvable1 hz hdec hr Ex.solve_closed hc h1 h2,
    C79_or Ex.solve_ci hd Ex.solve_ti Ex.solvable1 hz hdec hr Ex.solve_closed hc h1 h2⟩

/-! ### C61, C63, C64 -/

theorem Ex.accepted6 : p4ToConstraintInfo Ex.sys (Ex.p4info c!"ex == 6" c!"p == 1") = .ok (Ex.ci c!"ex == 6" c!"p == 1") :=
  Ex.get_of_isOk (by decide +kernel)

/-- An entry for an unknown table. -/
def Ex.stray : RtEntry := { tableId := 33554433, matches_ := [] }

theorem Ex.stray_error : EntryError Ex.entryTexts Ex.sys.inetPton6 (Ex.p4info c!"ex == 6" c!"p == 1") Ex.stray .invalidArgument
    c!"table entry with unknown table ID 1 (full ID: 33554433 (0x02000001))" :=
  C61_blames_partial Ex.accepted6 (Ex.nonNeg _ _) (by decide +kernel)

example {r : Str} : reasonEntryViolatesConstraintM Ex.entryTexts Ex.stray (Ex.ci c!"ex == 6" c!"p == 1") ≠ .ok r :=
  C61_blamed Ex.accepted6 (Ex.nonNeg _ _) Ex.stray_error

/-- The order of matches decides at most about the code of an error. -/
example : reasonEntryViolatesConstraint Ex.inOrder (Ex.ci c!"ex == 6" c!"p == 1") =
      reasonEntryViolatesConstraint Ex.outOfOrder (Ex.ci c!"ex == 6" c!"p == 1") ∨
    ∃ c d, reasonEntryViolatesConstraint Ex.inOrder (Ex.ci c!"ex == 6" c!"p == 1") = .err c ∧
      reasonEntryViolatesConstraint Ex.outOfOrder (Ex.ci c!"ex == 6" c!"p == 1") = .err d := by
  refine C63_errors Ex.accepted6 (fun t ti id ki h1 h2 => ?_) Ex.shuffled
  have h3 : ∀ x ∈ (Ex.ci c!"ex == 6" c!"p == 1").tables, ∀ y ∈ x.2.keysById,
      y.2.ty ∈ [Ty.exact 32, .ternary 8, .lpm 16, .range 8, .optionalMatch 4, .exact 8] := by decide +kernel
  have h4 := h3 _ h1 _ h2
  simp only [List.mem_cons, List.not_mem_nil, or_false] at h4
  rcases h4 with h | h | h | h | h | h <;> rw [h]
  · exact .exact 32
  · exact .ternary 8
  · exact .lpm 16
  · exact .range 8
  · exact .optional 4
  · exact .exact 8

example (p q : UInt8) : reasonAction ⟨7, [(1, [p]), (2, [q])]⟩ (Ex.ci c!"ex == 6" c!"p == 1") =
    reasonAction ⟨7, [(2, [q]), (1, [p])]⟩ (Ex.ci c!"ex == 6" c!"p == 1") :=
  C63_action Ex.accepted6 ⟨rfl, .swap _ _ _⟩

example (a b : RtAction) :
    reasonEntryViolatesConstraint { Ex.entry 6 with action := some (.actionSet [a, b]) } (Ex.ci c!"ex == 6" c!"p == 1") = .ok [] ↔
    reasonEntryViolatesConstraint { Ex.entry 6 with action := some (.actionSet [b, a]) } (Ex.ci c!"ex == 6" c!"p == 1") = .ok [] :=
  C63_set ⟨rfl, rfl, rfl, _, _, rfl, rfl, .swap _ _ _⟩

example : PriorityValid (Ex.symTi Ex.d1) Ex.e1.priority :=
  (C64_exact Ex.reachable1 (constOracle_sound _) (Ex.sym_of_ok Ex.d1_ok).1 (Prod.ext Ex.concretize1 rfl)).2
    (.inr ⟨c!"tern", ⟨2, c!"tern", .ternary 8⟩, 8, by decide +kernel, .inl rfl⟩)

/-! ### C84 -/

/-- All four outcomes occur. -/
example : ¬ Accepted Ex.sys.inetPton6 (Ex.p4info c!"ex == 6" c!"p == 1") Ex.stray ∧
    ¬ EntryCrash Ex.sys.inetPton6 (Ex.p4info c!"ex == 6" c!"p == 1") Ex.stray :=
  have h := (C84_otherwise Ex.accepted6 (Ex.nonNeg _ _) Ex.stray).1 ⟨.invalidArgument, by decide +kernel⟩
  ⟨h.1, h.2.2⟩

example : ∃ c m, reasonEntryViolatesConstraintM Ex.entryTexts Ex.stray (Ex.ci c!"ex == 6" c!"p == 1") = .err c m :=
  (C84_error Ex.accepted6 (Ex.nonNeg _ _) Ex.stray).2 ⟨_, _, Ex.stray_error⟩

example : Accepted Ex.sys.inetPton6 (Ex.p4info c!"ex == 6" c!"p == 1") (Ex.entry 6) := by
  have h1 : reasonEntryViolatesConstraintM Ex.entryTexts (Ex.entry 6) (Ex.ci c!"ex == 6" c!"p == 1") = .ok [] := by decide +kernel
  rcases C84_outcomes (x := Ex.entryTexts) Ex.accepted6 (Ex.nonNeg _ _) (Ex.entry 6) with ⟨h, _⟩ | ⟨m, _, h, hm⟩ | ⟨c, m, _, h⟩ | ⟨_, h⟩
  · exact h
  · rw [h1] at h
    cases h
    exact absurd rfl hm
  · rw [h1] at h
    cases h
  · rw [h1] at h
    cases h

example : (∀ m, ¬ ReportsViolation Ex.sys.inetPton6 (Ex.p4info c!"ex == 6" c!"p == 1") Ex.stray m) ∧
    ¬ EntryCrash Ex.sys.inetPton6 (Ex.p4info c!"ex == 6" c!"p == 1") Ex.stray :=
  have h := C84_exclusive (x := Ex.entryTexts) Ex.accepted6 (Ex.nonNeg _ _) Ex.stray
  ⟨(h.2.1 _ _ Ex.stray_error).2, fun hc => (h.2.2 hc).2.2 _ _ Ex.stray_error⟩

/-! ### C87 -/

example {z : Z3Oracle} (hz : z.Sound) (hdec : Z3Oracle.Decides z) {s : Solver}
    (hr : SolverRun z Ex.sys (Ex.symTi Ex.d1) (fun _ => false) s [Ex.solveText]) :
    (s.addConstraintStr z Ex.sys c!"1 == true").1 ≠ .crash :=
  C87_one_line Ex.solve_ci (List.mem_singleton.2 rfl) Ex.solve_ti (by decide +kernel) Ex.solve_nonNeg hz hdec hr (by decide +kernel)

end P4C
