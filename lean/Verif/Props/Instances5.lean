import Verif.Props.SymbolicEx
import Verif.Props.SolveLaws
import Verif.Props.Priority
import Verif.Props.Runtime
import Verif.Props.Express
import Verif.Props.Cli
import Verif.Props.SymFault
import Verif.Props.CrashSolver
import Verif.Props.EntryReport

/-
Instances of theorems with hypotheses: C34, C35, C37 to C39, C49, C64, C68, C70, C71.
-/

namespace P4C

open Spec

/-! ### C34, C35 -/

theorem Ex.concretized1 : Ex.solver1.concretize (constOracle Ex.m1) = (.ok Ex.e1, (Ex.solver1.concretize (constOracle Ex.m1)).2) :=
  Prod.ext Ex.concretize1 rfl

/-- The constraint of the example contains no ordered comparison, so both readings agree. -/
theorem Ex.readings1 (ρ : Env) : SignedHolds (sigOf (.table (Ex.symTi Ex.d1).keysByName)) ρ Ex.s1 ↔
    Holds (sigOf (.table (Ex.symTi Ex.d1).keysByName)) ρ Ex.s1 :=
  C34_readings (C34_orderSafe Ex.noOrderedBits1 ρ).1

/-- The entry returned satisfies the constraint in both. -/
example : ∃ ρ, EntryEnv (Ex.symTi Ex.d1) Ex.e1 ρ ∧ Holds (sigOf (.table (Ex.symTi Ex.d1).keysByName)) ρ Ex.s1 := by
  obtain ⟨hwf, hw, hc, hch, _⟩ := Ex.sym_of_ok Ex.d1_ok
  obtain ⟨ρ, h1, h2⟩ := C35_signed Ex.reachable1 (constOracle_sound _) hwf Ex.omittable Ex.concretized1
  exact ⟨ρ, h1, (Ex.readings1 ρ).1 (h2 _ List.mem_cons_self _ hch)⟩

/-- There is an interpretation of the variables of the solver for the entry. -/
example : ∃ ρ m, EntryEnv (Ex.symTi Ex.d1) Ex.e1 ρ ∧ EnvCorr m (sigOf (.table (Ex.symTi Ex.d1).keysByName)) Ex.solver1.env ρ := by
  obtain ⟨hwf, hw, hc, hch, _⟩ := Ex.sym_of_ok Ex.d1_ok
  obtain ⟨ρ, h1, _⟩ := C35_signed Ex.reachable1 (constOracle_sound _) hwf Ex.omittable Ex.concretized1
  obtain ⟨m, hm⟩ := C34_entry_model Ex.reachable1 hwf Ex.namesDistinct1
    (C36_canonical Ex.reachable1 (constOracle_sound _) hwf Ex.concretized1) h1
  exact ⟨ρ, m, h1, hm⟩

/-- So the formula for the constraint is true of it. -/
example : ∃ (m : Interp) (t : Term .bool), evaluateConstraintSymbolically (Ex.symC Ex.d1) {} Ex.solver1.env = .ok ⟨.bool, t⟩ ∧
    t.den m = true := by
  obtain ⟨hwf, hw, hc, hch, hb⟩ := Ex.sym_of_ok Ex.d1_ok
  obtain ⟨ρ, h1, h2⟩ := C35_signed Ex.reachable1 (constOracle_sound _) hwf Ex.omittable Ex.concretized1
  obtain ⟨m, hm⟩ := C34_entry_model Ex.reachable1 hwf Ex.namesDistinct1
    (C36_canonical Ex.reachable1 (constOracle_sound _) hwf Ex.concretized1) h1
  have hx : Ex.isOk (evaluateConstraintSymbolically (Ex.symC Ex.d1) {} Ex.solver1.env) = true := by decide +kernel
  obtain ⟨_, hk⟩ := formula_known hch (Ex.get_of_isOk (d := ⟨.bool, .boolVal false⟩) hx)
  obtain ⟨t, h3, h4⟩ := C34_signed hm hch hb hk {}
  exact ⟨m, t, h3, h4.2 (h2 _ List.mem_cons_self _ hch)⟩

/-! ### C37 -/

/-- A constraint that the model does not satisfy, so that it is refused. -/
theorem Ex.refused1 : Ex.solver1.addConstraintStr (constOracle Ex.m1) Ex.sys c!"tern::mask == 3" =
    (.ok false, (Ex.solver1.addConstraintStr (constOracle Ex.m1) Ex.sys c!"tern::mask == 3").2) := Prod.ext (by decide +kernel) rfl

example : SameState Ex.solver1 (Ex.solver1.concretize (constOracle Ex.m1)).2 := C37_unchanged_concretize Ex.concretized1

example (ops : List Op) : answers (constOracle Ex.m1) Ex.sys Ex.solver1 ops =
    answers (constOracle Ex.m1) Ex.sys (Ex.solver1.addConstraintStr (constOracle Ex.m1) Ex.sys c!"tern::mask == 3").2 ops :=
  C37_same_answers (fun _ _ _ => rfl) (C37_unchanged_text Ex.refused1 nofun) ops

example : ∃ m : Interp, ∀ a ∈ Ex.solver1.assertions, a.den m = true :=
  C37_satisfiable (constOracle_sound _) (Ex.sym_of_ok Ex.d1_ok).1 Ex.reachable1

/-- The constraint of the table, added once more. -/
theorem Ex.added1 : Ex.solver1.addConstraint (constOracle Ex.m1) (Ex.symC Ex.d1) {} =
    (.ok true, (Ex.solver1.addConstraint (constOracle Ex.m1) (Ex.symC Ex.d1) {}).2) := Prod.ext (by decide +kernel) rfl

example : ∃ t : Term .bool, (Ex.solver1.addConstraint (constOracle Ex.m1) (Ex.symC Ex.d1) {}).2.assertions = Ex.solver1.assertions ++ [t] := by
  obtain ⟨t, _, h, _⟩ := C37_added Ex.added1
  exact ⟨t, h⟩

/-- The negation of a constraint that has been added is refused, so nothing satisfies both. -/
example : ∃ s, SolverRun Ex.perfect Ex.sys (Ex.symTi Ex.d1) (fun _ => false) s [Ex.solveText] ∧
    ∃ t : Term .bool, ∀ m : Interp, ∃ a ∈ s.assertions ++ [t], a.den m = false := by
  obtain ⟨s, hr⟩ := Ex.solve_run Ex.perfect_sound Ex.perfect_decides
  have h := C79_contradiction Ex.solve_ci (List.mem_singleton.2 rfl) Ex.solve_ti Ex.solvable1 Ex.perfect_sound Ex.perfect_decides hr
    (List.mem_singleton.2 rfl) Ex.solve_closed
  refine ⟨s, hr, ?_⟩
  unfold Solver.addConstraintStr at h
  dsimp only at h
  split at h
  · obtain ⟨t, _, ht⟩ := C37_refused Ex.perfect_sound Ex.perfect_decides (Prod.ext h rfl)
    exact ⟨t, ht⟩
  all_goals cases h

/-! ### C38, C39, C49 -/

/-- The entry has no match for the key `ran`, which is skipped. -/
example : ∀ fm ∈ Ex.e6.matches_, fm.fieldId ≠ 2 := by
  have hwf : TableWF (Ex.symTi Ex.d6) := parseTableInfo_wf (sys := Ex.sys) (d := Ex.d6) (Ex.get_of_isOk (by decide +kernel))
  have hr : Reachable (constOracle Ex.m1) Ex.sys (Ex.symTi Ex.d6) Ex.skipRan Ex.solver6 [] :=
    .create (Ex.get_of_isOk (by decide +kernel))
  exact C38_omitted hr (constOracle_sound Ex.m1) hwf (Prod.ext (by decide +kernel) rfl) (n := c!"ran") (ki := ⟨2, c!"ran", .range 8⟩)
    (by decide +kernel) (by decide +kernel)

example : Ex.skipRan c!"ran" = .ok true := by
  have hwf : TableWF (Ex.symTi Ex.d6) := parseTableInfo_wf (sys := Ex.sys) (d := Ex.d6) (Ex.get_of_isOk (by decide +kernel))
  have hr : Reachable (constOracle Ex.m1) Ex.sys (Ex.symTi Ex.d6) Ex.skipRan Ex.solver6 [] :=
    .create (Ex.get_of_isOk (by decide +kernel))
  exact C64_ranges_skipped hr hwf (ki := ⟨2, c!"ran", .range 8⟩) (by decide +kernel) rfl

example {b : Bytes} (hb : CanonicalBytes b) (h : parseP4RTInteger [1, 0xf3] = parseP4RTInteger b) : b = [1, 0xf3] :=
  (C39_unique (Ex.canonBytes_of (by decide)) hb h).symm

/-- A text that is accepted is a constraint, whether satisfied or not. -/
example : ∃ e se, Constraint Ex.sys.inetPton6 .table (tokenize ⟨c!"tern::mask == 3", { src := .tableName Ex.solver1.table.name }⟩) e ∧ abs e = some se := by
  obtain ⟨e, se, h1, h2, _⟩ := C49_accepts_only Ex.refused1
  exact ⟨e, se, h1, h2⟩

/-! ### C68, C70, C71 -/

def Ex.bareAction : ActionDecl := { Ex.actionDecl [] with preamble := ⟨7, c!"act", [c!"@name(\"act\")"]⟩ }

/-- An action without constraint can be given the constraint `p < q`. -/
example : ∃ ci', p4ToConstraintInfo Ex.sys ⟨[Ex.tableDecl c!"ex == 6"],
    [actionWith Ex.bareAction (toText (print natDec (.cmp .lt (.param c!"p") (.param c!"q")) 0))]⟩ = .ok ci' := by
  have hi : ∀ s ∈ [c!"p", c!"q"], Ident s := by
    intro s hs
    simp only [List.mem_cons, List.not_mem_nil, or_false] at hs
    rcases hs with rfl | rfl <;>
    exact ⟨⟨_, _, rfl, by simp [Letter], by simp [Letter, Digit]⟩, by decide, by decide⟩
  obtain ⟨ci', h, _⟩ := C68_action natDec_val (d := Ex.bareAction) (as := []) (ts := [Ex.tableDecl c!"ex == 6"]) (sys := Ex.sys)
    (ci := Ex.get ⟨[], []⟩ (p4ToConstraintInfo Ex.sys ⟨[Ex.tableDecl c!"ex == 6"], [Ex.bareAction]⟩))
    (Ex.get_of_isOk (by decide +kernel)) (by constructor <;> simp [Ex.bareAction, Ex.tableDecl, Ex.actionDecl])
    (show ∀ a ∈ [c!"@name(\"act\")"], ¬ restriction .action <+: a by decide)
    (vs := [⟨1, c!"p", .fixedUnsigned 8⟩, ⟨2, c!"q", .fixedUnsigned 8⟩]) (.cons (.bits ..) (.cons (.bits ..) .nil))
    (s := .cmp .lt (.param c!"p") (.param c!"q"))
    ⟨⟨rfl, hi _ (by simp)⟩, ⟨rfl, hi _ (by simp)⟩⟩
    (.cmp (.param (t := .fixedUnsigned 8) (by decide) ⟨nofun, nofun⟩) (.param (t := .fixedUnsigned 8) (by decide) ⟨nofun, nofun⟩)
      (lub_iff.1 (by decide : _ = some (.fixedUnsigned 8))) fun _ => .bit _)
  exact ⟨ci', h⟩

/-- The command line tool prints that the constraint is satisfied only of entries that are accepted. -/
example {v : Str} (h : Verdict Ex.entryTexts Ex.sys.inetPton6 (Ex.p4info c!"ex == 6" c!"p == 1") (.parsed (Ex.entry 6)) v) :
    v = c!"Constraint satisfied\n" ↔ Accepted Ex.sys.inetPton6 (Ex.p4info c!"ex == 6" c!"p == 1") (fullEntry (Ex.entry 6)) :=
  (C70_read ⟨Ex.ci c!"ex == 6" c!"p == 1", Ex.get_of_isOk (by decide +kernel)⟩ (Ex.nonNeg _ _) h).1

/-- A solver that gives up. -/
example (e : Expr) (src : ConstraintSource) :
    (Ex.solver1.addConstraintM { check := fun _ _ => .unknown } Ex.symTexts e src).1 =
      .err .internal (c!"Stored constraints are unsatisfiable. " ++
        c!"Constraint solver must hold a satisfiable constraint at all times.") :=
  (C71_gives_up Ex.symTexts (skip := fun _ => .ok false) rfl e src).1

end P4C
