import Verif.Proofs.SolveSigned
import Verif.Props.Accept
import Verif.Props.SymbolicEx

/-
C72: constraint solvers for the tables of a program.
-/

namespace P4C

open Spec

section
variable {sys : Sys} {p : P4Info} {ci : ConstraintInfo} (h : p4ToConstraintInfo sys p = .ok ci) {d : TableDecl}
  (hd : d ∈ p.tables) {ti : TableInfo} (hti : lookup d.preamble.id ci.tables = some ti) {skip : Str → Bool}
  (hs : Solvable d skip) {z : Z3Oracle} (hz : z.Sound)
  (hp : ∀ se, TableSays sys.inetPton6 d se → PlainOrder d se)

include h hd hti hs hz hp in
/-- C72, creating a solver for a table: it succeeds if and only if the keys that are not skipped are of supported kinds, the
constraint of the table mentions no others, and there is an entry that the checker accepts. Missing: constraints that order
bit strings (see `C72_fails`), skipping keys that must not be omitted (see `C35_fails_skipped`), keys called like masks (see
`C40_fails_names`). -/
theorem C72_create_partial (hdec : Z3Oracle.Decides z) :
    (∃ s, Solver.create z ti (fun n => .ok (skip n)) = .ok s) ↔
      AllSupported d skip ∧ (∀ se, TableSays sys.inetPton6 d se → Mentionable d skip se) ∧
      ∃ entry, Solution sys.inetPton6 p d skip [] entry := create_solves h hd hti hs hz hdec hp

include h hd hti hs hz hp in
/-- C72, adding constraints: after any history, the text is understood if and only if it is a constraint on the keys that are
not skipped, and it is accepted if and only if moreover there is an entry that the checker accepts and that satisfies this
text and all those accepted before. -/
theorem C72_add_partial (hdec : Z3Oracle.Decides z) {s : Solver} {texts : List Str} {text : Str}
    (hr : SolverRun z sys ti skip s texts)
    (hpt : ∀ t ∈ text :: texts, ∀ se, TextSays sys.inetPton6 d t se → PlainOrder d se) :
    ((∃ b, (s.addConstraintStr z sys text).1 = .ok b) ↔ ∃ se, TextSays sys.inetPton6 d text se ∧ Mentionable d skip se) ∧
    ((s.addConstraintStr z sys text).1 = .ok true ↔ (∃ se, TextSays sys.inetPton6 d text se ∧ Mentionable d skip se) ∧
      ∃ entry, Solution sys.inetPton6 p d skip (text :: texts) entry) := add_solves h hd hti hs hz hdec hr hp hpt

include h hd hti hs hz hp in
/-- C72, concretizing: the entry returned is in canonical form, has no action, is accepted by the checker, and satisfies all
texts accepted. -/
theorem C72_entry_partial {s s' : Solver} {texts : List Str} {entry : RtEntry} (hr : SolverRun z sys ti skip s texts)
    (hpt : ∀ text ∈ texts, ∀ se, TextSays sys.inetPton6 d text se → PlainOrder d se)
    (hc : s.concretize z = (.ok entry, s')) :
    Solution sys.inetPton6 p d skip texts entry ∧ entry.action = none := concretize_solves h hd hti hs hz hr hp hpt hc

include h hd hti hs hz hp in
/-- C72: in other words, the checker finds nothing wrong with the entry. -/
theorem C72_checked_partial (hw : NonNegProgram p) {s s' : Solver} {texts : List Str} {entry : RtEntry}
    (hr : SolverRun z sys ti skip s texts)
    (hpt : ∀ text ∈ texts, ∀ se, TextSays sys.inetPton6 d text se → PlainOrder d se)
    (hc : s.concretize z = (.ok entry, s')) : reasonEntryViolatesConstraint entry ci = .ok [] :=
  (C65_accepted h hw entry).2 (concretize_solves h hd hti hs hz hr hp hpt hc).1.accepted

include h hd hti hs hz in
/-- C72: an entry is always returned. -/
theorem C72_always (hdec : Z3Oracle.Decides z) (hip : Z3Oracle.InterpretsPriority z) {s : Solver} {texts : List Str}
    (hr : SolverRun z sys ti skip s texts) : ∃ entry s', s.concretize z = (.ok entry, s') :=
  concretize_always h hd hti hs hz hdec hr hip

include h hd hti hs hz in
/-- C72, exactly what solvers do for any constraints: the same as above, for the reading of constraints in which ordered
comparisons of bit strings are about two's complement numbers. -/
theorem C72_create_exact (hdec : Z3Oracle.Decides z) :
    (∃ s, Solver.create z ti (fun n => .ok (skip n)) = .ok s) ↔
      AllSupported d skip ∧ (∀ se, TableSays sys.inetPton6 d se → Mentionable d skip se) ∧
      ∃ entry, SignedSolution sys.inetPton6 d skip [] entry := signed_create_solves h hd hti hs hz hdec

include h hd hti hs hz in
theorem C72_add_exact (hdec : Z3Oracle.Decides z) {s : Solver} {texts : List Str} {text : Str}
    (hr : SolverRun z sys ti skip s texts) :
    ((∃ b, (s.addConstraintStr z sys text).1 = .ok b) ↔ ∃ se, TextSays sys.inetPton6 d text se ∧ Mentionable d skip se) ∧
    ((s.addConstraintStr z sys text).1 = .ok true ↔ (∃ se, TextSays sys.inetPton6 d text se ∧ Mentionable d skip se) ∧
      ∃ entry, SignedSolution sys.inetPton6 d skip (text :: texts) entry) := signed_add_solves h hd hti hs hz hdec hr

include h hd hti hs hz in
theorem C72_entry_exact {s s' : Solver} {texts : List Str} {entry : RtEntry} (hr : SolverRun z sys ti skip s texts)
    (hc : s.concretize z = (.ok entry, s')) : SignedSolution sys.inetPton6 d skip texts entry ∧ entry.action = none :=
  signed_concretize_solves h hd hti hs hz hr hc

end

/-! ### Example: a table with a key of every supported kind -/

theorem Ex.solve_ci : p4ToConstraintInfo Ex.sys (Ex.symInfo Ex.d1) = .ok (Ex.symCi Ex.d1) :=
  Ex.get_of_isOk (by decide +kernel)

theorem Ex.solve_ti : lookup Ex.d1.preamble.id (Ex.symCi Ex.d1).tables = some (Ex.symTi Ex.d1) := by decide +kernel

theorem Ex.solvable1 : Solvable Ex.d1 fun _ => false := by
  refine ⟨fun _ _ _ _ h => (by cases h), ?_, ?_, ?_⟩ <;> decide +kernel

/-- The keys of the table. -/
def Ex.solveKeys : List VarInfo :=
  [⟨1, c!"ex", .exact 32⟩, ⟨2, c!"tern", .ternary 8⟩, ⟨3, c!"pre", .lpm 16⟩, ⟨4, c!"opt", .optionalMatch 4⟩]

theorem Ex.solve_keys : Each KeyDecl Ex.d1.matchFields Ex.solveKeys :=
  .cons (.exact ..) (.cons (.ternary ..) (.cons (.lpm ..) (.cons (.optional ..) .nil)))

theorem Ex.solve_says {se : SExpr} (h : TableSays Ex.sys.inetPton6 Ex.d1 se) : se = Ex.s1 := by
  obtain ⟨vs, src, e, hk, hread⟩ := h
  obtain ⟨_, _, hc, hch, _⟩ := Ex.sym_of_ok Ex.d1_ok
  obtain ⟨vs', e', se', r⟩ := table_read (declared_parse Ex.solve_ci (List.mem_singleton.2 rfl) Ex.solve_ti) hc
  cases keys_same hk r.keys
  have hu := readConstraint_unique r.read hread
  simp only [Option.some.injEq, Prod.mk.injEq] at hu
  obtain ⟨rfl, rfl, rfl, _⟩ := hu
  exact (checked_unique hch ⟨_, e', r.typed, r.meant⟩).symm

theorem Ex.solve_plain : ∀ se, TableSays Ex.sys.inetPton6 Ex.d1 se → PlainOrder Ex.d1 se := by
  rintro se hse vs hk
  cases Ex.solve_says hse
  obtain ⟨vs', hk', _, hmaps, _⟩ := parseTableInfo_parts
    (declared_parse Ex.solve_ci (List.mem_singleton.2 rfl) Ex.solve_ti)
  cases keys_same hk hk'
  rw [← sig_keys hmaps]
  exact Ex.noOrderedBits1

/-- A further constraint. -/
def Ex.solveText : Str := c!"tern::mask == 0xf0; pre::value != 7"

/-- What it says. -/
def Ex.solveSe : SExpr := .conn .and (.cmp .eq (.field (.key c!"tern") c!"mask") (.int 0xf0))
  (.cmp .ne (.field (.key c!"pre") c!"value") (.int 7))

theorem Ex.solve_text_says {se : SExpr} (hse : TextSays Ex.sys.inetPton6 Ex.d1 Ex.solveText se) : se = Ex.solveSe := by
  have hpi := declared_parse Ex.solve_ci (List.mem_singleton.2 rfl) Ex.solve_ti
  obtain ⟨vs', hk', _, hmaps, _⟩ := parseTableInfo_parts hpi
  obtain ⟨e, c, h1, _, _, h2⟩ := (textSays_iff hpi hk' hmaps).1 hse
  have : (match parseConstraint Ex.sys .table ⟨Ex.solveText, { src := .tableName (Ex.symTi Ex.d1).name }⟩ with
      | .ok e => decide (abs e = some Ex.solveSe)
      | _ => false) = true := by decide +kernel
  rw [h1] at this
  dsimp only at this
  rw [h2] at this
  simpa using this

theorem Ex.solve_text : ∀ t ∈ [Ex.solveText], ∀ se, TextSays Ex.sys.inetPton6 Ex.d1 t se → PlainOrder Ex.d1 se := by
  rintro t ht se hse vs hk
  cases List.mem_singleton.1 ht
  cases Ex.solve_text_says hse
  simp [NoOrderedBits, Cmp.isOrder, Ex.solveSe]

/-- The solver answers with `Ex.e1`, which therefore satisfies both constraints. -/
theorem Ex.solution1 : Solution Ex.sys.inetPton6 (Ex.symInfo Ex.d1) Ex.d1 (fun _ => false) [Ex.solveText] Ex.e1 := by
  have hc : Solver.create (constOracle Ex.m1) (Ex.symTi Ex.d1) (fun _ => .ok false) = .ok Ex.solver1 :=
    Ex.get_of_isOk (by decide +kernel)
  have ha : Ex.solver1.addConstraintStr (constOracle Ex.m1) Ex.sys Ex.solveText =
    (.ok true, (Ex.solver1.addConstraintStr (constOracle Ex.m1) Ex.sys Ex.solveText).2) := Prod.ext (by decide +kernel) rfl
  have hr : SolverRun (constOracle Ex.m1) Ex.sys (Ex.symTi Ex.d1) (fun _ => false) _ [Ex.solveText] :=
    .accepted (.create hc) ha
  exact (C72_entry_partial Ex.solve_ci (List.mem_singleton.2 rfl) Ex.solve_ti Ex.solvable1 (constOracle_sound _)
    Ex.solve_plain hr Ex.solve_text (Prod.ext (by decide +kernel) rfl)).1

/-- Hence every sound solver that never gives up can be created for the table and accepts the further constraint. -/
theorem Ex.solve_accepted {z : Z3Oracle} (hz : z.Sound) (hdec : Z3Oracle.Decides z) :
    ∃ s, Solver.create z (Ex.symTi Ex.d1) (fun _ => .ok false) = .ok s ∧
      (s.addConstraintStr z Ex.sys Ex.solveText).1 = .ok true := by
  have hd : Ex.d1 ∈ (Ex.symInfo Ex.d1).tables := List.mem_singleton.2 rfl
  have hsup : AllSupported Ex.d1 fun _ => false := by
    intro vs hk
    cases keys_same hk Ex.solve_keys
    intro ki hki
    right
    simp only [Ex.solveKeys, List.mem_cons, List.not_mem_nil, or_false] at hki
    rcases hki with rfl | rfl | rfl | rfl
    · exact .exact (by decide)
    · exact .ternary (by decide)
    · exact .lpm (by decide)
    · exact .optional (by decide)
  have hprio : WithPriority Ex.solveKeys := ⟨⟨2, c!"tern", .ternary 8⟩, by decide, 8, .inl rfl⟩
  have hsol := Ex.solution1
  obtain ⟨s, hs⟩ := (C72_create_partial Ex.solve_ci hd Ex.solve_ti Ex.solvable1 hz Ex.solve_plain hdec).2
    ⟨hsup, fun se hse => by
      cases Ex.solve_says hse
      refine ⟨_, Ex.solve_keys, ?_⟩
      simp [NamesIn, Ex.s1, Ex.solveKeys]
      exact hprio, Ex.e1, hsol.canonical, hsol.accepted, nofun⟩
  refine ⟨s, hs, ((C72_add_partial Ex.solve_ci hd Ex.solve_ti Ex.solvable1 hz Ex.solve_plain hdec (.create hs)
    Ex.solve_text).2).2 ⟨?_, Ex.e1, hsol⟩⟩
  obtain ⟨se, hse, _⟩ := hsol.texts Ex.solveText (List.mem_singleton.2 rfl)
  cases Ex.solve_text_says hse
  exact ⟨_, hse, _, Ex.solve_keys, by simp [NamesIn, Ex.solveSe, Ex.solveKeys]⟩

/-- C72 fails as stated: for `tern::value < 5` the solver returns an entry that the checker does not accept. -/
theorem C72_fails : ∃ z sys p ci d ti s s' entry, Z3Oracle.Sound z ∧ p4ToConstraintInfo sys p = .ok ci ∧ d ∈ p.tables ∧
    lookup d.preamble.id ci.tables = some ti ∧ NonNegProgram p ∧ Solvable d (fun _ => false) ∧
    SolverRun z sys ti (fun _ => false) s [] ∧ s.concretize z = (.ok entry, s') ∧ ¬ Accepted sys.inetPton6 p entry := by
  have hci : p4ToConstraintInfo Ex.sys (Ex.symInfo Ex.d2) = .ok (Ex.symCi Ex.d2) := Ex.get_of_isOk (by decide +kernel)
  have hw : NonNegProgram (Ex.symInfo Ex.d2) := ⟨by decide +kernel, by decide +kernel⟩
  refine ⟨constOracle Ex.m2, Ex.sys, Ex.symInfo Ex.d2, Ex.symCi Ex.d2, Ex.d2, Ex.symTi Ex.d2, Ex.solver2, _, Ex.e2,
    constOracle_sound _, hci, List.mem_singleton.2 rfl, by decide +kernel, hw, ⟨fun _ _ _ _ h => (by cases h), ?_, ?_, ?_⟩,
    .create (Ex.get_of_isOk (by decide +kernel)), Prod.ext Ex.concretize2 rfl, fun ha => ?_⟩
  · decide +kernel
  · decide +kernel
  · decide +kernel
  · have := (C65_accepted hci hw _).2 ha
    revert this
    decide +kernel

/-- This entry satisfies the constraint in the other reading: `tern` is 255, which denotes -1. -/
example : SignedSolution Ex.sys.inetPton6 Ex.d2 (fun _ => false) [] Ex.e2 := by
  have hci : p4ToConstraintInfo Ex.sys (Ex.symInfo Ex.d2) = .ok (Ex.symCi Ex.d2) := Ex.get_of_isOk (by decide +kernel)
  exact (C72_entry_exact hci (ti := Ex.symTi Ex.d2) (List.mem_singleton.2 rfl) (by decide +kernel)
    ⟨fun _ _ _ _ h => (by cases h), by decide +kernel, by decide +kernel, by decide +kernel⟩ (constOracle_sound _)
    (.create (Ex.get_of_isOk (by decide +kernel))) (Prod.ext Ex.concretize2 rfl)).1

end P4C
