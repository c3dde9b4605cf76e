import Verif.Proofs.Found
import Verif.Props.Compare

/-
C107: a constraint solver finds entries that violate a constraint, if there are any, and the checker reports them.
-/

namespace P4C

open Spec

section
variable {sys : Sys} {p p' : P4Info} {ci ci' : ConstraintInfo} (h : p4ToConstraintInfo sys p = .ok ci)
  (h' : p4ToConstraintInfo sys p' = .ok ci') (hw : NonNegProgram p) (hw' : NonNegProgram p') {d d' : TableDecl} {b : Str}
  (hv : Versions p p' d d' b) (hl : '\n' ∉ b ∧ '\r' ∉ b) {ti : TableInfo} (hti : lookup d.preamble.id ci.tables = some ti)
  {z : Z3Oracle} (hz : z.Sound)
  (hp : ∀ se, TableSays sys.inetPton6 d se → PlainOrder d se) (hp' : ∀ se, TableSays sys.inetPton6 d' se → PlainOrder d' se)

include h h' hw hw' hv hl hti hz hp hp' in
/-- C107, the entry: if the negation of the constraint is accepted, then the entry that the solver returns is well-formed, satisfies
the texts added, and the checker reports that it violates the constraint of the table. Missing: constraints on several lines (see
`C107_fails_crash`) and constraints that order bit strings (see `C107_fails_order`). -/
theorem C107_entry_partial (hs : Solvable d fun _ => false) {s s' s'' : Solver} {texts : List Str} {entry : RtEntry}
    (hr : SolverRun z sys ti (fun _ => false) s texts)
    (hpt : ∀ t ∈ texts, ∀ se, TextSays sys.inetPton6 d t se → PlainOrder d se)
    (ha : s.addConstraintStr z sys (negated b) = (.ok true, s')) (hc : s'.concretize z = (.ok entry, s'')) :
    RuntimeEntry d entry ∧ (∀ t ∈ texts, TextHolds sys.inetPton6 d t entry) ∧ reasonEntryViolatesConstraint entry ci = .ok [] ∧
      ∃ m, m ≠ [] ∧ reasonEntryViolatesConstraint entry ci' = .ok m ∧ TableReport sys.inetPton6 d' entry m := by
  rw [← canonical_wellFormed h hv.here hti hr]
  exact found_reported h h' hw hw' hv hl hti hs hz hp hp' hr hpt ha hc

include h h' hw hw' hv hl hti hz hp hp' in
/-- C107, the answer: the negation of the constraint is accepted if and only if there is a well-formed entry that satisfies the texts
added, is accepted by the program of the solver, and is reported by the checker to violate constraints of the other program. -/
theorem C107_found_partial (hs : Solvable d fun _ => false) (hdec : Z3Oracle.Decides z) {s : Solver} {texts : List Str}
    (hr : SolverRun z sys ti (fun _ => false) s texts)
    (hpt : ∀ t ∈ texts, ∀ se, TextSays sys.inetPton6 d t se → PlainOrder d se) {r : Bool}
    (ha : (s.addConstraintStr z sys (negated b)).1 = .ok r) :
    r = true ↔ ∃ entry m, RuntimeEntry d entry ∧ (∀ t ∈ texts, TextHolds sys.inetPton6 d t entry) ∧
      reasonEntryViolatesConstraint entry ci = .ok [] ∧ reasonEntryViolatesConstraint entry ci' = .ok m ∧ m ≠ [] := by
  rw [found_exists h h' hw hw' hv hl hti hs hz hp hp' hdec hr hpt ha]
  simp only [canonical_wellFormed h hv.here hti hr]

include h h' hw hw' hv hl hti hz hp hp' in
/-- C107, the entry returned by a solver that skips keys. -/
theorem C107_entry_skipping_partial {skip : Str → Bool} (hs : Solvable d skip) {s s' s'' : Solver} {texts : List Str}
    {entry : RtEntry} (hr : SolverRun z sys ti skip s texts)
    (hpt : ∀ t ∈ texts, ∀ se, TextSays sys.inetPton6 d t se → PlainOrder d se)
    (ha : s.addConstraintStr z sys (negated b) = (.ok true, s')) (hc : s'.concretize z = (.ok entry, s'')) :
    CanonicalFor d skip entry ∧ (∀ t ∈ texts, TextHolds sys.inetPton6 d t entry) ∧ reasonEntryViolatesConstraint entry ci = .ok [] ∧
      ∃ m, m ≠ [] ∧ reasonEntryViolatesConstraint entry ci' = .ok m ∧ TableReport sys.inetPton6 d' entry m :=
  found_reported h h' hw hw' hv hl hti hs hz hp hp' hr hpt ha hc

include h h' hw hw' hv hl hti hz hp' in
/-- C107, testing: with a solver for the table without its constraint, the negation of the constraint is refused if and only if the
checker accepts all well-formed entries (without actions); otherwise it reports a violation for some of them. -/
theorem C107_free_partial (hfree : Attached .table d.preamble none) (hs : Solvable d fun _ => false) (hdec : Z3Oracle.Decides z)
    {s : Solver} (hr : SolverRun z sys ti (fun _ => false) s []) {r : Bool}
    (ha : (s.addConstraintStr z sys (negated b)).1 = .ok r) :
    (r = false ↔ ∀ entry, RuntimeEntry d entry → entry.action = none → reasonEntryViolatesConstraint entry ci' = .ok []) ∧
    (r = true ↔ ∃ entry m, RuntimeEntry d entry ∧ entry.action = none ∧
      reasonEntryViolatesConstraint entry ci' = .ok m ∧ m ≠ []) := by
  have hp : ∀ se, TableSays sys.inetPton6 d se → PlainOrder d se := fun se hse => (free_says hfree hse).elim
  have key : r = true ↔ ∃ entry m, RuntimeEntry d entry ∧ entry.action = none ∧
      reasonEntryViolatesConstraint entry ci' = .ok m ∧ m ≠ [] := by
    rw [C107_found_partial h h' hw hw' hv hl hti hz hp hp' hs hdec hr nofun ha]
    constructor
    · rintro ⟨entry, m, h1, _, h3, h4, h5⟩
      obtain ⟨m', g1, g2⟩ := stripped_reported h h' hw hw' hv hl hti hs hz hp' hfree hdec hr ha
        ((canonical_wellFormed h hv.here hti hr entry).2 h1) h3 ⟨m, h4, h5⟩
      exact ⟨{ entry with action := none }, m', ⟨h1.table, h1.fields, h1.once, h1.exact, h1.priority⟩, rfl, g2, g1⟩
    · rintro ⟨entry, m, h1, h2, h4, h5⟩
      exact ⟨entry, m, h1, nofun, (reason_accepts h hw).2 (free_accepted hv.here h1.table hfree h2), h4, h5⟩
  refine ⟨?_, key⟩
  rw [← Bool.not_eq_true, key]
  constructor
  · intro hn entry h1 h2
    refine Classical.byContradiction fun h3 => hn ?_
    rw [reason_accepts h' hw'] at h3
    obtain ⟨m, g1, g2, _⟩ := rejected_reported h h' hw' hv hl hti hs hz hp' hdec hr ha
      ((canonical_wellFormed h hv.here hti hr entry).2 h1) (free_accepted hv.here h1.table hfree h2) h3
    exact ⟨entry, m, h1, h2, g2, g1⟩
  · rintro hall ⟨entry, m, h1, h2, h3, h4⟩
    rw [hall entry h1 h2] at h3
    cases h3
    exact h4 rfl

end

/-! ### Examples -/

theorem Ex.notThree_ti : lookup Ex.notThree.preamble.id (Ex.symCi Ex.notThree).tables = some (Ex.symTi Ex.notThree) := by
  decide +kernel

def Ex.notThreeSe : SExpr := .cmp .ne (.field (.key c!"tern") c!"value") (.int 3)

theorem Ex.notThree_says (se : SExpr) : TableSays Ex.sys.inetPton6 Ex.notThree se ↔ se = Ex.notThreeSe :=
  Ex.sym_says (by decide +kernel) Ex.notThree_ci Ex.notThree_ti se

theorem Ex.notThree_plain (se : SExpr) (hse : TableSays Ex.sys.inetPton6 Ex.notThree se) : PlainOrder Ex.notThree se := by
  intro vs _
  cases (Ex.notThree_says _).1 hse
  simp [NoOrderedBits, Cmp.isOrder, Ex.notThreeSe]

theorem Ex.notThree_versions : Versions (Ex.symInfo (Ex.symDecl [])) (Ex.symInfo Ex.notThree) (Ex.symDecl []) Ex.notThree
    c!"tern::value != 3" :=
  Ex.sym_versions _ rfl (by decide +kernel) (by decide +kernel) Ex.notThree_closed

/-- An entry that violates this constraint. -/
def Ex.eThree : RtEntry := { tableId := 1, priority := 1, matches_ := [⟨1, .exact [0]⟩, ⟨2, .ternary [3] [255]⟩] }

theorem Ex.eThree_runtime (a : Str) : RuntimeEntry (Ex.symDecl a) Ex.eThree where
  table := rfl
  fields := by
    intro m hm
    simp only [Ex.eThree, List.mem_cons, List.not_mem_nil, or_false] at hm
    rcases hm with rfl | rfl
    · exact ⟨_, List.mem_cons_self, rfl, .exact _ _ ⟨by simp [CanonicalBytes], by decide +kernel⟩⟩
    · exact ⟨⟨2, c!"tern", 8, .matchType .ternary⟩, .tail _ (.head _), rfl, by
        refine .ternary _ _ ⟨by simp [CanonicalBytes], by decide +kernel⟩ ⟨by simp [CanonicalBytes], by decide +kernel⟩ ?_ ?_ <;>
          decide +kernel⟩
  once := by decide +kernel
  exact := by
    intro f hf hx
    simp only [Ex.symDecl, List.mem_cons, List.not_mem_nil, or_false] at hf
    rcases hf with rfl | rfl | rfl | rfl
    · exact ⟨_, List.mem_cons_self, rfl⟩
    all_goals cases hx
  priority := .inl ⟨⟨⟨2, c!"tern", 8, .matchType .ternary⟩, .tail _ (.head _), .inl rfl⟩, by decide, by decide⟩

/-- Every solver for the table without constraint that does not give up finds a violation of `tern::value != 3`. -/
example {z : Z3Oracle} (hz : z.Sound) (hdec : Z3Oracle.Decides z) :
    ∃ s, Solver.create z (Ex.symTi (Ex.symDecl [])) (fun _ => .ok false) = .ok s ∧
      (s.addConstraintStr z Ex.sys (negated c!"tern::value != 3")).1 = .ok true := by
  obtain ⟨s, hs⟩ := Ex.none_create hz hdec
  have hr : SolverRun z Ex.sys (Ex.symTi (Ex.symDecl [])) (fun _ => false) s [] := .create hs
  obtain ⟨r, ha⟩ := (C106_understood Ex.moved_ci Ex.notThree_ci Ex.notThree_versions Ex.moved_ti (Ex.sym_solvable _) hz hdec hr).2
    ⟨_, (Ex.notThree_says _).2 rfl, _, Ex.solve_keys, by simp [NamesIn, Ex.notThreeSe, Ex.solveKeys]⟩
  have hviol : reasonEntryViolatesConstraint Ex.eThree (Ex.symCi Ex.notThree) =
      .ok (Ex.get [] (reasonEntryViolatesConstraint Ex.eThree (Ex.symCi Ex.notThree))) := Ex.get_of_isOk (by decide +kernel)
  cases (C107_free_partial Ex.moved_ci Ex.notThree_ci ⟨by decide +kernel, by decide +kernel⟩ ⟨by decide +kernel, by decide +kernel⟩
    Ex.notThree_versions (by decide) Ex.moved_ti hz Ex.notThree_plain Ex.moved1.free (Ex.sym_solvable _) hdec hr ha).2.2
    ⟨Ex.eThree, _, Ex.eThree_runtime _, rfl, hviol, by decide +kernel⟩
  exact ⟨s, hs, ha⟩

def Ex.m1Three : Interp := Ex.model [(c!"ex", 5), (c!"tern", 3), (c!"tern_mask", 255), (c!"pre", 0xab00),
  (c!"pre_prefix_length", 8), (c!"opt", 3), (c!"opt_mask", 15), (c!"priority", 7)]

def Ex.solverThree : Solver :=
  Ex.get ⟨0, [], Ex.symTi (Ex.symDecl []), ⟨[], []⟩, Ex.noSkip⟩
    (Solver.create (constOracle Ex.m1Three) (Ex.symTi (Ex.symDecl [])) Ex.noSkip)

def Ex.solverThree' : Solver := (Ex.solverThree.addConstraintStr (constOracle Ex.m1Three) Ex.sys (negated c!"tern::value != 3")).2

/-- The entry that it returns is reported. -/
example : ∃ entry m, (Ex.solverThree'.concretize (constOracle Ex.m1Three)).1 = .ok entry ∧ RuntimeEntry (Ex.symDecl []) entry ∧
    m ≠ [] ∧ reasonEntryViolatesConstraint entry (Ex.symCi Ex.notThree) = .ok m ∧
    TableReport Ex.sys.inetPton6 Ex.notThree entry m := by
  have hc : Solver.create (constOracle Ex.m1Three) (Ex.symTi (Ex.symDecl [])) (fun _ => .ok false) = .ok Ex.solverThree :=
    Ex.get_of_isOk (by decide +kernel)
  have hr : SolverRun (constOracle Ex.m1Three) Ex.sys (Ex.symTi (Ex.symDecl [])) (fun _ => false) Ex.solverThree [] := .create hc
  have ha : Ex.solverThree.addConstraintStr (constOracle Ex.m1Three) Ex.sys (negated c!"tern::value != 3") =
    (.ok true, Ex.solverThree') := Ex.pair_of (by decide +kernel)
  have he : (Ex.solverThree'.concretize (constOracle Ex.m1Three)).1 = .ok { Ex.e1 with
      matches_ := [⟨1, .exact [5]⟩, ⟨4, .optional [3]⟩, ⟨3, .lpm [0xab, 0] 8⟩, ⟨2, .ternary [3] [255]⟩] } := by
    decide +kernel
  obtain ⟨h1, _, _, m, h2, h3, h4⟩ := C107_entry_partial Ex.moved_ci Ex.notThree_ci ⟨by decide +kernel, by decide +kernel⟩
    ⟨by decide +kernel, by decide +kernel⟩ Ex.notThree_versions (by decide) Ex.moved_ti (constOracle_sound _)
    (fun se hse => (free_says Ex.moved1.free hse).elim) Ex.notThree_plain (Ex.sym_solvable _) hr nofun ha (Ex.pair_of he)
  exact ⟨_, m, he, h1, h2, h3, h4⟩

def Ex.solverThreeOpt : Solver :=
  Ex.get ⟨0, [], Ex.symTi (Ex.symDecl []), ⟨[], []⟩, Ex.noSkip⟩
    (Solver.create (constOracle Ex.m1Three) (Ex.symTi (Ex.symDecl [])) fun n => .ok (Ex.skipsOpt n))

/-- The same for a solver that skips the key `opt`. -/
example : ∃ entry m, ((Ex.solverThreeOpt.addConstraintStr (constOracle Ex.m1Three) Ex.sys (negated c!"tern::value != 3")).2.concretize
      (constOracle Ex.m1Three)).1 = .ok entry ∧ CanonicalFor (Ex.symDecl []) Ex.skipsOpt entry ∧
    m ≠ [] ∧ reasonEntryViolatesConstraint entry (Ex.symCi Ex.notThree) = .ok m := by
  have hc : Solver.create (constOracle Ex.m1Three) (Ex.symTi (Ex.symDecl [])) (fun n => .ok (Ex.skipsOpt n)) = .ok Ex.solverThreeOpt :=
    Ex.get_of_isOk (by decide +kernel)
  have hr : SolverRun (constOracle Ex.m1Three) Ex.sys (Ex.symTi (Ex.symDecl [])) Ex.skipsOpt Ex.solverThreeOpt [] := .create hc
  have ha : (Ex.solverThreeOpt.addConstraintStr (constOracle Ex.m1Three) Ex.sys (negated c!"tern::value != 3")).1 = .ok true := by
    decide +kernel
  have he : ((Ex.solverThreeOpt.addConstraintStr (constOracle Ex.m1Three) Ex.sys (negated c!"tern::value != 3")).2.concretize
      (constOracle Ex.m1Three)).1 =
      .ok { Ex.e1 with matches_ := [⟨1, .exact [5]⟩, ⟨3, .lpm [0xab, 0] 8⟩, ⟨2, .ternary [3] [255]⟩] } := by
    decide +kernel
  obtain ⟨h1, _, _, m, h2, h3, _⟩ := C107_entry_skipping_partial Ex.moved_ci Ex.notThree_ci ⟨by decide +kernel, by decide +kernel⟩
    ⟨by decide +kernel, by decide +kernel⟩ Ex.notThree_versions (by decide) Ex.moved_ti (constOracle_sound _)
    (fun se hse => (free_says Ex.moved1.free hse).elim) Ex.notThree_plain (Ex.sym_solvable_opt _) hr nofun (Ex.pair_of ha)
    (Ex.pair_of he)
  exact ⟨_, m, he, h1, h2, h3⟩

/-- C107 fails as stated (1): for constraints that order bit strings, the entry may be one that the checker accepts. -/
theorem C107_fails_order : ∃ (z : Z3Oracle) (sys : Sys) (p p' : P4Info) (ci ci' : ConstraintInfo) (d d' : TableDecl) (b : Str)
    (ti : TableInfo) (s s' s'' : Solver) (entry : RtEntry), z.Sound ∧ p4ToConstraintInfo sys p = .ok ci ∧
    p4ToConstraintInfo sys p' = .ok ci' ∧ NonNegProgram p ∧ NonNegProgram p' ∧ Versions p p' d d' b ∧ ('\n' ∉ b ∧ '\r' ∉ b) ∧
    Attached .table d.preamble none ∧ lookup d.preamble.id ci.tables = some ti ∧ Solvable d (fun _ => false) ∧
    SolverRun z sys ti (fun _ => false) s [] ∧ s.addConstraintStr z sys (negated b) = (.ok true, s') ∧
    s'.concretize z = (.ok entry, s'') ∧ reasonEntryViolatesConstraint entry ci' = .ok [] := by
  have hc : Solver.create (constOracle Ex.m2) (Ex.symTi (Ex.symDecl [])) (fun _ => .ok false) = .ok Ex.solverAny :=
    Ex.get_of_isOk (by decide +kernel)
  have hr : SolverRun (constOracle Ex.m2) Ex.sys (Ex.symTi (Ex.symDecl [])) (fun _ => false) Ex.solverAny [] := .create hc
  have ha : Ex.solverAny.addConstraintStr (constOracle Ex.m2) Ex.sys (negated c!"tern::value >= 0") = (.ok true, Ex.solverAny') :=
    Ex.pair_of (by decide +kernel)
  have he : Ex.solverAny'.concretize (constOracle Ex.m2) = (.ok Ex.e2, (Ex.solverAny'.concretize (constOracle Ex.m2)).2) :=
    Ex.pair_of (by decide +kernel)
  exact ⟨constOracle Ex.m2, Ex.sys, _, _, _, _, _, _, _, _, _, _, _, Ex.e2, constOracle_sound _, Ex.moved_ci, Ex.above_ci,
    ⟨by decide +kernel, by decide +kernel⟩, ⟨by decide +kernel, by decide +kernel⟩, Ex.above_versions, by decide, Ex.moved1.free,
    Ex.moved_ti, Ex.sym_solvable _, hr, ha, he, by decide +kernel⟩

def Ex.brokenText : Str := c!"ex\n== 6"

def Ex.broken : TableDecl := Ex.symDecl Ex.brokenText

theorem Ex.broken_ci : p4ToConstraintInfo Ex.sys (Ex.symInfo Ex.broken) = .ok (Ex.symCi Ex.broken) := Ex.get_of_isOk (by decide +kernel)

theorem Ex.broken_ti : lookup Ex.broken.preamble.id (Ex.symCi Ex.broken).tables = some (Ex.symTi Ex.broken) := by decide +kernel

def Ex.brokenSe : SExpr := .cmp .eq (.key c!"ex") (.int 6)

theorem Ex.broken_says (se : SExpr) : TableSays Ex.sys.inetPton6 Ex.broken se ↔ se = Ex.brokenSe :=
  Ex.sym_says (by decide +kernel) Ex.broken_ci Ex.broken_ti se

theorem Ex.broken_versions : Versions (Ex.symInfo (Ex.symDecl [])) (Ex.symInfo Ex.broken) (Ex.symDecl []) Ex.broken Ex.brokenText :=
  Ex.sym_versions _ rfl (by decide +kernel) (by decide +kernel) (Ex.sym_closed (by decide +kernel) (by decide +kernel))

def Ex.solverNone' : Solver := (Ex.solverNone.addConstraintStr (constOracle Ex.m1) Ex.sys (negated Ex.brokenText)).2

/-- C107 fails as stated (2): for constraints on several lines, the checker may crash when it is given the entry. -/
theorem C107_fails_crash : ∃ (z : Z3Oracle) (sys : Sys) (p p' : P4Info) (ci ci' : ConstraintInfo) (d d' : TableDecl) (b : Str)
    (ti : TableInfo) (s s' s'' : Solver) (entry : RtEntry), z.Sound ∧ p4ToConstraintInfo sys p = .ok ci ∧
    p4ToConstraintInfo sys p' = .ok ci' ∧ NonNegProgram p ∧ NonNegProgram p' ∧ Versions p p' d d' b ∧
    (∀ se, TableSays sys.inetPton6 d' se → PlainOrder d' se) ∧
    Attached .table d.preamble none ∧ lookup d.preamble.id ci.tables = some ti ∧ Solvable d (fun _ => false) ∧
    SolverRun z sys ti (fun _ => false) s [] ∧ s.addConstraintStr z sys (negated b) = (.ok true, s') ∧
    s'.concretize z = (.ok entry, s'') ∧ reasonEntryViolatesConstraint entry ci' = .crash := by
  have hc : Solver.create (constOracle Ex.m1) (Ex.symTi (Ex.symDecl [])) (fun _ => .ok false) = .ok Ex.solverNone :=
    Ex.get_of_isOk (by decide +kernel)
  have hr : SolverRun (constOracle Ex.m1) Ex.sys (Ex.symTi (Ex.symDecl [])) (fun _ => false) Ex.solverNone [] := .create hc
  have ha : Ex.solverNone.addConstraintStr (constOracle Ex.m1) Ex.sys (negated Ex.brokenText) = (.ok true, Ex.solverNone') :=
    Ex.pair_of (by decide +kernel)
  have he : Ex.solverNone'.concretize (constOracle Ex.m1) = (.ok Ex.e1, (Ex.solverNone'.concretize (constOracle Ex.m1)).2) :=
    Ex.pair_of (by decide +kernel)
  exact ⟨constOracle Ex.m1, Ex.sys, _, _, _, _, _, _, _, _, _, _, _, Ex.e1, constOracle_sound _, Ex.moved_ci, Ex.broken_ci,
    ⟨by decide +kernel, by decide +kernel⟩, ⟨by decide +kernel, by decide +kernel⟩, Ex.broken_versions, fun se hse vs _ => by
      cases (Ex.broken_says _).1 hse
      simp [NoOrderedBits, Cmp.isOrder, Ex.brokenSe], Ex.moved1.free,
    Ex.moved_ti, Ex.sym_solvable _, hr, ha, he, by decide +kernel⟩

end P4C
