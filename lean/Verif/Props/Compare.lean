import Verif.Spec.Compare
import Verif.Proofs.Compare
import Verif.Props.Solve
import Verif.Props.Enumerate
import Verif.Props.Moved
import Verif.Props.Compose

/-
C106: two versions of a constraint can be compared by means of a constraint solver.
-/

namespace P4C

open Spec

section
variable {sys : Sys} {p p' : P4Info} {ci ci' : ConstraintInfo} (h : p4ToConstraintInfo sys p = .ok ci)
  (h' : p4ToConstraintInfo sys p' = .ok ci') (hw : NonNegProgram p) (hw' : NonNegProgram p') {d d' : TableDecl} {b : Str}
  (hv : Versions p p' d d' b) {ti : TableInfo} (hti : lookup d.preamble.id ci.tables = some ti)
  (hs : Solvable d fun _ => false) {z : Z3Oracle} (hz : z.Sound)
  (hp : ∀ se, TableSays sys.inetPton6 d se → PlainOrder d se) (hp' : ∀ se, TableSays sys.inetPton6 d' se → PlainOrder d' se)

include h h' hv hti hs hz in
/-- C106, the question is understood: if the other constraint is of boolean type and mentions the priority only if entries of
the table have one. -/
theorem C106_understood (hdec : Z3Oracle.Decides z) {s : Solver} {texts : List Str}
    (hr : SolverRun z sys ti (fun _ => false) s texts) :
    (∃ r, (s.addConstraintStr z sys (negated b)).1 = .ok r) ↔
      ∃ se, TableSays sys.inetPton6 d' se ∧ Mentionable d (fun _ => false) se :=
  compare_understood h h' hv.here hv.there hv.same hti hv.text hv.closed hs hz hdec hr

include h h' hw hw' hv hti hs hz hp hp' in
/-- C106, the answer: the negation of the other constraint is refused if and only if every well-formed entry that satisfies the
texts added and is accepted by the program is accepted by the other program, too. Missing: constraints that order bit strings
(see `C106_fails`). -/
theorem C106_answer_partial (hdec : Z3Oracle.Decides z) {s : Solver} {texts : List Str}
    (hr : SolverRun z sys ti (fun _ => false) s texts)
    (hpt : ∀ t ∈ texts, ∀ se, TextSays sys.inetPton6 d t se → PlainOrder d se) {r : Bool}
    (ha : (s.addConstraintStr z sys (negated b)).1 = .ok r) :
    r = false ↔ ∀ entry, RuntimeEntry d entry → (∀ t ∈ texts, TextHolds sys.inetPton6 d t entry) →
      reasonEntryViolatesConstraint entry ci = .ok [] → reasonEntryViolatesConstraint entry ci' = .ok [] := by
  rw [compare_canonical h h' hv.here hv.there hv.same hv.actions hti hv.text hv.closed hw hw' hs hz hp hp' hdec hr hpt ha]
  simp only [canonical_wellFormed h hv.here hti hr]

include h h' hw hw' hv hti hs hz hp hp' in
/-- C106, the evidence: if it is accepted, then the solver returns an entry that the one program accepts and the other one does
not. Missing: constraints that order bit strings (see `C106_fails_evidence`). -/
theorem C106_evidence_partial {s s' s'' : Solver} {texts : List Str} {entry : RtEntry}
    (hr : SolverRun z sys ti (fun _ => false) s texts)
    (hpt : ∀ t ∈ texts, ∀ se, TextSays sys.inetPton6 d t se → PlainOrder d se)
    (ha : s.addConstraintStr z sys (negated b) = (.ok true, s')) (hc : s'.concretize z = (.ok entry, s'')) :
    RuntimeEntry d entry ∧ (∀ t ∈ texts, TextHolds sys.inetPton6 d t entry) ∧
      reasonEntryViolatesConstraint entry ci = .ok [] ∧ reasonEntryViolatesConstraint entry ci' ≠ .ok [] := by
  rw [← canonical_wellFormed h hv.here hti hr]
  exact compare_witness h h' hv.here hv.there hv.same hti hv.text hv.closed hw hw' hs hz hp hp' hr hpt ha hc

end

section
variable {sys : Sys} {p p' : P4Info} {ci ci' : ConstraintInfo} (h : p4ToConstraintInfo sys p = .ok ci)
  (h' : p4ToConstraintInfo sys p' = .ok ci') {d d' : TableDecl} {b : Str} (hv : Versions p p' d d' b) {ti : TableInfo}
  (hti : lookup d.preamble.id ci.tables = some ti) {skip : Str → Bool} (hs : Solvable d skip) {z : Z3Oracle} (hz : z.Sound)

include h h' hv hti hs hz in
/-- C106, the question is understood by a solver that skips keys if the other constraint does not mention these. -/
theorem C106_understood_skipping (hdec : Z3Oracle.Decides z) {s : Solver} {texts : List Str} (hr : SolverRun z sys ti skip s texts) :
    (∃ r, (s.addConstraintStr z sys (negated b)).1 = .ok r) ↔ ∃ se, TableSays sys.inetPton6 d' se ∧ Mentionable d skip se :=
  compare_understood h h' hv.here hv.there hv.same hti hv.text hv.closed hs hz hdec hr

include h h' hv hti hs hz in
/-- C106, the answer for a solver that skips keys: it is about entries without these. Missing: constraints that order bit
strings (see `C106_fails`). -/
theorem C106_answer_skipping_partial (hw : NonNegProgram p) (hw' : NonNegProgram p')
    (hp : ∀ se, TableSays sys.inetPton6 d se → PlainOrder d se) (hp' : ∀ se, TableSays sys.inetPton6 d' se → PlainOrder d' se)
    (hdec : Z3Oracle.Decides z) {s : Solver} {texts : List Str} (hr : SolverRun z sys ti skip s texts)
    (hpt : ∀ t ∈ texts, ∀ se, TextSays sys.inetPton6 d t se → PlainOrder d se) {r : Bool}
    (ha : (s.addConstraintStr z sys (negated b)).1 = .ok r) :
    r = false ↔ ∀ entry, CanonicalFor d skip entry → (∀ t ∈ texts, TextHolds sys.inetPton6 d t entry) →
      reasonEntryViolatesConstraint entry ci = .ok [] → reasonEntryViolatesConstraint entry ci' = .ok [] :=
  compare_canonical h h' hv.here hv.there hv.same hv.actions hti hv.text hv.closed hw hw' hs hz hp hp' hdec hr hpt ha

include h h' hv hti hs hz in
/-- C106, exactly what the answer says for any constraints: every entry that satisfies the constraint of the table and the texts
added satisfies the other constraint, if ordered comparisons of bit strings are about two's complement numbers. -/
theorem C106_answer_exact (hdec : Z3Oracle.Decides z) {s : Solver} {texts : List Str} (hr : SolverRun z sys ti skip s texts) {r : Bool}
    (ha : (s.addConstraintStr z sys (negated b)).1 = .ok r) :
    r = false ↔ ∀ entry, SignedSolution sys.inetPton6 d skip texts entry →
      ∃ se, TableSays sys.inetPton6 d' se ∧ SignedTrueOf d' entry se :=
  compare_signed h h' hv.here hv.there hv.same hti hv.text hv.closed hs hz hdec hr ha

include h h' hv hti hs hz in
/-- C106, exactly what the entry returned says for any constraints. -/
theorem C106_evidence_exact {s s' s'' : Solver} {texts : List Str} {entry : RtEntry} (hr : SolverRun z sys ti skip s texts)
    (ha : s.addConstraintStr z sys (negated b) = (.ok true, s')) (hc : s'.concretize z = (.ok entry, s'')) :
    SignedSolution sys.inetPton6 d skip texts entry ∧ ¬ ∃ se, TableSays sys.inetPton6 d' se ∧ SignedTrueOf d' entry se :=
  witness_signed h h' hv.here hv.there hv.same hti hv.text hv.closed hs hz hr ha hc

end

/-- C106, equivalence: two constraints accept the same entries if and only if solvers for either refuse the negation of the
other. -/
theorem C106_equivalent_partial {sys : Sys} {p p' : P4Info} {ci ci' : ConstraintInfo} (h : p4ToConstraintInfo sys p = .ok ci)
    (h' : p4ToConstraintInfo sys p' = .ok ci') (hw : NonNegProgram p) (hw' : NonNegProgram p') {d d' : TableDecl} {a b : Str}
    (hv : Versions p p' d d' b) (hv' : Versions p' p d' d a) {ti ti' : TableInfo}
    (hti : lookup d.preamble.id ci.tables = some ti) (hti' : lookup d'.preamble.id ci'.tables = some ti')
    (hs : Solvable d fun _ => false) {z z' : Z3Oracle} (hz : z.Sound) (hz' : z'.Sound) (hdec : Z3Oracle.Decides z)
    (hdec' : Z3Oracle.Decides z') (hp : ∀ se, TableSays sys.inetPton6 d se → PlainOrder d se)
    (hp' : ∀ se, TableSays sys.inetPton6 d' se → PlainOrder d' se) {s s' : Solver} {r r' : Bool}
    (hr : SolverRun z sys ti (fun _ => false) s []) (hr' : SolverRun z' sys ti' (fun _ => false) s' [])
    (ha : (s.addConstraintStr z sys (negated b)).1 = .ok r) (ha' : (s'.addConstraintStr z' sys (negated a)).1 = .ok r') :
    (r = false ∧ r' = false) ↔ ∀ entry, RuntimeEntry d entry →
      (reasonEntryViolatesConstraint entry ci = .ok [] ↔ reasonEntryViolatesConstraint entry ci' = .ok []) := by
  rw [C106_answer_partial h h' hw hw' hv hti hs hz hp hp' hdec hr nofun ha,
    C106_answer_partial h' h hw' hw hv' hti' (solvable_congr hv.same.keys hs) hz' hp' hp hdec' hr' nofun ha']
  have hsame : ∀ entry, RuntimeEntry d' entry ↔ RuntimeEntry d entry := by
    intro entry
    have hn : NeedsPriority d' ↔ NeedsPriority d := by unfold NeedsPriority; rw [hv.same.keys]
    constructor
    · rintro ⟨h1, h2, h3, h4, h5⟩
      rw [hn] at h5
      rw [← hv.same.keys] at h2 h4
      exact ⟨h1.trans hv.same.ids.symm, h2, h3, h4, h5⟩
    · rintro ⟨h1, h2, h3, h4, h5⟩
      rw [← hn] at h5
      rw [hv.same.keys] at h2 h4
      exact ⟨h1.trans hv.same.ids, h2, h3, h4, h5⟩
  constructor
  · rintro ⟨h1, h2⟩ entry he
    exact ⟨h1 entry he nofun, h2 entry ((hsame entry).2 he) nofun⟩
  · intro h1
    exact ⟨fun entry he _ => (h1 entry he).1, fun entry he _ => (h1 entry ((hsame entry).1 he)).2⟩

/-! ### Examples -/

theorem Ex.pair_of {α β : Type} {x : α × β} {a : α} (h : x.1 = a) : x = (a, x.2) := by cases h; rfl

theorem Ex.sym_versions (a : Str) {b : Str} (h1 : Ex.symDecl b = tableWith (Ex.symDecl []) b) (h2 : ¬ '"' ∈ b) (h3 : ¬ '\x00' ∈ b)
    (h4 : Closed b) : Versions (Ex.symInfo (Ex.symDecl a)) (Ex.symInfo (Ex.symDecl b)) (Ex.symDecl a) (Ex.symDecl b) b where
  here := List.mem_singleton.2 rfl
  there := List.mem_singleton.2 rfl
  same := ⟨rfl, rfl⟩
  actions := rfl
  text := by
    rw [h1]
    exact restricted_attached (fun _ h => by cases h) h2 h3
  closed := h4

theorem Ex.sym_closed {b : Str} (h : Ex.isOk (parseConstraint Ex.sys .table ⟨b, { src := .tableName [] }⟩) = true)
    (h' : ((List.range (List.length b + 1)).all fun n => !List.isPrefixOf c!"/*" (List.drop n b)) = true) : Closed b :=
  parsed_closed (Ex.get_of_isOk (d := .boolConst {} true) h) (Ex.notInfix h')

theorem Ex.sym_says {d : TableDecl} {s : SExpr} (hok : Ex.symOk d s = true)
    (hci : p4ToConstraintInfo Ex.sys (Ex.symInfo d) = .ok (Ex.symCi d))
    (hti : lookup d.preamble.id (Ex.symCi d).tables = some (Ex.symTi d)) (se : SExpr) :
    TableSays Ex.sys.inetPton6 d se ↔ se = s := by
  obtain ⟨_, _, hc, hch, hb⟩ := Ex.sym_of_ok hok
  obtain ⟨vs', e', se', r⟩ := table_read (declared_parse hci (List.mem_singleton.2 rfl) hti) hc
  have hse := checked_unique hch ⟨_, e', r.typed, r.meant⟩
  constructor
  · rintro ⟨vs, src, e, hk, hread⟩
    cases keys_same hk r.keys
    have hu := readConstraint_unique r.read hread
    simp only [Option.some.injEq, Prod.mk.injEq] at hu
    obtain ⟨rfl, rfl, rfl, _⟩ := hu
    exact hse.symm
  · rintro rfl
    have := r.read
    rw [hb, ← hse] at this
    exact ⟨_, _, _, r.keys, this⟩

theorem Ex.sym_supported (a : Str) : AllSupported (Ex.symDecl a) fun _ => false := by
  intro vs hk
  cases keys_same hk (show Each KeyDecl (Ex.symDecl a).matchFields Ex.solveKeys from Ex.solve_keys)
  intro ki hki
  right
  simp only [Ex.solveKeys, List.mem_cons, List.not_mem_nil, or_false] at hki
  rcases hki with rfl | rfl | rfl | rfl
  · exact .exact (by decide)
  · exact .ternary (by decide)
  · exact .lpm (by decide)
  · exact .optional (by decide)

theorem Ex.sym_solvable (a : Str) : Solvable (Ex.symDecl a) fun _ => false := solvable_congr (a := Ex.d1) (d := Ex.symDecl a) rfl Ex.solvable1

/-- The constraint of `Ex.d1` and a further one. -/
def Ex.bothText : Str := joined .and Ex.sc1 Ex.solveText

def Ex.both : TableDecl := Ex.symDecl Ex.bothText

theorem Ex.both_ci : p4ToConstraintInfo Ex.sys (Ex.symInfo Ex.both) = .ok (Ex.symCi Ex.both) := Ex.get_of_isOk (by decide +kernel)

theorem Ex.both_ti : lookup Ex.both.preamble.id (Ex.symCi Ex.both).tables = some (Ex.symTi Ex.both) := by decide +kernel

theorem Ex.both_says {se : SExpr} (h : TableSays Ex.sys.inetPton6 Ex.both se) : se = .conn .and Ex.s1 Ex.solveSe :=
  (Ex.sym_says (by decide +kernel) Ex.both_ci Ex.both_ti _).1 h

theorem Ex.both_plain : ∀ se, TableSays Ex.sys.inetPton6 Ex.both se → PlainOrder Ex.both se := by
  rintro se hse vs hk
  cases Ex.both_says hse
  cases keys_same hk (show Each KeyDecl Ex.both.matchFields Ex.solveKeys from Ex.solve_keys)
  obtain ⟨vs', hk', _, hmaps, _⟩ := parseTableInfo_parts
    (declared_parse Ex.solve_ci (List.mem_singleton.2 rfl) Ex.solve_ti)
  cases keys_same hk' Ex.solve_keys
  exact ⟨by rw [← sig_keys hmaps]; exact Ex.noOrderedBits1, by simp [NoOrderedBits, Cmp.isOrder, Ex.solveSe]⟩

def Ex.extra : TableDecl := Ex.symDecl Ex.solveText

theorem Ex.extra_ci : p4ToConstraintInfo Ex.sys (Ex.symInfo Ex.extra) = .ok (Ex.symCi Ex.extra) := Ex.get_of_isOk (by decide +kernel)

theorem Ex.extra_versions : Versions (Ex.symInfo Ex.d1) (Ex.symInfo Ex.extra) Ex.d1 Ex.extra Ex.solveText :=
  Ex.sym_versions _ rfl (by decide +kernel) (by decide +kernel) Ex.solve_closed

theorem Ex.sc1_closed : Closed Ex.sc1 := Ex.sym_closed (by decide +kernel) (by decide +kernel)

theorem Ex.bothText_closed : Closed Ex.bothText := Ex.sym_closed (by decide +kernel) (by decide +kernel)

def Ex.solverBoth : Solver :=
  Ex.get ⟨0, [], Ex.symTi Ex.both, ⟨[], []⟩, Ex.noSkip⟩ (Solver.create (constOracle Ex.m1) (Ex.symTi Ex.both) Ex.noSkip)

theorem Ex.both_create {z : Z3Oracle} (hz : z.Sound) (hdec : Z3Oracle.Decides z) :
    ∃ s, Solver.create z (Ex.symTi Ex.both) (fun _ => .ok false) = .ok s := by
  have hc : Solver.create (constOracle Ex.m1) (Ex.symTi Ex.both) (fun _ => .ok false) = .ok Ex.solverBoth :=
    Ex.get_of_isOk (by decide +kernel)
  have hd : Ex.both ∈ (Ex.symInfo Ex.both).tables := List.mem_singleton.2 rfl
  have he : Ex.solverBoth.concretize (constOracle Ex.m1) = (.ok Ex.e1, (Ex.solverBoth.concretize (constOracle Ex.m1)).2) :=
    Ex.pair_of (by decide +kernel)
  refine (signed_create_solves Ex.both_ci hd Ex.both_ti (Ex.sym_solvable _) hz hdec).2
    ⟨Ex.sym_supported _, fun se hse => ?_, Ex.e1, (C72_entry_exact Ex.both_ci hd Ex.both_ti
      (Ex.sym_solvable _) (constOracle_sound _) (.create hc) he).1⟩
  cases Ex.both_says hse
  refine ⟨_, Ex.solve_keys, ?_⟩
  simp [NamesIn, Ex.s1, Ex.solveSe, Ex.solveKeys]
  exact ⟨⟨2, c!"tern", .ternary 8⟩, by decide, 8, .inl rfl⟩

theorem Ex.both_nonNeg : NonNegProgram (Ex.symInfo Ex.both) := ⟨by decide +kernel, by decide +kernel⟩

theorem Ex.both_versions : Versions (Ex.symInfo Ex.both) (Ex.symInfo Ex.d1) Ex.both Ex.d1 Ex.sc1 :=
  Ex.sym_versions _ rfl (by decide +kernel) (by decide +kernel) Ex.sc1_closed

theorem Ex.both_versions' : Versions (Ex.symInfo Ex.d1) (Ex.symInfo Ex.both) Ex.d1 Ex.both Ex.bothText :=
  Ex.sym_versions _ rfl (by decide +kernel) (by decide +kernel) Ex.bothText_closed

/-- A solver for a stronger constraint refuses the negation of the weaker one, because every entry accepted with the former is
accepted with the latter. -/
example {z : Z3Oracle} (hz : z.Sound) (hdec : Z3Oracle.Decides z) :
    ∃ s, Solver.create z (Ex.symTi Ex.both) (fun _ => .ok false) = .ok s ∧
      (s.addConstraintStr z Ex.sys (negated Ex.sc1)).1 = .ok false := by
  obtain ⟨s, hs⟩ := Ex.both_create hz hdec
  have hr : SolverRun z Ex.sys (Ex.symTi Ex.both) (fun _ => false) s [] := .create hs
  have hse := (Ex.sym_says Ex.d1_ok Ex.solve_ci Ex.solve_ti _).2 rfl
  obtain ⟨r, ha⟩ := (C106_understood Ex.both_ci Ex.solve_ci Ex.both_versions Ex.both_ti (Ex.sym_solvable _) hz hdec hr).2
    ⟨_, hse, _, Ex.solve_keys, by
      simp [NamesIn, Ex.s1, Ex.solveKeys]
      exact ⟨⟨2, c!"tern", .ternary 8⟩, by decide, 8, .inl rfl⟩⟩
  cases (C106_answer_partial Ex.both_ci Ex.solve_ci Ex.both_nonNeg Ex.solve_nonNeg Ex.both_versions Ex.both_ti (Ex.sym_solvable _)
    hz Ex.both_plain Ex.solve_plain hdec hr nofun ha).2 fun entry _ _ he =>
      ((C66_and Ex.both_nonNeg Ex.solve_ci Ex.extra_ci Ex.both_ci entry ⟨⟨rfl, rfl⟩, ⟨rfl, rfl⟩, _, _, Ex.both_versions.text,
        Ex.extra_versions.text, Ex.both_versions'.text, Ex.sc1_closed, Ex.solve_closed⟩).1 he).1
  exact ⟨s, hs, ha⟩

/-- A model of the weaker constraint and not of the stronger one. -/
def Ex.m1Weak : Interp := Ex.model [(c!"ex", 5), (c!"tern", 16), (c!"tern_mask", 255), (c!"pre", 0xab00),
  (c!"pre_prefix_length", 8), (c!"opt", 3), (c!"opt_mask", 15), (c!"priority", 7)]

def Ex.solverWeak : Solver :=
  Ex.get ⟨0, [], Ex.symTi Ex.d1, ⟨[], []⟩, Ex.noSkip⟩ (Solver.create (constOracle Ex.m1Weak) (Ex.symTi Ex.d1) Ex.noSkip)

def Ex.solverWeak' : Solver := (Ex.solverWeak.addConstraintStr (constOracle Ex.m1Weak) Ex.sys (negated Ex.bothText)).2

/-- A solver for the weaker one accepts the negation of the stronger one, and the entry it returns makes a difference. -/
example : ∃ entry, SolverRun (constOracle Ex.m1Weak) Ex.sys (Ex.symTi Ex.d1) (fun _ => false) Ex.solverWeak [] ∧
      (Ex.solverWeak'.concretize (constOracle Ex.m1Weak)).1 = .ok entry ∧ RuntimeEntry Ex.d1 entry ∧
      reasonEntryViolatesConstraint entry (Ex.symCi Ex.d1) = .ok [] ∧
      reasonEntryViolatesConstraint entry (Ex.symCi Ex.both) ≠ .ok [] := by
  have hc : Solver.create (constOracle Ex.m1Weak) (Ex.symTi Ex.d1) (fun _ => .ok false) = .ok Ex.solverWeak :=
    Ex.get_of_isOk (by decide +kernel)
  have hr : SolverRun (constOracle Ex.m1Weak) Ex.sys (Ex.symTi Ex.d1) (fun _ => false) Ex.solverWeak [] := .create hc
  have ha : Ex.solverWeak.addConstraintStr (constOracle Ex.m1Weak) Ex.sys (negated Ex.bothText) = (.ok true, Ex.solverWeak') :=
    Ex.pair_of (by decide +kernel)
  have he : (Ex.solverWeak'.concretize (constOracle Ex.m1Weak)).1 = .ok { Ex.e1 with
      matches_ := [⟨1, .exact [5]⟩, ⟨4, .optional [3]⟩, ⟨3, .lpm [0xab, 0] 8⟩, ⟨2, .ternary [16] [255]⟩] } := by
    decide +kernel
  obtain ⟨h1, _, h2, h3⟩ := C106_evidence_partial Ex.solve_ci Ex.both_ci Ex.solve_nonNeg Ex.both_nonNeg Ex.both_versions' Ex.solve_ti
    Ex.solvable1 (constOracle_sound _) Ex.solve_plain Ex.both_plain hr nofun ha (Ex.pair_of he)
  exact ⟨_, hr, he, h1, h2, h3⟩

/-- The two constraints of `Ex.both` the other way round. -/
def Ex.swapText : Str := joined .and Ex.solveText Ex.sc1

def Ex.swap : TableDecl := Ex.symDecl Ex.swapText

theorem Ex.swap_ci : p4ToConstraintInfo Ex.sys (Ex.symInfo Ex.swap) = .ok (Ex.symCi Ex.swap) := Ex.get_of_isOk (by decide +kernel)

theorem Ex.swap_ti : lookup Ex.swap.preamble.id (Ex.symCi Ex.swap).tables = some (Ex.symTi Ex.swap) := by decide +kernel

theorem Ex.swap_says (se : SExpr) : TableSays Ex.sys.inetPton6 Ex.swap se ↔ se = .conn .and Ex.solveSe Ex.s1 :=
  Ex.sym_says (by decide +kernel) Ex.swap_ci Ex.swap_ti _

theorem Ex.swap_plain : ∀ se, TableSays Ex.sys.inetPton6 Ex.swap se → PlainOrder Ex.swap se := by
  rintro se hse vs hk
  cases (Ex.swap_says _).1 hse
  obtain ⟨h1, h2⟩ := Ex.both_plain (.conn .and Ex.s1 Ex.solveSe)
    ((Ex.sym_says (by decide +kernel) Ex.both_ci Ex.both_ti _).2 rfl) vs hk
  exact ⟨h2, h1⟩

theorem Ex.swap_mentionable (a : Str) : Mentionable (Ex.symDecl a) (fun _ => false) (.conn .and Ex.solveSe Ex.s1) := by
  refine ⟨_, Ex.solve_keys, ?_⟩
  simp [NamesIn, Ex.s1, Ex.solveSe, Ex.solveKeys]
  exact ⟨⟨2, c!"tern", .ternary 8⟩, by decide, 8, .inl rfl⟩

theorem Ex.both_mentionable (a : Str) : Mentionable (Ex.symDecl a) (fun _ => false) (.conn .and Ex.s1 Ex.solveSe) := by
  obtain ⟨vs, hk, h1, h2⟩ := Ex.swap_mentionable a
  exact ⟨vs, hk, h2, h1⟩

theorem Ex.swapText_closed : Closed Ex.swapText := Ex.sym_closed (by decide +kernel) (by decide +kernel)

theorem Ex.swap_nonNeg : NonNegProgram (Ex.symInfo Ex.swap) := ⟨by decide +kernel, by decide +kernel⟩

theorem Ex.swap_versions : Versions (Ex.symInfo Ex.both) (Ex.symInfo Ex.swap) Ex.both Ex.swap Ex.swapText :=
  Ex.sym_versions _ rfl (by decide +kernel) (by decide +kernel) Ex.swapText_closed

theorem Ex.swap_versions' : Versions (Ex.symInfo Ex.swap) (Ex.symInfo Ex.both) Ex.swap Ex.both Ex.bothText :=
  Ex.sym_versions _ rfl (by decide +kernel) (by decide +kernel) Ex.bothText_closed

def Ex.solverSwap : Solver :=
  Ex.get ⟨0, [], Ex.symTi Ex.swap, ⟨[], []⟩, Ex.noSkip⟩ (Solver.create (constOracle Ex.m1) (Ex.symTi Ex.swap) Ex.noSkip)

theorem Ex.swap_create {z : Z3Oracle} (hz : z.Sound) (hdec : Z3Oracle.Decides z) :
    ∃ s, Solver.create z (Ex.symTi Ex.swap) (fun _ => .ok false) = .ok s := by
  have hc : Solver.create (constOracle Ex.m1) (Ex.symTi Ex.swap) (fun _ => .ok false) = .ok Ex.solverSwap :=
    Ex.get_of_isOk (by decide +kernel)
  have hd : Ex.swap ∈ (Ex.symInfo Ex.swap).tables := List.mem_singleton.2 rfl
  have he : Ex.solverSwap.concretize (constOracle Ex.m1) = (.ok Ex.e1, (Ex.solverSwap.concretize (constOracle Ex.m1)).2) :=
    Ex.pair_of (by decide +kernel)
  refine (signed_create_solves Ex.swap_ci hd Ex.swap_ti (Ex.sym_solvable _) hz hdec).2
    ⟨Ex.sym_supported _, fun se hse => ?_, Ex.e1, (C72_entry_exact Ex.swap_ci hd Ex.swap_ti
      (Ex.sym_solvable _) (constOracle_sound _) (.create hc) he).1⟩
  cases (Ex.swap_says _).1 hse
  exact Ex.swap_mentionable _

theorem Ex.swap_same (entry : RtEntry) : reasonEntryViolatesConstraint entry (Ex.symCi Ex.both) = .ok [] ↔
    reasonEntryViolatesConstraint entry (Ex.symCi Ex.swap) = .ok [] := by
  rw [C66_and Ex.both_nonNeg Ex.solve_ci Ex.extra_ci Ex.both_ci entry ⟨⟨rfl, rfl⟩, ⟨rfl, rfl⟩, _, _, Ex.both_versions.text,
        Ex.extra_versions.text, Ex.both_versions'.text, Ex.sc1_closed, Ex.solve_closed⟩,
    C66_and Ex.swap_nonNeg Ex.extra_ci Ex.solve_ci Ex.swap_ci entry ⟨⟨rfl, rfl⟩, ⟨rfl, rfl⟩, _, _, Ex.extra_versions.text,
        Ex.both_versions.text, Ex.swap_versions.text, Ex.solve_closed, Ex.sc1_closed⟩]
  exact and_comm

/-- Solvers for the two orders of a conjunction refuse the negation of each other's constraint. -/
example {z : Z3Oracle} (hz : z.Sound) (hdec : Z3Oracle.Decides z) :
    ∃ s s', Solver.create z (Ex.symTi Ex.both) (fun _ => .ok false) = .ok s ∧
      Solver.create z (Ex.symTi Ex.swap) (fun _ => .ok false) = .ok s' ∧
      (s.addConstraintStr z Ex.sys (negated Ex.swapText)).1 = .ok false ∧
      (s'.addConstraintStr z Ex.sys (negated Ex.bothText)).1 = .ok false := by
  obtain ⟨s, hs⟩ := Ex.both_create hz hdec
  obtain ⟨s', hs'⟩ := Ex.swap_create hz hdec
  have hr : SolverRun z Ex.sys (Ex.symTi Ex.both) (fun _ => false) s [] := .create hs
  have hr' : SolverRun z Ex.sys (Ex.symTi Ex.swap) (fun _ => false) s' [] := .create hs'
  obtain ⟨r, ha⟩ := (C106_understood Ex.both_ci Ex.swap_ci Ex.swap_versions Ex.both_ti (Ex.sym_solvable _) hz hdec hr).2
    ⟨_, (Ex.swap_says _).2 rfl, Ex.swap_mentionable _⟩
  obtain ⟨r', ha'⟩ := (C106_understood Ex.swap_ci Ex.both_ci Ex.swap_versions' Ex.swap_ti (Ex.sym_solvable _) hz hdec hr').2
    ⟨_, (Ex.sym_says (by decide +kernel) Ex.both_ci Ex.both_ti _).2 rfl, Ex.both_mentionable _⟩
  obtain ⟨rfl, rfl⟩ := (C106_equivalent_partial Ex.both_ci Ex.swap_ci Ex.both_nonNeg Ex.swap_nonNeg Ex.swap_versions Ex.swap_versions'
    Ex.both_ti Ex.swap_ti (Ex.sym_solvable _) hz hz hdec hdec Ex.both_plain Ex.swap_plain hr hr' ha ha').2
    fun entry _ => Ex.swap_same entry
  exact ⟨s, s', hs, hs', ha, ha'⟩
/-! ### Bit strings are ordered differently -/

def Ex.atLeast : TableDecl := Ex.symDecl c!"tern::value >= 128"

theorem Ex.atLeast_ci : p4ToConstraintInfo Ex.sys (Ex.symInfo Ex.atLeast) = .ok (Ex.symCi Ex.atLeast) :=
  Ex.get_of_isOk (by decide +kernel)

theorem Ex.atLeast_ti : lookup Ex.atLeast.preamble.id (Ex.symCi Ex.atLeast).tables = some (Ex.symTi Ex.atLeast) := by
  decide +kernel

def Ex.atLeastSe : SExpr := .cmp .ge (.field (.key c!"tern") c!"value") (.int 128)

theorem Ex.atLeast_says (se : SExpr) : TableSays Ex.sys.inetPton6 Ex.atLeast se ↔ se = Ex.atLeastSe :=
  Ex.sym_says (by decide +kernel) Ex.atLeast_ci Ex.atLeast_ti se

theorem Ex.atLeast_versions : Versions (Ex.symInfo (Ex.symDecl [])) (Ex.symInfo Ex.atLeast) (Ex.symDecl []) Ex.atLeast
    c!"tern::value >= 128" :=
  Ex.sym_versions _ rfl (by decide +kernel) (by decide +kernel) (Ex.sym_closed (by decide +kernel) (by decide +kernel))

/-- As two's complement numbers, all are at least 128, which is the least. -/
theorem Ex.atLeast_always {entry : RtEntry} {ρ : Env} (hρ : EntryMeans Ex.solveKeys entry ρ) :
    ¬ SignedHolds (keySig Ex.solveKeys) ρ (.not Ex.atLeastSe) := by
  intro h
  unfold SignedHolds Ex.atLeastSe at h
  generalize hb : Value.bool true = v at h
  cases h with
  | not h =>
    rename_i b
    cases b with
    | true => cases hb
    | false =>
      cases h with
      | cmp h1 h2 h3 h4 =>
        cases h1 with
        | field g1 g2 g3 =>
          cases g1 with
          | key k1 k2 =>
            have : (keySig Ex.solveKeys).key c!"tern" = some (.ternary 8) := by decide +kernel
            rw [this] at k1
            cases k1
            cases g2
            cases h2
            have hj : ∀ t, IsJoin (.fixedUnsigned 8) .arbitraryInt t → t = .fixedUnsigned 8 := fun t ht => by
              have h1 := lub_iff.2 ht
              rw [lub_iff.2 (join_bit 8)] at h1
              exact (Option.some.inj h1).symm
            cases hj _ h3
            obtain ⟨ki, hki, hn, hval⟩ := (hρ.key _ _).1 k2
            have hz : ∀ v z, KeyValue entry ki v → FieldVal v c!"value" z → 0 ≤ z := fun v z hval hz => by
              simp only [Ex.solveKeys, List.mem_cons, List.not_mem_nil, or_false] at hki
              rcases hki with rfl | rfl | rfl | rfl
              · cases hn
              · rcases hval with ⟨m, _, _, hm⟩ | ⟨_, hm⟩
                · generalize m.val = mv at hm
                  cases hm
                  cases hz
                  exact Int.natCast_nonneg _
                · cases hm
                  cases hz
                  exact Int.le_refl _
              · cases hn
              · cases hn
            have := hz _ _ hval g3
            simp [compareSigned, convert, orderKey, twos] at h4
            split at h4 <;> omega

def Ex.solverNone : Solver :=
  Ex.get ⟨0, [], Ex.symTi (Ex.symDecl []), ⟨[], []⟩, Ex.noSkip⟩
    (Solver.create (constOracle Ex.m1) (Ex.symTi (Ex.symDecl [])) Ex.noSkip)

theorem Ex.none_create {z : Z3Oracle} (hz : z.Sound) (hdec : Z3Oracle.Decides z) :
    ∃ s, Solver.create z (Ex.symTi (Ex.symDecl [])) (fun _ => .ok false) = .ok s := by
  have hc : Solver.create (constOracle Ex.m1) (Ex.symTi (Ex.symDecl [])) (fun _ => .ok false) = .ok Ex.solverNone :=
    Ex.get_of_isOk (by decide +kernel)
  have hd : Ex.symDecl [] ∈ (Ex.symInfo (Ex.symDecl [])).tables := List.mem_singleton.2 rfl
  have he : Ex.solverNone.concretize (constOracle Ex.m1) = (.ok Ex.e1, (Ex.solverNone.concretize (constOracle Ex.m1)).2) :=
    Ex.pair_of (by decide +kernel)
  refine (signed_create_solves Ex.moved_ci hd Ex.moved_ti (Ex.sym_solvable _) hz hdec).2
    ⟨Ex.sym_supported _, ?_, Ex.e1, (C72_entry_exact Ex.moved_ci hd Ex.moved_ti
      (Ex.sym_solvable _) (constOracle_sound _) (.create hc) he).1⟩
  rintro se ⟨vs, src, ex, _, hr⟩
  cases hr with
  | some g1 => cases attached_unique Ex.moved1.free g1

/-- An entry whose match of `tern` is a wildcard. -/
def Ex.eWild : RtEntry := { tableId := 1, priority := 1, matches_ := [⟨1, .exact [0]⟩] }

theorem Ex.eWild_runtime (a : Str) : RuntimeEntry (Ex.symDecl a) Ex.eWild where
  table := rfl
  fields := by
    intro m hm
    cases List.mem_singleton.1 hm
    exact ⟨_, List.mem_cons_self, rfl, .exact _ _ ⟨by simp [CanonicalBytes], by decide +kernel⟩⟩
  once := by decide +kernel
  exact := by
    intro f hf hx
    simp only [Ex.symDecl, List.mem_cons, List.not_mem_nil, or_false] at hf
    rcases hf with rfl | rfl | rfl | rfl
    · exact ⟨_, List.mem_cons_self, rfl⟩
    all_goals cases hx
  priority := .inl ⟨⟨⟨2, c!"tern", 8, .matchType .ternary⟩, .tail _ (.head _), .inl rfl⟩, by decide, by decide⟩

theorem Ex.atLeast_refused : ∃ s, SolverRun Ex.perfect Ex.sys (Ex.symTi (Ex.symDecl [])) (fun _ => false) s [] ∧
    (s.addConstraintStr Ex.perfect Ex.sys (negated c!"tern::value >= 128")).1 = .ok false := by
  obtain ⟨s, hs⟩ := Ex.none_create Ex.perfect_sound Ex.perfect_decides
  have hr : SolverRun Ex.perfect Ex.sys (Ex.symTi (Ex.symDecl [])) (fun _ => false) s [] := .create hs
  have hd : Ex.symDecl [] ∈ (Ex.symInfo (Ex.symDecl [])).tables := List.mem_singleton.2 rfl
  obtain ⟨r, ha⟩ := (C106_understood Ex.moved_ci Ex.atLeast_ci Ex.atLeast_versions Ex.moved_ti (Ex.sym_solvable _)
    Ex.perfect_sound Ex.perfect_decides hr).2 ⟨_, (Ex.atLeast_says _).2 rfl, _, Ex.solve_keys, by
      simp [NamesIn, Ex.atLeastSe, Ex.solveKeys]⟩
  have hf : r = false := by
    cases r with
    | false => rfl
    | true =>
      obtain ⟨_, entry, hsol⟩ := (C72_add_exact Ex.moved_ci hd Ex.moved_ti (Ex.sym_solvable _) Ex.perfect_sound
        Ex.perfect_decides hr).2.1 ha
      obtain ⟨se, h1, vs, ρ, h2, _, h4, h5⟩ := hsol.texts _ List.mem_cons_self
      cases keys_same h2 (show Each KeyDecl (Ex.symDecl []).matchFields Ex.solveKeys from Ex.solve_keys)
      have hse : se = .not Ex.atLeastSe := by
        have hpi := declared_parse Ex.moved_ci hd Ex.moved_ti
        obtain ⟨vs', hk', _, hmaps, _⟩ := parseTableInfo_parts hpi
        obtain ⟨e, c, h1, _, _, h2⟩ := (textSays_iff hpi hk' hmaps).1 h1
        have : (match parseConstraint Ex.sys .table ⟨negated c!"tern::value >= 128", { src := .tableName (Ex.symTi (Ex.symDecl [])).name }⟩ with
            | .ok e => decide (abs e = some (.not Ex.atLeastSe))
            | _ => false) = true := by decide +kernel
        rw [h1] at this
        dsimp only at this
        rw [h2] at this
        simpa using this
      cases hse
      exact absurd h5 (Ex.atLeast_always h4)
  subst hf
  exact ⟨s, hr, ha⟩

/-- This is right in the reading of solvers. -/
example (entry : RtEntry) (he : SignedSolution Ex.sys.inetPton6 (Ex.symDecl []) (fun _ => false) [] entry) :
    SignedTrueOf Ex.atLeast entry Ex.atLeastSe := by
  obtain ⟨s, hr, ha⟩ := Ex.atLeast_refused
  obtain ⟨se, h1, h2⟩ := (C106_answer_exact Ex.moved_ci Ex.atLeast_ci Ex.atLeast_versions Ex.moved_ti (Ex.sym_solvable _)
    Ex.perfect_sound Ex.perfect_decides hr ha).1 rfl entry he
  cases (Ex.atLeast_says _).1 h1
  exact h2

/-- C106 fails as stated: a solver for a table without constraint refuses the negation of `tern::value >= 128`, although not all
entries satisfy this. -/
theorem C106_fails : ∃ (z : Z3Oracle) (sys : Sys) (p p' : P4Info) (ci ci' : ConstraintInfo) (d d' : TableDecl) (b : Str)
    (ti : TableInfo) (s : Solver) (entry : RtEntry), z.Sound ∧ Z3Oracle.Decides z ∧ p4ToConstraintInfo sys p = .ok ci ∧
    p4ToConstraintInfo sys p' = .ok ci' ∧ NonNegProgram p ∧ NonNegProgram p' ∧ Versions p p' d d' b ∧
    lookup d.preamble.id ci.tables = some ti ∧ Solvable d (fun _ => false) ∧ SolverRun z sys ti (fun _ => false) s [] ∧
    (s.addConstraintStr z sys (negated b)).1 = .ok false ∧ RuntimeEntry d entry ∧
    reasonEntryViolatesConstraint entry ci = .ok [] ∧ reasonEntryViolatesConstraint entry ci' ≠ .ok [] := by
  obtain ⟨s, hr, ha⟩ := Ex.atLeast_refused
  exact ⟨Ex.perfect, Ex.sys, _, _, _, _, _, _, _, _, s, Ex.eWild, Ex.perfect_sound, Ex.perfect_decides, Ex.moved_ci, Ex.atLeast_ci,
    ⟨by decide +kernel, by decide +kernel⟩, ⟨by decide +kernel, by decide +kernel⟩, Ex.atLeast_versions, Ex.moved_ti,
    Ex.sym_solvable _, hr, ha, Ex.eWild_runtime _, by decide +kernel, by decide +kernel⟩

def Ex.above : TableDecl := Ex.symDecl c!"tern::value >= 0"

theorem Ex.above_ci : p4ToConstraintInfo Ex.sys (Ex.symInfo Ex.above) = .ok (Ex.symCi Ex.above) :=
  Ex.get_of_isOk (by decide +kernel)

theorem Ex.above_versions : Versions (Ex.symInfo (Ex.symDecl [])) (Ex.symInfo Ex.above) (Ex.symDecl []) Ex.above
    c!"tern::value >= 0" :=
  Ex.sym_versions _ rfl (by decide +kernel) (by decide +kernel) (Ex.sym_closed (by decide +kernel) (by decide +kernel))

def Ex.solverAny : Solver :=
  Ex.get ⟨0, [], Ex.symTi (Ex.symDecl []), ⟨[], []⟩, Ex.noSkip⟩
    (Solver.create (constOracle Ex.m2) (Ex.symTi (Ex.symDecl [])) Ex.noSkip)

def Ex.solverAny' : Solver := (Ex.solverAny.addConstraintStr (constOracle Ex.m2) Ex.sys (negated c!"tern::value >= 0")).2

/-- Also, it accepts the negation of `tern::value >= 0`, and returns an entry that makes no difference: both programs accept it. -/
theorem C106_fails_evidence : ∃ (z : Z3Oracle) (sys : Sys) (p p' : P4Info) (ci ci' : ConstraintInfo) (d d' : TableDecl) (b : Str)
    (ti : TableInfo) (s s' s'' : Solver) (entry : RtEntry), z.Sound ∧ p4ToConstraintInfo sys p = .ok ci ∧
    p4ToConstraintInfo sys p' = .ok ci' ∧ NonNegProgram p ∧ NonNegProgram p' ∧ Versions p p' d d' b ∧
    lookup d.preamble.id ci.tables = some ti ∧ Solvable d (fun _ => false) ∧ SolverRun z sys ti (fun _ => false) s [] ∧
    s.addConstraintStr z sys (negated b) = (.ok true, s') ∧ s'.concretize z = (.ok entry, s'') ∧
    reasonEntryViolatesConstraint entry ci = .ok [] ∧ reasonEntryViolatesConstraint entry ci' = .ok [] := by
  have hc : Solver.create (constOracle Ex.m2) (Ex.symTi (Ex.symDecl [])) (fun _ => .ok false) = .ok Ex.solverAny :=
    Ex.get_of_isOk (by decide +kernel)
  have hr : SolverRun (constOracle Ex.m2) Ex.sys (Ex.symTi (Ex.symDecl [])) (fun _ => false) Ex.solverAny [] := .create hc
  have ha : Ex.solverAny.addConstraintStr (constOracle Ex.m2) Ex.sys (negated c!"tern::value >= 0") = (.ok true, Ex.solverAny') :=
    Ex.pair_of (by decide +kernel)
  have he : Ex.solverAny'.concretize (constOracle Ex.m2) = (.ok Ex.e2, (Ex.solverAny'.concretize (constOracle Ex.m2)).2) :=
    Ex.pair_of (by decide +kernel)
  exact ⟨constOracle Ex.m2, Ex.sys, _, _, _, _, _, _, _, _, _, _, _, Ex.e2, constOracle_sound _, Ex.moved_ci, Ex.above_ci,
    ⟨by decide +kernel, by decide +kernel⟩, ⟨by decide +kernel, by decide +kernel⟩, Ex.above_versions, Ex.moved_ti,
    Ex.sym_solvable _, hr, ha, he, by decide +kernel, by decide +kernel⟩

/-- In the reading of solvers, the entry does make a difference. -/
example : SignedSolution Ex.sys.inetPton6 (Ex.symDecl []) (fun _ => false) [] Ex.e2 ∧
    ¬ ∃ se, TableSays Ex.sys.inetPton6 Ex.above se ∧ SignedTrueOf Ex.above Ex.e2 se := by
  have hc : Solver.create (constOracle Ex.m2) (Ex.symTi (Ex.symDecl [])) (fun _ => .ok false) = .ok Ex.solverAny :=
    Ex.get_of_isOk (by decide +kernel)
  have ha : Ex.solverAny.addConstraintStr (constOracle Ex.m2) Ex.sys (negated c!"tern::value >= 0") = (.ok true, Ex.solverAny') :=
    Ex.pair_of (by decide +kernel)
  have he : Ex.solverAny'.concretize (constOracle Ex.m2) = (.ok Ex.e2, (Ex.solverAny'.concretize (constOracle Ex.m2)).2) :=
    Ex.pair_of (by decide +kernel)
  exact C106_evidence_exact Ex.moved_ci Ex.above_ci Ex.above_versions Ex.moved_ti (Ex.sym_solvable _) (constOracle_sound _)
    (.create hc) ha he

/-! ### Skipping keys -/

def Ex.skipsOpt : Str → Bool := fun n => n == c!"opt"

theorem Ex.sym_solvable_opt (a : Str) : Solvable (Ex.symDecl a) Ex.skipsOpt where
  omittable := by
    intro vs hk ki hki hx
    cases keys_same hk (show Each KeyDecl (Ex.symDecl a).matchFields Ex.solveKeys from Ex.solve_keys)
    simp only [Ex.solveKeys, List.mem_cons, List.not_mem_nil, or_false] at hki
    rcases hki with rfl | rfl | rfl | rfl
    · exact absurd hx (by decide)
    · exact absurd hx (by decide)
    · exact absurd hx (by decide)
    · exact ⟨_, .optional _⟩
  noNul := (Ex.sym_solvable a).noNul
  noMask := (Ex.sym_solvable a).noMask
  widths := (Ex.sym_solvable a).widths

theorem Ex.extra_ti : lookup Ex.extra.preamble.id (Ex.symCi Ex.extra).tables = some (Ex.symTi Ex.extra) := by decide +kernel

theorem Ex.extra_says (se : SExpr) : TableSays Ex.sys.inetPton6 Ex.extra se ↔ se = Ex.solveSe :=
  Ex.sym_says (by decide +kernel) Ex.extra_ci Ex.extra_ti _

def Ex.notThree : TableDecl := Ex.symDecl c!"tern::value != 3"

theorem Ex.notThree_ci : p4ToConstraintInfo Ex.sys (Ex.symInfo Ex.notThree) = .ok (Ex.symCi Ex.notThree) :=
  Ex.get_of_isOk (by decide +kernel)

theorem Ex.notThree_closed : Closed c!"tern::value != 3" := Ex.sym_closed (by decide +kernel) (by decide +kernel)

def Ex.strongText : Str := joined .and c!"tern::value != 3" Ex.solveText

def Ex.strongSe : SExpr := .conn .and (.cmp .ne (.field (.key c!"tern") c!"value") (.int 3)) Ex.solveSe

/-- A constraint that does not mention the key `opt`. -/
def Ex.strong : TableDecl := Ex.symDecl Ex.strongText

theorem Ex.strong_ci : p4ToConstraintInfo Ex.sys (Ex.symInfo Ex.strong) = .ok (Ex.symCi Ex.strong) :=
  Ex.get_of_isOk (by decide +kernel)

theorem Ex.strong_ti : lookup Ex.strong.preamble.id (Ex.symCi Ex.strong).tables = some (Ex.symTi Ex.strong) := by decide +kernel

theorem Ex.strong_says (se : SExpr) : TableSays Ex.sys.inetPton6 Ex.strong se ↔ se = Ex.strongSe :=
  Ex.sym_says (by decide +kernel) Ex.strong_ci Ex.strong_ti _

theorem Ex.strong_nonNeg : NonNegProgram (Ex.symInfo Ex.strong) := ⟨by decide +kernel, by decide +kernel⟩

theorem Ex.strong_versions : Versions (Ex.symInfo Ex.strong) (Ex.symInfo Ex.extra) Ex.strong Ex.extra Ex.solveText :=
  Ex.sym_versions _ rfl (by decide +kernel) (by decide +kernel) Ex.solve_closed

def Ex.solverStrong : Solver :=
  Ex.get ⟨0, [], Ex.symTi Ex.strong, ⟨[], []⟩, Ex.noSkip⟩
    (Solver.create (constOracle Ex.m1) (Ex.symTi Ex.strong) fun n => .ok (Ex.skipsOpt n))

/-- The entry it returns does not match on `opt`. -/
def Ex.eStrong : RtEntry := { Ex.e1 with matches_ := Ex.e1.matches_.filter fun m => m.fieldId ≠ 4 }

theorem Ex.strong_create {z : Z3Oracle} (hz : z.Sound) (hdec : Z3Oracle.Decides z) :
    ∃ s, Solver.create z (Ex.symTi Ex.strong) (fun n => .ok (Ex.skipsOpt n)) = .ok s := by
  have hc : Solver.create (constOracle Ex.m1) (Ex.symTi Ex.strong) (fun n => .ok (Ex.skipsOpt n)) = .ok Ex.solverStrong :=
    Ex.get_of_isOk (by decide +kernel)
  have hd : Ex.strong ∈ (Ex.symInfo Ex.strong).tables := List.mem_singleton.2 rfl
  have he : (Ex.solverStrong.concretize (constOracle Ex.m1)).1 = .ok Ex.eStrong := by decide +kernel
  refine (signed_create_solves Ex.strong_ci hd Ex.strong_ti (Ex.sym_solvable_opt _) hz hdec).2
    ⟨fun vs hk ki hki => .inr ((Ex.sym_supported _ vs hk ki hki).resolve_left (by simp)), fun se hse => ?_, Ex.eStrong,
    (C72_entry_exact Ex.strong_ci hd Ex.strong_ti (Ex.sym_solvable_opt _) (constOracle_sound _) (.create hc) (Ex.pair_of he)).1⟩
  cases (Ex.strong_says _).1 hse
  refine ⟨_, Ex.solve_keys, ?_⟩
  simp [NamesIn, Ex.strongSe, Ex.solveSe, Ex.solveKeys, Ex.skipsOpt]

/-- A solver that skips the optional key refuses the negation of a weaker constraint. -/
example {z : Z3Oracle} (hz : z.Sound) (hdec : Z3Oracle.Decides z) :
    ∃ s, Solver.create z (Ex.symTi Ex.strong) (fun n => .ok (Ex.skipsOpt n)) = .ok s ∧
      (s.addConstraintStr z Ex.sys (negated Ex.solveText)).1 = .ok false := by
  obtain ⟨s, hs⟩ := Ex.strong_create hz hdec
  have hr : SolverRun z Ex.sys (Ex.symTi Ex.strong) Ex.skipsOpt s [] := .create hs
  obtain ⟨r, ha⟩ := (C106_understood_skipping Ex.strong_ci Ex.extra_ci Ex.strong_versions Ex.strong_ti (Ex.sym_solvable_opt _)
    hz hdec hr).2 ⟨_, (Ex.extra_says _).2 rfl, _, Ex.solve_keys, by simp [NamesIn, Ex.solveSe, Ex.solveKeys, Ex.skipsOpt]⟩
  have hp : ∀ se, TableSays Ex.sys.inetPton6 Ex.strong se → PlainOrder Ex.strong se := by
    intro se hse vs _
    cases (Ex.strong_says _).1 hse
    simp [NoOrderedBits, Cmp.isOrder, Ex.strongSe, Ex.solveSe]
  have hp' : ∀ se, TableSays Ex.sys.inetPton6 Ex.extra se → PlainOrder Ex.extra se := by
    intro se hse vs _
    cases (Ex.extra_says _).1 hse
    simp [NoOrderedBits, Cmp.isOrder, Ex.solveSe]
  have h3 : Versions (Ex.symInfo Ex.strong) (Ex.symInfo Ex.notThree) Ex.strong Ex.notThree c!"tern::value != 3" :=
    Ex.sym_versions _ rfl (by decide +kernel) (by decide +kernel) Ex.notThree_closed
  have hst : Says .table Ex.strong.preamble Ex.strongText :=
    (Ex.sym_versions [] (b := Ex.strongText) rfl (by decide +kernel) (by decide +kernel)
      (Ex.sym_closed (by decide +kernel) (by decide +kernel))).text
  cases (C106_answer_skipping_partial Ex.strong_ci Ex.extra_ci Ex.strong_versions Ex.strong_ti (Ex.sym_solvable_opt _) hz
    Ex.strong_nonNeg ⟨by decide +kernel, by decide +kernel⟩ hp hp' hdec hr nofun ha).2 fun entry _ _ he =>
      ((C66_and Ex.strong_nonNeg Ex.notThree_ci Ex.extra_ci Ex.strong_ci entry ⟨⟨rfl, rfl⟩, ⟨rfl, rfl⟩, _, _, h3.text,
        Ex.strong_versions.text, hst, Ex.notThree_closed, Ex.solve_closed⟩).1 he).2
  exact ⟨s, hs, ha⟩

end P4C
