import Verif.Proofs.Sorts
import Verif.Props.Runtime

/-
C102: adding syntax trees of any origin to a constraint solver.
-/

namespace P4C

open Spec

namespace Ex

/-- A tree of the given type, without location. -/
def marked (t : Ty) : Info := { ty := t }

/-- The tree of `ex == 5`, as the type checker would have it. -/
def exactly5 : Expr := .bin (marked .boolean) .eq (.key (marked (.exact 32)) c!"ex")
  (.typeCast (marked (.exact 32)) (.typeCast (marked (.fixedUnsigned 32)) (.intConst (marked .arbitraryInt) c!"5")))

/-- The same for a key of another width. -/
def otherWidth : Expr := .bin (marked .boolean) .eq (.key (marked (.exact 16)) c!"ex")
  (.typeCast (marked (.exact 16)) (.typeCast (marked (.fixedUnsigned 16)) (.intConst (marked .arbitraryInt) c!"5")))

/-- The same with wrong marks on everything but the casts. -/
def wrongMarks : Expr := .bin (marked .boolean) .eq (.key (marked .boolean) c!"ex")
  (.typeCast (marked (.exact 32)) (.typeCast (marked (.fixedUnsigned 32)) (.intConst {} c!"5")))

/-- A solver for the table without constraint. -/
def treeSolver : Solver := runtimeSolver (symDecl []) fun _ => false

end Ex

/-- C102: whatever the tree, the source and the state are, the outcome is an answer, an error with one of four codes, or a
crash. -/
theorem C102_codes (z : Z3Oracle) (s : Solver) (c : Expr) (src : ConstraintSource) :
    (∃ b, (s.addConstraint z c src).1 = .ok b) ∨ (∃ code, TranslationCode code ∧ (s.addConstraint z c src).1 = .err code) ∨
      (s.addConstraint z c src).1 = .crash := by
  have h := addConstraint_coded z s c src
  generalize (s.addConstraint z c src).1 = r at h
  cases r with
  | ok b => exact .inl ⟨b, rfl⟩
  | err code => exact .inr (.inl ⟨code, h, rfl⟩)
  | crash => exact .inr (.inr rfl)
  | oof => exact h.elim

/-- C102: a tree that is not marked as boolean, such as one that was not type checked, is an error, and nothing is added. -/
theorem C102_root (z : Z3Oracle) (s : Solver) {c : Expr} (h : c.ty ≠ .boolean) (src : ConstraintSource) :
    ((s.addConstraint z c src).1 = .err .invalidArgument ∨ (s.addConstraint z c src).1 = .err .internal) ∧
      (s.addConstraint z c src).2.assertions = s.assertions := by
  unfold Solver.addConstraint Solver.check
  dsimp only
  split
  · simp [evaluateConstraintSymbolically, h]
  · simp

example (z : Z3Oracle) (s : Solver) : (s.addConstraint z (.boolConst {} true) {}).1 ≠ .ok true := by
  rcases (C102_root z s (c := .boolConst {} true) nofun {}).1 with h | h <;> rw [h] <;> nofun

/-- C102: the source that is given with the tree makes no difference to answers, nor to which trees get an answer, nor to the
state of the solver; it can only decide between an internal error and a crash. -/
theorem C102_source (z : Z3Oracle) (s : Solver) (c : Expr) (src src' : ConstraintSource) :
    (s.addConstraint z c src).2 = (s.addConstraint z c src').2 ∧
    ((s.addConstraint z c src).1 = (s.addConstraint z c src').1 ∨
      (((s.addConstraint z c src).1 = .err .internal ∨ (s.addConstraint z c src).1 = .crash) ∧
       ((s.addConstraint z c src').1 = .err .internal ∨ (s.addConstraint z c src').1 = .crash))) :=
  ⟨(addConstraint_akin z s c src src').2, (addConstraint_akin z s c src src').1⟩

/-- C102: the two overloads agree: a text has the same effect as the tree that is made of it, with any source. -/
theorem C102_overloads {z : Z3Oracle} {sys : Sys} {s : Solver} {text : Str} {e c : Expr} (src : ConstraintSource)
    (he : parseConstraint sys .table ⟨text, { src := .tableName s.table.name }⟩ = .ok e)
    (hc : inferAndCheck s.table.source (.table s.table.keysByName) e = .ok c) {b : Bool}
    (h : (s.addConstraintStr z sys text).1 = .ok b) : s.addConstraint z c src = s.addConstraintStr z sys text := by
  have : s.addConstraintStr z sys text = s.addConstraint z c ⟨text, { src := .tableName s.table.name }⟩ := by
    simp [Solver.addConstraintStr, he, hc]
  rw [this] at h ⊢
  obtain ⟨h2, h1⟩ := C102_source z s c src ⟨text, { src := .tableName s.table.name }⟩
  refine Prod.ext ?_ h2
  rcases h1 with h1 | ⟨_, h1⟩
  · exact h1
  · rw [h] at h1
    rcases h1 with h1 | h1 <;> cases h1

section
variable {sys : Sys} {p : P4Info} {ci : ConstraintInfo} (h : p4ToConstraintInfo sys p = .ok ci) {d : TableDecl}
  (hd : d ∈ p.tables) {ti : TableInfo} (hti : lookup d.preamble.id ci.tables = some ti) {skip : Str → Bool}
  {z : Z3Oracle}

include h hd hti in
/-- C102, exactly: after any history, there is an answer if and only if the tree is marked as boolean and makes sense for the
declared keys that are not skipped. Here Z3 does not give up, and constants are in decimal. -/
theorem C102_answered (hz : z.Sound) (hdec : Z3Oracle.Decides z) {s : Solver} {cs : List Expr}
    (hr : Reachable z sys ti (fun n => .ok (skip n)) s cs) {c : Expr} (hdc : Everywhere DecimalConst c) (src : ConstraintSource) :
    (∃ b, (s.addConstraint z c src).1 = .ok b) ↔
      c.ty = .boolean ∧ Sorted (DeclKey d skip) (DeclAttr d) c (.plain .bool) := by
  have hparse := declared_parse h hd hti
  obtain ⟨vs, hv, _, hm, _⟩ := parseTableInfo_parts hparse
  have hwf := parseTableInfo_wf hparse
  obtain ⟨ks, as, hi⟩ := reachable_inv hr
  have hsat : ∃ val hi, z.check s.calls s.assertions = .sat val hi := by
    obtain ⟨m, hm⟩ := reachable_sat hz hwf hr
    cases hc : z.check s.calls s.assertions with
    | sat val hi => exact ⟨val, hi, rfl⟩
    | unsat =>
      obtain ⟨a, ha, hf⟩ := hz.unsat _ _ hc m
      rw [hm a ha] at hf
      cases hf
    | unknown => exact (hdec _ _ hc).elim
  rw [addConstraint_ok_iff]
  constructor
  · rintro ⟨_, h1, t, h2⟩
    exact ⟨h1, evalSym_sorted (solver_keys hv hm hwf hi) (solver_attrs hv hm hi) (solver_attrs_int hi) h2⟩
  · rintro ⟨h1, h2⟩
    obtain ⟨r, hr, hf⟩ := sorted_evalSym (src := src) (solver_keys hv hm hwf hi) (solver_attrs hv hm hi) (solver_attrs_int hi) h2 hdc
    obtain ⟨⟨σ, t⟩, rfl, rfl⟩ := resForm_plain hf
    exact ⟨hsat, h1, t, hr⟩

include h hd hti in
/-- C102: a tree that makes no sense for the declared keys gets no answer, and nothing is added. Missing: it is an error (it can
be a crash, see `C102_fails_crash`), and trees with wrong marks get no answer (see `C102_fails_marks`). -/
theorem C102_detected_partial {s : Solver} {cs : List Expr} (hr : Reachable z sys ti (fun n => .ok (skip n)) s cs) {c : Expr}
    (hc : ¬ (c.ty = .boolean ∧ Sorted (DeclKey d skip) (DeclAttr d) c (.plain .bool))) (src : ConstraintSource) :
    (∀ b, (s.addConstraint z c src).1 ≠ .ok b) ∧ (s.addConstraint z c src).2.assertions = s.assertions := by
  have hparse := declared_parse h hd hti
  obtain ⟨vs, hv, _, hm, _⟩ := parseTableInfo_parts hparse
  have hwf := parseTableInfo_wf hparse
  obtain ⟨ks, as, hi⟩ := reachable_inv hr
  have hno : ∀ b, (s.addConstraint z c src).1 ≠ .ok b := by
    intro b hb
    obtain ⟨_, h1, t, h2⟩ := addConstraint_ok_iff.1 ⟨b, hb⟩
    exact hc ⟨h1, evalSym_sorted (solver_keys hv hm hwf hi) (solver_attrs hv hm hi) (solver_attrs_int hi) h2⟩
  refine ⟨hno, ?_⟩
  rcases (addConstraint_cases (z := z) (s := s) (c := c) (src := src) rfl).2.2.2 with ⟨h, _⟩ | ⟨_, h⟩
  · exact (hno _ h).elim
  · exact h
end

/-! ### Examples -/

theorem Ex.ex_declared : DeclKey Ex.d1 (fun _ => false) c!"ex" (.exact (.bv 32)) :=
  ⟨⟨1, c!"ex", 32, .matchType .exact⟩, .head _, rfl, rfl, .exact rfl⟩

theorem Ex.exactly5_sorted : Sorted (DeclKey Ex.d1 fun _ => false) (DeclAttr Ex.d1) Ex.exactly5 (.plain .bool) :=
  .exact (.key Ex.ex_declared) (.castExact (.castBits (w := 32) .intConst rfl (by decide)) rfl) (.inl rfl)

theorem Ex.decimal5 {i : Info} : DecimalConst (.intConst i c!"5") := by
  intro j s h
  cases h
  exact ⟨5, rfl⟩

theorem Ex.exactly5_decimal : Everywhere DecimalConst Ex.exactly5 := by
  refine ⟨?_, ?_, ?_, ?_, Ex.decimal5⟩ <;> intro i s h <;> cases h

/-- The only key that is called `ex`. -/
theorem Ex.ex_form {k : Form} (h : DeclKey Ex.d1 (fun _ => false) c!"ex" k) : k = .exact (.bv 32) := by
  obtain ⟨f, hf, hn, _, hform⟩ := h
  have : ∀ f ∈ Ex.d1.matchFields, f.name = c!"ex" → f = ⟨1, c!"ex", 32, .matchType .exact⟩ := by decide +kernel
  have := this f hf hn
  subst this
  exact declForm_unique hform (.exact rfl)

/-- All solvers for the table of the examples give an answer to the tree of `ex == 5`, but not to the one for a key of another
width. -/
example {z : Z3Oracle} (hz : z.Sound) (hdec : Z3Oracle.Decides z) {s : Solver} {cs : List Expr}
    (hr : Reachable z Ex.sys (Ex.symTi Ex.d1) (fun _ => .ok false) s cs) :
    (∃ b, (s.addConstraint z Ex.exactly5 {}).1 = .ok b) ∧ ∀ b, (s.addConstraint z Ex.otherWidth {}).1 ≠ .ok b := by
  refine ⟨(C102_answered Ex.solve_ci (List.mem_singleton.2 rfl) Ex.solve_ti (skip := fun _ => false) hz hdec hr Ex.exactly5_decimal {}).2
    ⟨rfl, Ex.exactly5_sorted⟩, ?_⟩
  refine (C102_detected_partial Ex.solve_ci (List.mem_singleton.2 rfl) Ex.solve_ti (skip := fun _ => false) hr ?_ {}).1
  rintro ⟨_, hs⟩
  cases hs with
  | plain hl => cases hl with | key hk => cases Ex.ex_form hk
  | ternary hl => cases hl with | key hk => cases Ex.ex_form hk
  | lpm hl => cases hl with | key hk => cases Ex.ex_form hk
  | exact hl hr =>
    cases hl with
    | key hk =>
      cases Ex.ex_form hk
      cases hr with
      | castExact hr =>
        generalize hσ : Form.plain (.bv 32) = k at hr
        cases hr with
        | castBits _ hw _ =>
          cases hw
          cases hσ
        | castExact => cases hσ
        | castTernary => cases hσ
        | castLpm => cases hσ

/-- There are such solvers. -/
example : ∃ s cs, Reachable Ex.perfect Ex.sys (Ex.symTi Ex.d1) (fun _ => .ok false) s cs := by
  obtain ⟨s, hs, _⟩ := Ex.solve_accepted Ex.perfect_sound Ex.perfect_decides
  exact ⟨s, _, .create hs⟩

theorem Ex.treeSolver_reachable : Reachable (constOracle Ex.m1) Ex.sys (Ex.symTi (Ex.symDecl [])) (fun _ => .ok false) Ex.treeSolver
    (Ex.symTi (Ex.symDecl [])).constraint.toList :=
  .create (Ex.get_of_isOk (d := ⟨0, [], Ex.symTi (Ex.symDecl []), ⟨[], []⟩, fun _ => .ok false⟩) (by decide +kernel))

/-- The tree of a text, with another source. -/
example : Ex.treeSolver.addConstraint (constOracle Ex.m1)
      (Ex.get (.notSet {}) (inferAndCheck Ex.treeSolver.table.source (.table Ex.treeSolver.table.keysByName)
        (Ex.get (.notSet {}) (parseConstraint Ex.sys .table ⟨c!"ex == 5", { src := .tableName Ex.treeSolver.table.name }⟩)))) {} =
    Ex.treeSolver.addConstraintStr (constOracle Ex.m1) Ex.sys c!"ex == 5" :=
  C102_overloads {} (Ex.get_of_isOk (by decide +kernel)) (Ex.get_of_isOk (by decide +kernel)) (b := true) (by decide +kernel)

/-- A tree that was type checked for another table can crash the solver. -/
theorem C102_fails_crash : ∃ z sys p ci d ti s cs c, z.Sound ∧ p4ToConstraintInfo sys p = .ok ci ∧ d ∈ p.tables ∧
    lookup d.preamble.id ci.tables = some ti ∧ Reachable z sys ti (fun _ => .ok false) s cs ∧ c.ty = .boolean ∧
    ∀ src, (s.addConstraint z c src).1 = .crash := by
  refine ⟨constOracle Ex.m1, Ex.sys, Ex.symInfo (Ex.symDecl []), Ex.symCi (Ex.symDecl []), Ex.symDecl [], Ex.symTi (Ex.symDecl []),
    Ex.treeSolver, _, Ex.otherWidth, constOracle_sound _, Ex.moved_ci, List.mem_singleton.2 rfl, Ex.moved_ti,
    Ex.treeSolver_reachable, rfl, fun src => ?_⟩
  rfl

/-- A tree with wrong marks can be accepted. -/
theorem C102_fails_marks : ∃ z sys p ci d ti s cs i op l r, z.Sound ∧ p4ToConstraintInfo sys p = .ok ci ∧ d ∈ p.tables ∧
    lookup d.preamble.id ci.tables = some ti ∧ Reachable z sys ti (fun _ => .ok false) s cs ∧ l.ty ≠ r.ty ∧
    (s.addConstraint z (.bin i op l r) {}).1 = .ok true :=
  ⟨constOracle Ex.m1, Ex.sys, Ex.symInfo (Ex.symDecl []), Ex.symCi (Ex.symDecl []), Ex.symDecl [], Ex.symTi (Ex.symDecl []),
    Ex.treeSolver, _, _, _, _, _, constOracle_sound _, Ex.moved_ci, List.mem_singleton.2 rfl, Ex.moved_ti,
    Ex.treeSolver_reachable, by decide, show (Ex.treeSolver.addConstraint (constOracle Ex.m1) Ex.wrongMarks {}).1 = .ok true by
      decide +kernel⟩

/-- The code of the error need not be one of the two that the header mentions. -/
theorem C102_fails_code : ∃ z sys p ci d ti s cs c, z.Sound ∧ p4ToConstraintInfo sys p = .ok ci ∧ d ∈ p.tables ∧
    lookup d.preamble.id ci.tables = some ti ∧ Reachable z sys ti (fun _ => .ok false) s cs ∧ c.ty = .boolean ∧
    (s.addConstraint z c {}).1 = .err .notFound :=
  ⟨constOracle Ex.m1, Ex.sys, Ex.symInfo (Ex.symDecl []), Ex.symCi (Ex.symDecl []), Ex.symDecl [], Ex.symTi (Ex.symDecl []),
    Ex.treeSolver, _, .key (Ex.marked .boolean) c!"none", constOracle_sound _, Ex.moved_ci, List.mem_singleton.2 rfl, Ex.moved_ti,
    Ex.treeSolver_reachable, rfl, by decide +kernel⟩

end P4C
