import Verif.Proofs.SolverCost
import Verif.Props.SolveLaws

/-
C94: what a constraint solver asks of Z3.
-/

namespace P4C

open Spec

/-- C94: the number of queries. Adding a text asks Z3 nothing, leaving the solver as it was, if the text is no constraint on the
table; twice if it answers; and once otherwise. Concretizing asks once, and does not change what is asserted. Creating a solver
asks nothing for a table without constraint, and twice for others. -/
theorem C94_queries (z : Z3Oracle) :
    (∀ (sys : Sys) (s : Solver) (text : Str),
      (∀ e c, parseConstraint sys .table ⟨text, { src := .tableName s.table.name }⟩ = .ok e →
        inferAndCheck s.table.source (.table s.table.keysByName) e ≠ .ok c) →
      (s.addConstraintStr z sys text).2 = s ∧ ∀ b, (s.addConstraintStr z sys text).1 ≠ .ok b) ∧
    (∀ (sys : Sys) (s : Solver) (text : Str) (b : Bool), (s.addConstraintStr z sys text).1 = .ok b →
      (s.addConstraintStr z sys text).2.calls = s.calls + 2) ∧
    (∀ (sys : Sys) (s : Solver) (text : Str), (∀ b, (s.addConstraintStr z sys text).1 ≠ .ok b) →
      (s.addConstraintStr z sys text).2 = s ∨ (s.addConstraintStr z sys text).2 = { s with calls := s.calls + 1 }) ∧
    (∀ s : Solver, (s.concretize z).2 = { s with calls := s.calls + 1 }) ∧
    (∀ (ti : TableInfo) (skip : Str → Res Bool) (s : Solver), Solver.create z ti skip = .ok s →
      s.calls = if ti.constraint = none then 0 else 2) := by
  refine ⟨?_, ?_, ?_, ?_, ?_⟩
  · intro sys s text hno
    have hx : ∀ x, s.addConstraintStr z sys text = x → x.2 = s ∧ ∀ b, x.1 ≠ .ok b := by
      intro x h
      unfold Solver.addConstraintStr at h
      dsimp only at h
      split at h
      · rename_i c hc
        rw [Res.bind_eq_ok] at hc
        obtain ⟨e, he, hc⟩ := hc
        exact absurd hc (hno e c he)
      all_goals
        subst h
        exact ⟨rfl, nofun⟩
    exact hx _ rfl
  · intro sys s text b hb
    generalize hx : s.addConstraintStr z sys text = x at hb
    obtain ⟨r, s'⟩ := x
    unfold Solver.addConstraintStr at hx
    dsimp only at hx hb ⊢
    split at hx
    · rcases addConstraint_calls hx with ⟨_, _, h⟩ | ⟨h, _⟩
      · exact h
      · exact absurd hb (h b)
    all_goals
      cases hx
      cases hb
  · intro sys s text hb
    generalize hx : s.addConstraintStr z sys text = x at hb
    obtain ⟨r, s'⟩ := x
    unfold Solver.addConstraintStr at hx
    dsimp only at hx hb ⊢
    split at hx
    · obtain ⟨h1, h2, h3, h4⟩ := addConstraint_cases hx
      rcases addConstraint_calls hx with ⟨b, h, _⟩ | ⟨_, h⟩
      · exact absurd h (hb b)
      · rcases h4 with ⟨h, _⟩ | ⟨_, h4⟩
        · exact absurd h (hb true)
        · right
          cases s
          cases s'
          simp_all
    all_goals
      cases hx
      exact .inl rfl
  · intro s
    exact concretize_calls rfl
  · intro ti skip s h
    obtain ⟨ks, as, hk, ⟨hc, rfl⟩ | ⟨c, hc, h⟩⟩ := create_ok.1 h
    · rw [if_pos hc]
      rfl
    · rw [if_neg (by rw [hc]; exact nofun)]
      rcases addConstraint_calls h with ⟨_, _, h⟩ | ⟨h, _⟩
      · exact h
      · exact absurd rfl (h true)

section
variable {sys : Sys} {p : P4Info} {ci : ConstraintInfo} (h : p4ToConstraintInfo sys p = .ok ci) {id : Nat} {ti : TableInfo}
  (hti : lookup id ci.tables = some ti)
include h hti

/-- C94: whatever Z3 answers, and whatever was added, rejected or concretized so far, the size of the assertions of a solver for
a table of an accepted program is linear in the number of keys and the length of the constraint of the table and of the texts
accepted. There is at most one assertion for each of these texts, two for each key, and three more. -/
theorem C94_size {z : Z3Oracle} {skip : Str → Bool} {s : Solver} {texts : List Str} (hr : SolverRun z sys ti skip s texts) :
    assertedNodes s ≤ solverSize ti texts ∧ s.assertions.length ≤ 2 * ti.keysByName.length + 3 + texts.length :=
  ⟨Nat.le_trans (run_asserts hr).size (bound_text h hti texts), (run_asserts hr).count⟩

/-- C94: nothing else is asked. Adding a text only depends on the answers of Z3 to the next two queries, about assertions of a
size linear in the number of keys and the length of texts, including the new one. -/
theorem C94_add {z z' : Z3Oracle} {skip : Str → Bool} {s : Solver} {texts : List Str} (hr : SolverRun z sys ti skip s texts)
    (text : Str) (hsame : SameAnswers z z' s.calls (s.calls + 2) (solverSize ti (text :: texts))) :
    s.addConstraintStr z sys text = s.addConstraintStr z' sys text := by
  refine addConstraintStr_agree (run_asserts hr) fun n as h1 h2 h3 => hsame n as h1 h2 ?_
  have := bound_text h hti texts
  unfold solverSize at *
  simp only [List.map_cons, List.sum_cons]
  omega

/-- C94: concretizing only depends on the answer of Z3 to the next query, about assertions of such a size. -/
theorem C94_concretize {z z' : Z3Oracle} {skip : Str → Bool} {s : Solver} {texts : List Str}
    (hr : SolverRun z sys ti skip s texts) (hsame : SameAnswers z z' s.calls (s.calls + 1) (solverSize ti texts)) :
    s.concretize z = s.concretize z' :=
  concretize_agree (run_asserts hr) fun n as h1 h2 h3 => hsame n as h1 h2 (Nat.le_trans h3 (bound_text h hti texts))

/-- C94: creating a solver only depends on the answers of Z3 to two queries, about assertions of such a size. -/
theorem C94_create {z z' : Z3Oracle} {skip : Str → Res Bool} (hsame : SameAnswers z z' 0 2 (solverSize ti [])) :
    Solver.create z ti skip = Solver.create z' ti skip :=
  create_agree fun n as h1 h2 h3 => hsame n as h1 h2 (Nat.le_trans h3 (bound_text h hti []))

end

/-! ### Example: the constraint `Ex.solveText` on the table `Ex.d1` -/

example {z : Z3Oracle} (hz : z.Sound) (hdec : Z3Oracle.Decides z) :
    ∃ s, SolverRun z Ex.sys (Ex.symTi Ex.d1) (fun _ => false) s [Ex.solveText] ∧
      assertedNodes s ≤ solverSize (Ex.symTi Ex.d1) [Ex.solveText] := by
  obtain ⟨s, hr⟩ := Ex.solve_run hz hdec
  exact ⟨s, hr, (C94_size Ex.solve_ci Ex.solve_ti hr).1⟩

/-- Two queries for the constraint of the table, two for the text; 71 nodes become 80. -/
example : (Ex.solver1.addConstraintStr (constOracle Ex.m1) Ex.sys Ex.solveText).2.calls = 4 ∧
    assertedNodes Ex.solver1 = 71 ∧
    assertedNodes (Ex.solver1.addConstraintStr (constOracle Ex.m1) Ex.sys Ex.solveText).2 = 80 ∧
    solverSize (Ex.symTi Ex.d1) [Ex.solveText] = 1188 := by decide +kernel

/-- A text that is no constraint. -/
example : (Ex.solver1.addConstraintStr (constOracle Ex.m1) Ex.sys c!"tern ==").2.calls = 2 := by decide +kernel

/-- The answers to later queries do not matter. -/
example {s : Solver} (hr : SolverRun (constOracle Ex.m1) Ex.sys (Ex.symTi Ex.d1) (fun _ => false) s []) :
    s.addConstraintStr (constOracle Ex.m1) Ex.sys Ex.solveText =
      s.addConstraintStr ⟨fun n as => if n < s.calls + 2 then (constOracle Ex.m1).check n as else .unknown⟩ Ex.sys
        Ex.solveText :=
  C94_add Ex.solve_ci Ex.solve_ti hr _ fun _ _ _ h2 _ => (if_pos h2).symm

end P4C
