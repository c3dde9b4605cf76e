import Verif.Proofs.SymCost
import Verif.Props.ParseCost
import Verif.Props.Sorts

/-
C104: what it takes to add a constraint to a solver, apart from reading it (C89) and from Z3 (C94): calls and recursion of
`EvalSymbolically` and `EvalSymbolicallyTo`.
-/

namespace P4C

open Spec

/-- C104: counting does not change the results. -/
theorem C104_same_results (z : Z3Oracle) (sys : Sys) (s : Solver) (c : Expr) (src : ConstraintSource) (text : Str)
    (table : TableInfo) (skip : Str → Res Bool) :
    ((s.addConstraintT z c src).1.res, (s.addConstraintT z c src).2) = s.addConstraint z c src ∧
    ((s.addConstraintStrT z sys text).1.res, (s.addConstraintStrT z sys text).2) = s.addConstraintStr z sys text ∧
    (Solver.createT z table skip).res = Solver.create z table skip :=
  ⟨res_addT z s c src, res_addStrT z sys s text, res_createT z table skip⟩

/-- C104: adding a syntax tree takes at most two calls for each node, and a recursion at most twice as deep as the tree is
high, whatever the tree, the state of the solver and the answers of Z3 are. -/
theorem C104_tree (z : Z3Oracle) (s : Solver) (c : Expr) (src : ConstraintSource) :
    (s.addConstraintT z c src).1.calls ≤ 2 * nodes c ∧ (s.addConstraintT z c src).1.depth ≤ 2 * height c :=
  addT_bounds z s c src

/-- C104: nothing is evaluated if the text is no constraint on the table, or if Z3 does not find the state satisfiable. -/
theorem C104_unevaluated (z : Z3Oracle) (sys : Sys) (s : Solver) (text : Str)
    (h : (∀ c, (do
        let e ← parseConstraint sys .table ⟨text, { src := .tableName s.table.name }⟩
        inferAndCheck s.table.source (.table s.table.keysByName) e : Res Expr) ≠ .ok c) ∨
      ∀ val m, z.check s.calls s.assertions ≠ .sat val m) :
    (s.addConstraintStrT z sys text).1.calls = 0 := by
  unfold Solver.addConstraintStrT
  dsimp only
  split
  · rename_i c h1
    rcases h with h | h
    · exact absurd h1 (h c)
    · unfold Solver.addConstraintT Solver.check
      dsimp only
      split
      · rename_i val m h2
        exact absurd h2 (h val m)
      · rfl
  all_goals rfl

/-- C104: hence adding a text takes a number of calls linear in its length, and a recursion at most twice as deep as it is long,
and four, however many constraints were added before. -/
theorem C104_text (z : Z3Oracle) (sys : Sys) (s : Solver) (text : Str) :
    (s.addConstraintStrT z sys text).1.calls ≤ 6 * text.length ∧
    (s.addConstraintStrT z sys text).1.depth ≤ 2 * text.length + 4 := addStrT_bounds z sys s text

/-- C104: the same for making a solver for a table of a program, in the length of the constraint of the table. -/
theorem C104_create {sys : Sys} {p : P4Info} {ci : ConstraintInfo} (h : p4ToConstraintInfo sys p = .ok ci) {id : Nat}
    {ti : TableInfo} (hti : lookup id ci.tables = some ti) (z : Z3Oracle) (skip : Str → Res Bool) :
    (Solver.createT z ti skip).calls ≤ 6 * ti.source.str.length ∧
    (Solver.createT z ti skip).depth ≤ 2 * ti.source.str.length + 4 := by
  obtain ⟨d, _, _, hd⟩ := (table_of_info h).1 hti
  obtain ⟨_, _, _, _, hp⟩ := parseTableInfo_parts hd
  have h1 := nodesOf_text hp
  have h2 := heightOf_text hp
  have h3 := createT_bounds z ti skip
  omega

/-- C104: this is met, and there is no bound for all constraints: a constant with `n` negations, of `2 * n + 5` characters, takes
`2 * n + 2` calls, each in the other, in every state in which Z3 does not give up. -/
theorem C104_deep (z : Z3Oracle) (sys : Sys) (s : Solver) (n : Nat)
    (hz : ∃ val h, z.check s.calls s.assertions = .sat val h) :
    (bangs n).length = 2 * n + 5 ∧ (∃ b, (s.addConstraintStr z sys (bangs n)).1 = .ok b) ∧
    (s.addConstraintStrT z sys (bangs n)).1.calls = 2 * n + 2 ∧ (s.addConstraintStrT z sys (bangs n)).1.depth = 2 * n + 2 := by
  refine ⟨bangs_length n, ?_⟩
  rw [← res_addStrT]
  obtain ⟨e, h1, h2⟩ := C24_print_parse_text (sys := sys) (k := .table)
    (src := ⟨bangs n, { src := .tableName s.table.name }⟩) natDec_val (bangsExpr_writable .table n)
    (bangs_text natDec n 0 (by omega))
  obtain ⟨c, h3, -⟩ := infer_complete (src := s.table.source) (sc := .table s.table.keysByName) h2 (bangsExpr_ty _ n)
  have hb : ∀ n, bangsExpr n = negations n := by
    intro n
    induction n with
    | zero => rfl
    | succ n ih => simp only [bangsExpr, negations, ih]
  rw [hb] at h2
  obtain ⟨hty, h4⟩ := negations_sym n h2 h3
  obtain ⟨t, h5, h6, h7⟩ := h4 ⟨bangs n, { src := .tableName s.table.name }⟩ s.env
  have h8 : (do
      let e ← parseConstraint sys .table ⟨bangs n, { src := .tableName s.table.name }⟩
      inferAndCheck s.table.source (.table s.table.keysByName) e : Res Expr) = .ok c := by
    rw [h1]; exact h3
  obtain ⟨val, m, hz⟩ := hz
  have h9 : s.check z = (.sat val m, { s with calls := s.calls + 1 }) := by rw [Solver.check, hz]
  unfold Solver.addConstraintStrT
  dsimp only
  rw [h8]
  dsimp only
  have hx : evaluateConstraintSymbolicallyT c ⟨bangs n, { src := .tableName s.table.name }⟩ s.env =
      ⟨2 * n + 2, 2 * n + 2, .ok ⟨.bool, t⟩⟩ := by
    unfold evaluateConstraintSymbolicallyT symToExprT
    rw [if_neg (by simpa using hty)]
    generalize evalSymT ⟨bangs n, { src := .tableName s.table.name }⟩ s.env c = x at *
    obtain ⟨k, d, r⟩ := x
    dsimp only at h5 h6 h7
    subst h5 h6 h7
    show Counted.mk (1 + (2 * n + 1 + 0)) (max 0 (max (2 * n + 1) 0) + 1) _ = _
    congr 1 <;> omega
  unfold Solver.addConstraintT
  rw [h9]
  dsimp only
  rw [hx]
  dsimp only
  split
  · exact ⟨⟨_, rfl⟩, rfl, rfl⟩
  · exact ⟨⟨_, rfl⟩, rfl, rfl⟩

/-! ### Examples -/

/-- A constraint with 12 nodes, of height 5: 16 calls, and a recursion of depth 8. -/
example : ((Ex.treeSolver.addConstraintStrT (constOracle Ex.m1) Ex.sys c!"ex == 5 && !(tern::mask == 0)").1.calls,
    (Ex.treeSolver.addConstraintStrT (constOracle Ex.m1) Ex.sys c!"ex == 5 && !(tern::mask == 0)").1.depth) = (16, 8) := by
  decide +kernel

/-- A text that is no constraint on the table is not evaluated. -/
example : (Ex.treeSolver.addConstraintStrT (constOracle Ex.m1) Ex.sys c!"ex == nope").1.calls = 0 := by decide +kernel

example (text : Str) : (Ex.treeSolver.addConstraintStrT ⟨fun _ _ => .unknown⟩ Ex.sys text).1.calls = 0 :=
  C104_unevaluated _ _ _ _ (.inr fun _ _ h => by cases h)

/-- The solver for a table with a constraint. -/
example (z : Z3Oracle) (skip : Str → Res Bool) :
    (Solver.createT z (Ex.symTi Ex.d1) skip).depth ≤ 2 * Ex.sc1.length + 4 :=
  (C104_create (sys := Ex.sys) (p := Ex.symInfo Ex.d1) (ci := Ex.symCi Ex.d1) (id := 1) (Ex.get_of_isOk (by decide +kernel))
    (by decide +kernel) z skip).2

/-- Three negations. -/
example : (Ex.treeSolver.addConstraintStrT (constOracle Ex.m1) Ex.sys (bangs 3)).1.depth = 8 :=
  (C104_deep (constOracle Ex.m1) Ex.sys Ex.treeSolver 3 ⟨_, _, rfl⟩).2.2.2

end P4C
