import Verif.Model.SymCost
import Verif.Proofs.EvalDepth
import Verif.Proofs.SolverCost

/-
Lemmas for C104: calls and recursion of the symbolic evaluation.
-/

namespace P4C

open Spec

/-! ### The results are the same -/

theorem res_symToExprT (src : ConstraintSource) (e : Expr) {x : Counted SymResult} {r : Res SymResult} (h : x.res = r) :
    (symToExprT src e x).res = symToExpr src e r := by
  simp only [symToExprT, symToExpr, res_deeper, Counted.res_bind, res_call, Res.ok_bind, h]
  cases r with
  | ok v => cases v <;> rfl
  | err | crash | oof => rfl

theorem res_evalSymT (src : ConstraintSource) (env : SymEnv) (e : Expr) : (evalSymT src env e).res = evalSym src env e := by
  induction e with
  | boolConst | intConst | key | actionParam | attr | notSet | field => rfl
  | boolNeg i e ih | arithNeg i e ih | typeCast i e ih =>
    simp only [evalSymT, evalSym, res_deeper, Counted.res_bind, res_call, Res.ok_bind, res_symToExprT src e ih, res_free]
  | bin i op l r ihl ihr =>
    simp only [evalSymT, evalSym, res_deeper, Counted.res_bind, res_call, Res.ok_bind, ihl, ihr, res_free]

theorem res_evaluateT (c : Expr) (src : ConstraintSource) (env : SymEnv) :
    (evaluateConstraintSymbolicallyT c src env).res = evaluateConstraintSymbolically c src env := by
  unfold evaluateConstraintSymbolicallyT evaluateConstraintSymbolically
  split
  · rfl
  · exact res_symToExprT src c (res_evalSymT src env c)

theorem res_addT (z : Z3Oracle) (s : Solver) (c : Expr) (src : ConstraintSource) :
    ((s.addConstraintT z c src).1.res, (s.addConstraintT z c src).2) = s.addConstraint z c src := by
  unfold Solver.addConstraintT Solver.addConstraint
  simp only [res_evaluateT]
  cases (s.check z).1 with
  | sat =>
    cases evaluateConstraintSymbolically c src (s.check z).2.env with
    | ok x =>
      obtain ⟨t, x⟩ := x
      cases t with
      | bool =>
        dsimp only
        generalize Solver.check z { (s.check z).2 with assertions := _ } = y
        obtain ⟨a, b⟩ := y
        cases a <;> rfl
      | _ => rfl
    | _ => rfl
  | _ => rfl

theorem res_addStrT (z : Z3Oracle) (sys : Sys) (s : Solver) (text : Str) :
    ((s.addConstraintStrT z sys text).1.res, (s.addConstraintStrT z sys text).2) = s.addConstraintStr z sys text := by
  unfold Solver.addConstraintStrT Solver.addConstraintStr
  dsimp only
  generalize (do
    let e ← parseConstraint sys .table ⟨text, { src := .tableName s.table.name }⟩
    inferAndCheck s.table.source (.table s.table.keysByName) e : Res Expr) = r
  cases r with
  | ok e => exact res_addT ..
  | _ => rfl

theorem res_createT (z : Z3Oracle) (table : TableInfo) (skip : Str → Res Bool) :
    (Solver.createT z table skip).res = Solver.create z table skip := by
  unfold Solver.createT Solver.create
  simp only [Counted.res_bind, res_free]
  congr 1
  funext ⟨ks, as⟩
  dsimp only
  cases table.constraint with
  | none => rfl
  | some c =>
    dsimp only [Counted.withRes]
    rw [← res_addT]
    cases (Solver.addConstraintT z _ c table.source).1.res with
    | ok b => cases b <;> rfl
    | _ => rfl

/-! ### Bounds -/

theorem calls_bind {α β : Type} {x : Counted α} {f : α → Counted β} {m n : Nat} (hx : x.calls ≤ m)
    (hf : ∀ a, (f a).calls ≤ n) : (x >>= f).calls ≤ m + n := by
  obtain ⟨k, d, r⟩ := x
  cases r with
  | ok a => exact Nat.add_le_add hx (hf a)
  | _ => exact Nat.le_trans hx (Nat.le_add_right ..)

theorem calls_deeper {α : Type} (x : Counted α) : (deeper x).calls = x.calls := rfl

theorem calls_deeper_le {α : Type} {x : Counted α} {n : Nat} (h : x.calls ≤ n) : (deeper x).calls ≤ n := h

theorem calls_free {α : Type} (r : Res α) : (free r).calls = 0 := rfl

theorem calls_call {α : Type} {f : Unit → Counted α} {n : Nat} (h : (f ()).calls ≤ n) : (call >>= f).calls ≤ n + 1 := by
  have : (call >>= f).calls = 1 + (f ()).calls := rfl
  omega

theorem calls_toExpr {src : ConstraintSource} {e : Expr} {x : Counted SymResult} {n : Nat} (h : x.calls ≤ n) :
    (symToExprT src e x).calls ≤ n + 1 := by
  unfold symToExprT
  rw [calls_deeper]
  refine calls_call (calls_bind (n := 0) h fun a => ?_)
  cases a <;> exact Nat.le_refl _

theorem depth_toExpr {src : ConstraintSource} {e : Expr} {x : Counted SymResult} {n : Nat} (h : x.depth ≤ n) :
    (symToExprT src e x).depth ≤ n + 1 := by
  refine depth_deeper (depth_call (depth_bind h fun a _ => ?_))
  cases a <;> exact depth_free

theorem nodes_pos' (e : Expr) : 1 ≤ nodes e := by
  cases e <;> simp only [nodes] <;> omega

theorem calls_evalSymT (src : ConstraintSource) (env : SymEnv) (e : Expr) : (evalSymT src env e).calls + 1 ≤ 2 * nodes e := by
  induction e with
  | boolConst | intConst | key | actionParam | attr | notSet => exact Nat.le_refl _
  | field i e f ih =>
    have := nodes_pos' e
    have : (evalSymT src env (.field i e f)).calls = 1 := rfl
    simp only [nodes]
    omega
  | boolNeg i e ih | arithNeg i e ih =>
    have h : (symToExprT src e (evalSymT src env e)).calls ≤ (2 * nodes e - 1) + 1 := calls_toExpr (by omega)
    have := nodes_pos' e
    refine Nat.le_trans (Nat.succ_le_succ (calls_deeper_le (calls_call (calls_bind (n := 0) h fun _ => calls_bind (m := 0) (n := 0)
      (Nat.le_refl _) fun _ => Nat.le_refl _)))) ?_
    simp only [nodes]
    omega
  | typeCast i e ih =>
    have h : (symToExprT src e (evalSymT src env e)).calls ≤ (2 * nodes e - 1) + 1 := calls_toExpr (by omega)
    have := nodes_pos' e
    refine Nat.le_trans (Nat.succ_le_succ (calls_deeper_le (calls_call (calls_bind (n := 0) h fun _ => Nat.le_refl _)))) ?_
    simp only [nodes]
    omega
  | bin i op l r ihl ihr =>
    have := nodes_pos' l
    have := nodes_pos' r
    have hl : (evalSymT src env l).calls ≤ 2 * nodes l - 1 := by omega
    have hr : (evalSymT src env r).calls ≤ 2 * nodes r - 1 := by omega
    refine Nat.le_trans (Nat.succ_le_succ (calls_deeper_le (calls_call (calls_bind hl fun _ =>
      calls_bind hr fun _ => calls_bind (m := 0) (n := 0) (Nat.le_refl _) fun _ => Nat.le_refl _)))) ?_
    simp only [nodes]
    omega

theorem depth_evalSymT (src : ConstraintSource) (env : SymEnv) (e : Expr) : (evalSymT src env e).depth + 1 ≤ 2 * height e := by
  induction e with
  | boolConst | intConst | key | actionParam | attr | notSet => exact Nat.le_refl _
  | field i e f ih =>
    have := height_pos e
    have : (evalSymT src env (.field i e f)).depth = 1 := rfl
    simp only [height]
    omega
  | boolNeg i e ih | arithNeg i e ih =>
    have h : (symToExprT src e (evalSymT src env e)).depth ≤ (2 * height e - 1) + 1 := depth_toExpr (by omega)
    have := height_pos e
    refine Nat.le_trans (Nat.succ_le_succ (depth_deeper (depth_call (depth_bind h fun _ _ => depth_bind depth_free
      fun _ _ => depth_free)))) ?_
    simp only [height]
    omega
  | typeCast i e ih =>
    have h : (symToExprT src e (evalSymT src env e)).depth ≤ (2 * height e - 1) + 1 := depth_toExpr (by omega)
    have := height_pos e
    refine Nat.le_trans (Nat.succ_le_succ (depth_deeper (depth_call (depth_bind h fun _ _ => depth_free)))) ?_
    simp only [height]
    omega
  | bin i op l r ihl ihr =>
    have := height_pos l
    have := height_pos r
    refine Nat.le_trans (Nat.succ_le_succ (depth_deeper (depth_call (depth_bind (n := 2 * max (height l) (height r) - 1) (by omega)
      fun _ _ => depth_bind (by omega) fun _ _ => depth_bind depth_free fun _ _ => depth_free)))) ?_
    simp only [height]
    omega

theorem evaluateT_bounds (c : Expr) (src : ConstraintSource) (env : SymEnv) :
    (evaluateConstraintSymbolicallyT c src env).calls ≤ 2 * nodes c ∧
    (evaluateConstraintSymbolicallyT c src env).depth ≤ 2 * height c := by
  unfold evaluateConstraintSymbolicallyT
  split
  · exact ⟨Nat.zero_le _, Nat.zero_le _⟩
  · have h1 := calls_evalSymT src env c
    have h2 := depth_evalSymT src env c
    have h3 := calls_toExpr (src := src) (e := c) (Nat.le_refl (evalSymT src env c).calls)
    have h4 := depth_toExpr (src := src) (e := c) (Nat.le_refl (evalSymT src env c).depth)
    omega

/-- The costs of adding a constraint are those of evaluating it, if Z3 finds the assertions satisfiable, and there are none
otherwise. -/
theorem addT_costs (z : Z3Oracle) (s : Solver) (c : Expr) (src : ConstraintSource) :
    ((s.addConstraintT z c src).1.calls = (evaluateConstraintSymbolicallyT c src s.env).calls ∧
      (s.addConstraintT z c src).1.depth = (evaluateConstraintSymbolicallyT c src s.env).depth) ∨
    ((s.addConstraintT z c src).1.calls = 0 ∧ (s.addConstraintT z c src).1.depth = 0 ∧
      (s.addConstraint z c src).1 = .err .internal) := by
  unfold Solver.addConstraintT Solver.addConstraint
  dsimp only
  have he : (s.check z).2.env = s.env := rfl
  rw [he]
  cases (s.check z).1 with
  | sat =>
    left
    dsimp only
    split
    · split <;> exact ⟨rfl, rfl⟩
    all_goals exact ⟨rfl, rfl⟩
  | _ => exact .inr ⟨rfl, rfl, rfl⟩

theorem addT_bounds (z : Z3Oracle) (s : Solver) (c : Expr) (src : ConstraintSource) :
    (s.addConstraintT z c src).1.calls ≤ 2 * nodes c ∧ (s.addConstraintT z c src).1.depth ≤ 2 * height c := by
  have := evaluateT_bounds c src s.env
  rcases addT_costs z s c src with h | h <;> omega

theorem addStrT_bounds (z : Z3Oracle) (sys : Sys) (s : Solver) (text : Str) :
    (s.addConstraintStrT z sys text).1.calls ≤ 6 * text.length ∧
    (s.addConstraintStrT z sys text).1.depth ≤ 2 * text.length + 4 := by
  unfold Solver.addConstraintStrT
  dsimp only
  split
  · rename_i e he
    simp only [Res.bind_eq_ok] at he
    obtain ⟨e0, hp, hi⟩ := he
    have h1 := nodes_text (parseConstraint_iff.1 hp)
    have h2 := nodes_infer hi
    have h3 := height_le_nodes e0
    have h4 := (height_infer hi).1
    have h5 := addT_bounds z s e ⟨text, { src := .tableName s.table.name }⟩
    dsimp only at h1
    omega
  all_goals exact ⟨Nat.zero_le _, Nat.zero_le _⟩

theorem createT_bounds (z : Z3Oracle) (table : TableInfo) (skip : Str → Res Bool) :
    (Solver.createT z table skip).calls ≤ 2 * nodesOf table.constraint ∧
    (Solver.createT z table skip).depth ≤ 2 * heightOf table.constraint := by
  unfold Solver.createT
  have key : ∀ (s : Solver), ((match table.constraint with
      | none => free (.ok s)
      | some c =>
        (s.addConstraintT z c table.source).1.withRes (match (s.addConstraintT z c table.source).1.res with
          | .ok true => .ok (s.addConstraintT z c table.source).2
          | .ok false => .err .invalidArgument
          | .err c => .err c
          | .crash => .crash
          | .oof => .oof)) : Counted Solver).calls ≤ 2 * nodesOf table.constraint ∧ ((match table.constraint with
      | none => free (.ok s)
      | some c =>
        (s.addConstraintT z c table.source).1.withRes (match (s.addConstraintT z c table.source).1.res with
          | .ok true => .ok (s.addConstraintT z c table.source).2
          | .ok false => .err .invalidArgument
          | .err c => .err c
          | .crash => .crash
          | .oof => .oof)) : Counted Solver).depth ≤ 2 * heightOf table.constraint := by
    intro s
    cases table.constraint with
    | none => exact ⟨Nat.zero_le _, Nat.zero_le _⟩
    | some c => exact addT_bounds z s c table.source
  constructor
  · refine Nat.le_trans (calls_bind (m := 0) (n := 2 * nodesOf table.constraint) (Nat.le_refl _) fun x => ?_) (by omega)
    exact (key _).1
  · refine depth_bind depth_free fun x _ => ?_
    exact (key _).2

/-! ### Chains of negations -/

theorem negations_sym {src : ConstraintSource} {sc : Scope} : ∀ (n : Nat) {e c : Expr}, abs e = some (negations n) →
    inferAndCheck src sc e = .ok c → c.ty = .boolean ∧ ∀ src' env, ∃ t, (evalSymT src' env c).res = .ok (.expr ⟨.bool, t⟩) ∧
      (evalSymT src' env c).calls = 2 * n + 1 ∧ (evalSymT src' env c).depth = 2 * n + 1
  | 0, e, c, h, hi => by
    obtain ⟨i, rfl⟩ := abs_bool h
    cases hi
    exact ⟨rfl, fun _ _ => ⟨_, rfl, rfl, rfl⟩⟩
  | n + 1, e, c, h, hi => by
    obtain ⟨i, a, rfl, ha⟩ := abs_not h
    simp only [inferAndCheck, Res.bind_eq_ok] at hi
    obtain ⟨a', hi', hi⟩ := hi
    obtain ⟨h1, h2⟩ := negations_sym n ha hi'
    split at hi
    · exact (quotingError_ne_ok.1 hi).elim
    cases hi
    refine ⟨rfl, fun src' env => ?_⟩
    obtain ⟨t, h3, h4, h5⟩ := h2 src' env
    refine ⟨.not t, ?_⟩
    generalize hx : evalSymT src' env a' = x at *
    obtain ⟨k, d, r⟩ := x
    dsimp only at h3 h4 h5
    subst h3 h4 h5
    simp only [evalSymT, hx]
    refine ⟨rfl, ?_, ?_⟩
    · show 1 + ((1 + (2 * n + 1 + 0)) + (0 + 0)) = _
      omega
    · show max 0 (max (max 0 (max (2 * n + 1) 0) + 1) (max 0 0)) + 1 = _
      omega

end P4C
