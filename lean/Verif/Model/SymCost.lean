import Verif.Model.Cost
import Verif.Model.Symbolic

/-
Calls and recursion of `EvalSymbolically` and `EvalSymbolicallyTo`. The definitions repeat those of `Model/Symbolic.lean` with
the counters of `Model/Cost.lean`. Lexing, parsing and type checking of texts are counted in `Model/ParseCost.lean`, and the
queries to Z3 in `Model/Symbolic.lean` itself.
-/

namespace P4C

/-- `EvalSymbolicallyTo<z3::expr>` (symbolic_interpreter.cc:309-327). -/
def symToExprT (src : ConstraintSource) (e : Expr) (r : Counted SymResult) : Counted Z3Expr := deeper do
  call
  let r ← r
  match r with
  | .expr z => free (.ok z)
  | .key _ => free (runtimeTypeError src e.start e.stop)

/-- `EvalSymbolically` (symbolic_interpreter.cc:329-412). -/
def evalSymT (src : ConstraintSource) (env : SymEnv) : Expr → Counted SymResult
  | .boolConst i b => deeper do
    call
    free (evalSym src env (.boolConst i b))
  | .boolNeg _ e => deeper do
    call
    let z ← symToExprT src e (evalSymT src env e)
    let z ← free z.not
    free (.ok (.expr z))
  | .intConst i s => deeper do
    call
    free (evalSym src env (.intConst i s))
  | .arithNeg _ e => deeper do
    call
    let z ← symToExprT src e (evalSymT src env e)
    let z ← free z.neg
    free (.ok (.expr z))
  | .key i n => deeper do
    call
    free (evalSym src env (.key i n))
  | .actionParam i n => deeper do
    call
    free (evalSym src env (.actionParam i n))
  | .field i e f => deeper do
    call
    free (evalSym src env (.field i e f))
  | .attr i n => deeper do
    call
    free (evalSym src env (.attr i n))
  | .bin _ op l r => deeper do
    call
    let l ← evalSymT src env l
    let r ← evalSymT src env r
    let z ← free (symBin op l r)
    free (.ok (.expr z))
  | .typeCast i e => deeper do
    call
    let z ← symToExprT src e (evalSymT src env e)
    free (symCast z i.ty)
  | .notSet i => deeper do
    call
    free (evalSym src env (.notSet i))

/-- `EvaluateConstraintSymbolically` (symbolic_interpreter.cc:667-679). -/
def evaluateConstraintSymbolicallyT (c : Expr) (src : ConstraintSource) (env : SymEnv) : Counted Z3Expr :=
  if c.ty ≠ .boolean then free (.err .invalidArgument) else symToExprT src c (evalSymT src env c)

/-- The same costs with another outcome. -/
def Counted.withRes {α β : Type} (x : Counted α) (r : Res β) : Counted β := ⟨x.calls, x.depth, r⟩

/-- `AddConstraint(constraint, constraint_source)` (symbolic_interpreter.cc:731-751). -/
def Solver.addConstraintT (z : Z3Oracle) (s : Solver) (c : Expr) (src : ConstraintSource) : Counted Bool × Solver :=
  let (r, s) := s.check z
  match r with
  | .sat .. =>
    let x := evaluateConstraintSymbolicallyT c src s.env
    match x.res with
    | .ok ⟨.bool, t⟩ =>
      let (r, s') := Solver.check z { s with assertions := s.assertions ++ [t] }
      match r with
      | .sat .. => (x.withRes (.ok true), s')
      | _ => (x.withRes (.ok false), { s' with assertions := s.assertions })
    | .ok _ => (x.withRes .crash, s)
    | .err c => (x.withRes (.err c), s)
    | .crash => (x.withRes .crash, s)
    | .oof => (x.withRes .oof, s)
  | _ => (free (.err .internal), s)

/-- `AddConstraint(constraint_string)` (symbolic_interpreter.cc:753-769). -/
def Solver.addConstraintStrT (z : Z3Oracle) (sys : Sys) (s : Solver) (text : Str) : Counted Bool × Solver :=
  let src : ConstraintSource := ⟨text, { src := .tableName s.table.name }⟩
  match (do
    let e ← parseConstraint sys .table src
    inferAndCheck s.table.source (.table s.table.keysByName) e : Res Expr) with
  | .ok e => s.addConstraintT z e src
  | .err c => (free (.err c), s)
  | .crash => (free .crash, s)
  | .oof => (free .oof, s)

/-- `ConstraintSolver::Create` (symbolic_interpreter.cc:771-822). -/
def Solver.createT (z : Z3Oracle) (table : TableInfo) (skip : Str → Res Bool) : Counted Solver := do
  let keys := ordered table.keysByName
  let (ks, as) ← free (createKeys skip [] [] keys)
  let requiresPriority := keys.any fun kv => needsPriority kv.2.ty
  let s : Solver :=
    if requiresPriority then
      ⟨0, as ++ priorityAssertions, table, ⟨ks, [(c!"priority", ⟨.int, priorityTerm⟩)]⟩, skip⟩
    else ⟨0, as, table, ⟨ks, []⟩, skip⟩
  match table.constraint with
  | none => free (.ok s)
  | some c =>
    let (x, s) := s.addConstraintT z c table.source
    x.withRes (match x.res with
      | .ok true => .ok s
      | .ok false => .err .invalidArgument
      | .err c => .err c
      | .crash => .crash
      | .oof => .oof)

end P4C
