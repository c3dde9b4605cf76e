import Verif.Model.Symbolic
import Verif.Model.Cli

/-
The library in a build with assertions. The other modules model a release build, in which `DCHECK(..)` does nothing. Here the
functions that contain a `DCHECK`, and those that call them, are modelled again, and a `DCHECK` whose condition is false ends
the process (`crash`).

The same is done for those `LOG(ERROR)` that report a bug of the library: with the switch `logs` they end the process, too.
No build does that; it is a way to say that nothing is logged.
-/

namespace P4C

/-- Which checks are made: the `DCHECK`s (a build without `NDEBUG`), and the `LOG(ERROR)`s. -/
structure Checks where
  dchecks : Bool
  logs : Bool
deriving DecidableEq, Repr

/-- `DCHECK(c)`. -/
def Checks.dcheck (m : Checks) (c : Bool) : Res Unit := if m.dchecks && !c then .crash else .ok ()

/-- `if (!c) LOG(ERROR) << ..`. -/
def Checks.log (m : Checks) (c : Bool) : Res Unit := if m.logs && !c then .crash else .ok ()

/-! ### `frontend/token.cc` -/

/-- The loop that initializes `kind_keyword_map` (token.cc:121-126). -/
def kindKeywordMapD (m : Checks) : List (Str × Kind) → List Kind → Res (List (Str × Kind))
  | acc, [] => .ok acc
  | acc, k :: ks => do
    m.dcheck (insertNew (kindToKeyword k) k acc).isSome
    kindKeywordMapD m ((insertNew (kindToKeyword k) k acc).getD acc) ks

/-! ### `frontend/lexer.cc` -/

/-- `SwallowMultiLineComment` (lexer.cc:38-69) with the `LOG(ERROR)` of line 61 and the `DCHECK` of line 64. -/
def swallowCommentD (m : Checks) : Nat → Str → Loc → Res (Str × Loc)
  | 0, input, loc => do
    m.dcheck input.isEmpty
    .ok (input, loc)
  | fuel + 1, input, loc =>
    match commentRegexp.first input with
    | none => do
      m.dcheck input.isEmpty
      .ok (input, loc)
    | some x =>
      let rest := input.drop x.1
      if capture .endOfComment x ≠ [] then
        .ok (rest, { loc with col := loc.col + (capture .endOfComment x).length })
      else if capture .fragment x ≠ [] then
        swallowCommentD m fuel rest { loc with col := loc.col + (capture .fragment x).length }
      else do
        m.log (capture .newline x ≠ [])
        swallowCommentD m fuel rest { loc with line := loc.line + 1, col := 0 }

/-- The kind and the text of a token (lexer.cc:156-191), with the `LOG(ERROR)`s of lines 161 and 188. -/
def tokenKindD (m : Checks) (x : Match) (lexeme : Str) : Res (Kind × Str) :=
  if capture .keyword x ≠ [] then do
    m.log (keywordToKind lexeme).isSome
    .ok ((keywordToKind lexeme).getD .unexpectedChar, lexeme)
  else if capture .id x ≠ [] then .ok (.id, lexeme)
  else if capture .binary x ≠ [] then .ok (.binary, capture .binary x)
  else if capture .octary x ≠ [] then .ok (.octary, capture .octary x)
  else if capture .decimal x ≠ [] then .ok (.decimal, capture .decimal x)
  else if capture .hexadec x ≠ [] then .ok (.hexadec, capture .hexadec x)
  else if capture .string x ≠ [] then
    .ok (.string, ((capture .string x).drop 1).take ((capture .string x).length - 2))
  else do
    m.log false
    .ok (.unexpectedChar, lexeme)

/-- The loop of `Tokenize` (lexer.cc:131-210), with both `start_location` and `current_location`, and the `DCHECK_EQ` of
line 134. -/
def tokenizeFD (m : Checks) : Nat → Str → Loc → Loc → Res (List Token)
  | 0, _, _, _ => .ok []
  | fuel + 1, input, start, cur =>
    match tokenPattern.first input with
    | none =>
      match input with
      | [] => .ok [⟨.endOfInput, [], start, cur⟩]
      | c :: _ => .ok [⟨.unexpectedChar, [c], start, { cur with col := cur.col + 1 }⟩]
    | some x => do
      m.dcheck (start = cur)
      let lexeme := input.take x.1
      let rest := input.drop x.1
      let cur := { cur with col := cur.col + lexeme.length }
      if capture .whitespace x ≠ [] ∨ capture .comment x ≠ [] then
        tokenizeFD m fuel rest cur cur
      else if capture .newline x ≠ [] then
        tokenizeFD m fuel rest { cur with line := cur.line + 1, col := 0 } { cur with line := cur.line + 1, col := 0 }
      else if capture .beginMultilineComment x ≠ [] then do
        let (rest, cur) ← swallowCommentD m rest.length rest cur
        tokenizeFD m fuel rest cur cur
      else do
        let (kind, text) ← tokenKindD m x lexeme
        let ts ← tokenizeFD m fuel rest cur cur
        .ok (⟨kind, text, start, cur⟩ :: ts)

/-- `Tokenize` (lexer.cc:115-211). -/
def tokenizeD (m : Checks) (src : ConstraintSource) : Res (List Token) :=
  tokenizeFD m (src.str.length + 1) src.str src.loc src.loc

/-! ### `frontend/parser.cc` -/

/-- Is this one of the tokens for which `TokenPrecedence` (parser.cc:110-137) has a case? -/
def hasPrecedence : Kind → Bool
  | .doubleColon | .bang | .minus | .eq | .ne | .gt | .ge | .lt | .le | .and | .or | .implies | .semicolon => true
  | _ => false

/-- `TokenPrecedence` (parser.cc:110-137) with the `LOG(ERROR)` of line 133. -/
def tokenPrecedenceD (m : Checks) (k : Kind) : Res Nat := do
  m.log (hasPrecedence k)
  .ok (tokenPrecedence k)

mutual

/-- `ParseConstraintAbove` (parser.cc:233-372), up to the loop. -/
def parseAboveD (m : Checks) (sys : Sys) (k : ConstraintKind) (src : ConstraintSource) :
    Nat → Nat → Stream → Res (Expr × Stream)
  | 0, _, _ => .oof
  | fuel + 1, prec, s0 => do
    let t := s0.peek
    let s := s0.next
    let (ast, s) ← (match t.kind with
      | .true_ | .false_ => do
        let e ← makeBooleanConstant t
        .ok (e, s)
      | .binary | .octary | .decimal | .hexadec => do
        let e ← makeIntegerConstant t
        .ok (e, s)
      | .id =>
        if s.peek.kind = .lpar then do
          let (strTok, s) ← expectTokenKind .string src s.next
          let (rpar, s) ← expectTokenKind .rpar src s
          let e ← makeNetworkAddress sys t.text strTok.text t.start rpar.stop
          .ok (e, s)
        else do
          let (ids, s) ← parseDots src (s.rest.length + 1) [t] s
          let e ← makeVariable ids k
          .ok (e, s)
      | .doubleColon => do
        let (name, s) ← expectTokenKind .id src s
        let e ← makeAttributeAccess t name
        .ok (e, s)
      | .bang => do
        let p ← tokenPrecedenceD m .bang
        let (e, s) ← parseAboveD m sys k src fuel p s
        let e ← makeBooleanNegation t e
        .ok (e, s)
      | .minus => do
        let p ← tokenPrecedenceD m .minus
        let (e, s) ← parseAboveD m sys k src fuel p s
        let e ← makeArithmeticNegation t e
        .ok (e, s)
      | .lpar => do
        let (e, s) ← parseAboveD m sys k src fuel 0 s
        let (_, s) ← expectTokenKind .rpar src s
        .ok (e, s)
      | _ => parseError t src)
    parseExtD m sys k src fuel prec ast s

/-- The loop of `ParseConstraintAbove` (parser.cc:315-371) with the `DCHECK` of line 352. -/
def parseExtD (m : Checks) (sys : Sys) (k : ConstraintKind) (src : ConstraintSource) :
    Nat → Nat → Expr → Stream → Res (Expr × Stream)
  | 0, _, _, _ => .oof
  | fuel + 1, prec, ast, s =>
    let t := s.peek
    if t.kind = .endOfInput ∨ t.kind = .rpar then .ok (ast, s)
    else if isExtension t.kind then do
      let p ← tokenPrecedenceD m t.kind
      if prec = p ∧ tokenAssociativity t.kind = .none then parseError t src
      else if prec > p ∨ (prec = p ∧ tokenAssociativity t.kind = .left) then .ok (ast, s)
      else do
        let s := s.next
        m.dcheck (prec < p ∨ (prec = p ∧ tokenAssociativity t.kind = .right))
        if t.kind = .semicolon ∧ (s.peek.kind = .endOfInput ∨ s.peek.kind = .rpar) then .ok (ast, s)
        else if t.kind = .doubleColon then do
          let (f, s) ← expectTokenKind .id src s
          let ast ← makeFieldAccess ast f
          parseExtD m sys k src fuel prec ast s
        else do
          let (another, s) ← parseAboveD m sys k src fuel p s
          let ast ← makeBinaryExpression t ast another
          parseExtD m sys k src fuel prec ast s
    else parseError t src

end

/-- `internal_parser::ParseConstraint` (parser.cc:380-388). -/
def parseTokensD (m : Checks) (sys : Sys) (k : ConstraintKind) (ts : List Token) (src : ConstraintSource) :
    Res Expr := do
  let (ast, s) ← parseAboveD m sys k src (2 * ts.length + 2) 0 ⟨ts, eofLoc ts⟩
  let _ ← expectTokenKind .endOfInput src s
  .ok ast

/-- `ParseConstraint` (parser.cc:394-398). -/
def parseConstraintD (m : Checks) (sys : Sys) (k : ConstraintKind) (src : ConstraintSource) : Res Expr := do
  let ts ← tokenizeD m src
  parseTokensD m sys k ts src

/-! ### `backend/type_checker.cc` -/

/-- `CastTransitivelyTo` (type_checker.cc:141-160), the first `if` with the `DCHECK_NE` of line 147. -/
def castIntStepD (m : Checks) (e : Expr) (target : Ty) : Res Expr :=
  if strictlyAbove target e.ty ∧ e.ty = .arbitraryInt then do
    m.dcheck ((typeBitwidth target).getD (-1) ≠ -1)
    .ok (wrapWithCast e (.fixedUnsigned ((typeBitwidth target).getD (-1))))
  else .ok e

/-- `CastTransitivelyTo` (type_checker.cc:141-160) with the `DCHECK_EQ` of line 158. -/
def castTransitivelyToD (m : Checks) (e : Expr) (target : Ty) : Res Expr := do
  let e ← castIntStepD m e target
  let e := if strictlyAbove target e.ty ∧ isFixedUnsigned e.ty then wrapWithCast e target else e
  m.dcheck (e.ty = target)
  .ok e

/-- `Unify` (type_checker.cc:174-186). -/
def unifyD (m : Checks) (src : ConstraintSource) (l r : Expr) : Res (Ty × Expr × Expr) :=
  match leastUpperBound l.ty r.ty with
  | none => quotingError src l.start r.stop
  | some t => do
    let l ← castTransitivelyToD m l t
    let r ← castTransitivelyToD m r t
    .ok (t, l, r)

/-- `FieldTypeOfCompositeType` (type_checker.cc:206-219) with the `LOG(ERROR)` of line 214. -/
def fieldTypeOfCompositeTypeD (m : Checks) (t : Ty) (f : Str) : Res (Option Ty) :=
  match kFieldTypes t.case f with
  | none => .ok none
  | some c => do
    m.log (typeBitwidth t).isSome
    .ok (some (setTypeBitwidth (typeCaseToType c) ((typeBitwidth t).getD (-1))))

/-- `InferAndCheckTypes` (type_checker.cc:231-434). -/
def inferAndCheckD (m : Checks) (src : ConstraintSource) (sc : Scope) : Expr → Res Expr
  | .boolConst i b => inferAndCheck src sc (.boolConst i b)
  | .intConst i s => inferAndCheck src sc (.intConst i s)
  | .key i n => inferAndCheck src sc (.key i n)
  | .actionParam i n => inferAndCheck src sc (.actionParam i n)
  | .boolNeg i e => do
    let e ← inferAndCheckD m src sc e
    if e.ty ≠ .boolean then quotingError src e.start e.stop
    else .ok (.boolNeg (i.withTy .boolean) e)
  | .arithNeg i e => do
    let e ← inferAndCheckD m src sc e
    if e.ty ≠ .arbitraryInt then quotingError src e.start e.stop
    else .ok (.arithNeg (i.withTy .arbitraryInt) e)
  | .typeCast i e => inferAndCheck src sc (.typeCast i e)
  | .bin i op l r => do
    let l ← inferAndCheckD m src sc l
    let r ← inferAndCheckD m src sc r
    match op with
    | .and | .or | .implies =>
      if l.ty ≠ .boolean then quotingError src l.start l.stop
      else if r.ty ≠ .boolean then quotingError src r.start r.stop
      else .ok (.bin (i.withTy .boolean) op l r)
    | .gt | .ge | .lt | .le | .eq | .ne => do
      let (t, l, r) ← unifyD m src l r
      if op ≠ .eq ∧ op ≠ .ne ∧ !typeHasOrdering t then quotingError src i.start i.stop
      else .ok (.bin (i.withTy .boolean) op l r)
    | .unknown => .err .internal
  | .field i e f => do
    let e ← inferAndCheckD m src sc e
    let t ← fieldTypeOfCompositeTypeD m e.ty f
    match t with
    | none => quotingError src i.start i.stop
    | some t => .ok (.field (i.withTy t) e f)
  | .attr i n => inferAndCheck src sc (.attr i n)
  | .notSet i => inferAndCheck src sc (.notSet i)

/-! ### `backend/constraint_info.cc` -/

/-- Extract, parse and type check a constraint (constraint_info.cc:250-273 and 300-320). -/
def parseAndCheckD (m : Checks) (sys : Sys) (k : ConstraintKind) (p : Preamble) (sc : Scope) :
    Res (Option Expr × ConstraintSource) := do
  let source ← extractConstraint k p
  match source with
  | none => .ok (none, {})
  | some src => do
    let e ← parseConstraintD m sys k src
    let e ← inferAndCheckD m src sc e
    .ok (some e, src)

/-- `ParseTableInfo` (constraint_info.cc:231-276). -/
def parseTableInfoD (m : Checks) (sys : Sys) (t : TableDecl) : Res TableInfo := do
  let (byId, byName) ← parseKeys ([], []) t.matchFields
  let (constraint, src) ← parseAndCheckD m sys .table t.preamble (.table byName)
  .ok ⟨t.preamble.id, t.preamble.name, constraint, src, byId, byName⟩

/-- `ParseActionInfo` (constraint_info.cc:278-322). -/
def parseActionInfoD (m : Checks) (sys : Sys) (a : ActionDecl) : Res ActionInfo := do
  let (byId, byName) ← parseParamDecls ([], []) a.params
  let (constraint, src) ← parseAndCheckD m sys .action a.preamble (.action byName)
  .ok ⟨a.preamble.id, a.preamble.name, constraint, src, byId, byName⟩

/-- `P4ToConstraintInfo` (constraint_info.cc:354-398). -/
def p4ToConstraintInfoD (m : Checks) (sys : Sys) (p : P4Info) : Res ConstraintInfo := do
  let (tables, f1) ← collect (parseTableInfoD m sys) (fun t => t.preamble.id) ([], false) p.tables
  let (actions, f2) ← collect (parseActionInfoD m sys) (fun a => a.preamble.id) ([], false) p.actions
  if f1 || f2 then .err .invalidArgument else .ok ⟨actions, tables⟩

/-! ### `backend/interpreter.cc` -/

/-- The switch of `EvalAndCastTo` (interpreter.cc:317-364) with the `DCHECK_NE` of line 322. -/
def castValueD (m : Checks) (ctx : EvalCtx) (e : Expr) (t : Ty) (v : Value) : Res Value :=
  match v with
  | .int z => do
    m.dcheck ((typeBitwidth t).getD (-1) ≠ -1)
    castValue ctx e t (.int z)
  | v => castValue ctx e t v

/-- `Eval` and `Eval_` (interpreter.cc:664-830). -/
def evalD (m : Checks) (ctx : EvalCtx) : Expr → Path → Cache → Res (Value × Cache)
  | .boolConst i b, p, c => eval ctx (.boolConst i b) p c
  | .intConst i s, p, c => eval ctx (.intConst i s) p c
  | .key i n, p, c => eval ctx (.key i n) p c
  | .actionParam i n, p, c => eval ctx (.actionParam i n) p c
  | .attr i n, p, c => eval ctx (.attr i n) p c
  | .boolNeg i e, p, c => dynCheck ctx (.boolNeg i e) (do
      let (b, c) ← evalToBoolWith ctx e (0 :: p) (fun c => evalD m ctx e (0 :: p) c) c
      .ok (.bool (!b), c))
  | .arithNeg i e, p, c => dynCheck ctx (.arithNeg i e) (do
      let (z, c) ← evalToIntWith ctx e (fun c => evalD m ctx e (0 :: p) c) c
      .ok (.int (-z), c))
  | .typeCast i e, p, c => dynCheck ctx (.typeCast i e) (do
      let (v, c) ← evalD m ctx e (0 :: p) c
      let v ← castValueD m ctx e i.ty v
      .ok (v, c))
  | .bin i op l r, p, c => dynCheck ctx (.bin i op l r)
      (match op with
       | .eq | .ne => do
         let (lv, c) ← evalD m ctx l (0 :: p) c
         let (rv, c) ← evalD m ctx r (1 :: p) c
         .ok (.bool (if op = .eq then lv = rv else !(lv = rv)), c)
       | .gt | .ge | .lt | .le => do
         let (lv, c) ← evalToIntWith ctx l (fun c => evalD m ctx l (0 :: p) c) c
         let (rv, c) ← evalToIntWith ctx r (fun c => evalD m ctx r (1 :: p) c) c
         .ok (.bool (match op with
           | .gt => lv > rv
           | .ge => lv ≥ rv
           | .lt => lv < rv
           | _ => lv ≤ rv), c)
       | .and => do
         let (lb, c) ← evalToBoolWith ctx l (0 :: p) (fun c => evalD m ctx l (0 :: p) c) c
         if lb then do
           let (rb, c) ← evalToBoolWith ctx r (1 :: p) (fun c => evalD m ctx r (1 :: p) c) c
           .ok (.bool rb, c)
         else .ok (.bool false, c)
       | .or => do
         let (lb, c) ← evalToBoolWith ctx l (0 :: p) (fun c => evalD m ctx l (0 :: p) c) c
         if lb then .ok (.bool true, c)
         else do
           let (rb, c) ← evalToBoolWith ctx r (1 :: p) (fun c => evalD m ctx r (1 :: p) c) c
           .ok (.bool rb, c)
       | .implies => do
         let (lb, c) ← evalToBoolWith ctx l (0 :: p) (fun c => evalD m ctx l (0 :: p) c) c
         if lb then do
           let (rb, c) ← evalToBoolWith ctx r (1 :: p) (fun c => evalD m ctx r (1 :: p) c) c
           .ok (.bool rb, c)
         else .ok (.bool true, c)
       | .unknown => .err .internal)
  | .field i e f, p, c => dynCheck ctx (.field i e f) (do
      let (v, c) ← evalD m ctx e (0 :: p) c
      match evalFieldAccess f v with
      | some v => .ok (v, c)
      | none => rtError ctx (.field i e f))
  | .notSet i, p, c => eval ctx (.notSet i) p c

/-- `EvalToBool(.., &eval_cache)` (interpreter.cc:281-298). -/
def evalToBoolD (m : Checks) (ctx : EvalCtx) (e : Expr) (p : Path) (c : EvalCache) : Res (Bool × EvalCache) := do
  let (b, c') ← evalToBoolWith ctx e p (fun c => evalD m ctx e p c) (some c)
  .ok (b, c'.getD c)

/-- `MinimalSubexpressionLeadingToEvalResult` (interpreter.cc:480-588). -/
def minimalSubD (m : Checks) (ctx : EvalCtx) : Expr → Path → Caches → Res (Node × Caches)
  | .boolConst i b, p, cs => .ok ((.boolConst i b, p), cs)
  | .boolNeg _ e, p, cs => minimalSubD m ctx e (0 :: p) cs
  | .bin i op l r, p, cs =>
    match op with
    | .eq | .ne | .gt | .ge | .lt | .le => .ok ((.bin i op l r, p), cs)
    | .and | .or | .implies => do
      let (lb, ec) ← evalToBoolD m ctx l (0 :: p) cs.1
      let (rb, ec) ← evalToBoolD m ctx r (1 :: p) ec
      let cs := (ec, cs.2)
      let lc := if op = .or then lb else !lb
      let rc := if op = .and then !rb else rb
      match lc, rc with
      | false, false => .ok ((.bin i op l r, p), cs)
      | true, false => minimalSubD m ctx l (0 :: p) cs
      | false, true => minimalSubD m ctx r (1 :: p) cs
      | true, true => do
        let (n0, cs) ← minimalSubD m ctx l (0 :: p) cs
        let (n1, cs) ← minimalSubD m ctx r (1 :: p) cs
        let (s0, sc) ← sizeC n0.1 n0.2 cs.2
        let (s1, sc) ← sizeC n1.1 n1.2 sc
        .ok (if s0 ≤ s1 then n0 else n1, (cs.1, sc))
    | .unknown => .err .internal
  | .notSet _, _, _ | .intConst .., _, _ | .key .., _, _ | .actionParam .., _, _ | .arithNeg .., _, _
  | .typeCast .., _, _ | .field .., _, _ | .attr .., _, _ => .err .internal

/-- `ExplainConstraintViolation` (interpreter.cc:591-656). -/
def explainViolationD (m : Checks) (ctx : EvalCtx) (e : Expr) (ec : EvalCache) : Res Str := do
  let (n, cs) ← minimalSubD m ctx e [] (ec, [])
  let (truth, _) ← evalToBoolD m ctx n.1 n.2 cs.1
  let reason ← quoteSub ctx.src n.1.start n.1.stop
  .ok (violationText ctx.vals truth reason (getVariables n.1))

/-- The part common to table and action constraints (interpreter.cc:845-863 and 902-923). -/
def checkConstraintD (m : Checks) (constraint : Expr) (parse : Res EvalCtx) : Res Str :=
  if constraint.ty ≠ .boolean then .err .invalidArgument
  else do
    let ctx ← parse
    let (b, ec) ← evalToBoolD m ctx constraint [] []
    if b then .ok [] else explainViolationD m ctx constraint ec

/-- `ReasonEntryViolatesConstraint(Action)` (interpreter.cc:832-864). -/
def reasonActionD (m : Checks) (a : RtAction) (ci : ConstraintInfo) : Res Str :=
  match getActionInfo ci a.actionId with
  | none => .err .invalidArgument
  | some ai =>
    match ai.constraint with
    | none => .ok []
    | some constraint => checkConstraintD m constraint (parseAction a ai)

/-- `ReasonEntryViolatesConstraint(ActionProfileActionSet)` (interpreter.cc:866-877). -/
def reasonActionSetD (m : Checks) (ci : ConstraintInfo) : List RtAction → Res Str
  | [] => .ok []
  | a :: as => do
    let reason ← reasonActionD m a ci
    if reason ≠ [] then .ok reason else reasonActionSetD m ci as

/-- The action part of `ReasonEntryViolatesConstraint(TableEntry)` (interpreter.cc:925-945). -/
def reasonTableActionD (m : Checks) (ci : ConstraintInfo) : Option TableAction → Res Str
  | none => .ok []
  | some (.action a) => reasonActionD m a ci
  | some (.memberId _) | some (.groupId _) => .err .invalidArgument
  | some (.actionSet as) => reasonActionSetD m ci as
  | some .notSet => .err .invalidArgument

/-- `ReasonEntryViolatesConstraint(TableEntry)` (interpreter.cc:883-946). -/
def reasonEntryViolatesConstraintD (m : Checks) (entry : RtEntry) (ci : ConstraintInfo) : Res Str :=
  match getTableInfo ci entry.tableId with
  | none => .err .invalidArgument
  | some ti => do
    let reason ←
      match ti.constraint with
      | none => .ok []
      | some constraint => checkConstraintD m constraint (parseTableEntry entry ti)
    if reason ≠ [] then .ok reason else reasonTableActionD m ci entry.action

/-! ### `backend/symbolic_interpreter.cc` -/

/-- `ConstraintSolver::AddConstraint(absl::string_view)`. There is no `DCHECK` in symbolic_interpreter.cc itself. -/
def Solver.addConstraintStrD (m : Checks) (z : Z3Oracle) (sys : Sys) (s : Solver) (text : Str) : Res Bool × Solver :=
  let src : ConstraintSource := ⟨text, { src := .tableName s.table.name }⟩
  match (do
    let e ← parseConstraintD m sys .table src
    inferAndCheckD m s.table.source (.table s.table.keysByName) e : Res Expr) with
  | .ok e => s.addConstraint z e src
  | .err c => (.err c, s)
  | .crash => (.crash, s)
  | .oof => (.oof, s)

/-! ### `cli/p4check.cc` -/

/-- One entry file (cli/p4check.cc:118-148). -/
def checkFileD (m : Checks) (ci : ConstraintInfo) : FileRead RtEntry → Res Report
  | .missing => .ok .notFound
  | .malformed => .ok .unableToParse
  | .parsed entry =>
    match reasonEntryViolatesConstraintD m { entry with tableId := coerceId entry.tableId } ci with
    | .ok [] => .ok .satisfied
    | .ok (c :: cs) => .ok (.violated (c :: cs))
    | .err x => .ok (.error x)
    | .crash => .crash
    | .oof => .oof

/-- The loop over entry files (cli/p4check.cc:111-149). -/
def checkFilesD (m : Checks) (ci : ConstraintInfo) : List (Str × FileRead RtEntry) → Res (List (Str × Report))
  | [] => .ok []
  | f :: fs => do
    let r ← checkFileD m ci f.2
    let rs ← checkFilesD m ci fs
    .ok ((f.1, r) :: rs)

/-- `main` (cli/p4check.cc:68-152). -/
def p4checkD (m : Checks) (sys : Sys) (name : Str) (program : FileRead P4Info) (files : List (Str × FileRead RtEntry)) :
    Res CliOutput :=
  if name = [] then .ok ⟨1, []⟩
  else
    match program with
    | .missing | .malformed => .ok ⟨1, []⟩
    | .parsed p =>
      match p4ToConstraintInfoD m sys (coerceTables p) with
      | .ok ci => do
        let rs ← checkFilesD m ci files
        .ok ⟨0, rs⟩
      | .err _ => .ok ⟨1, []⟩
      | .crash => .crash
      | .oof => .oof

end P4C
