import Verif.Model.Parser
import Verif.Model.TypeChecker

/-
The parser and the type checker with meters: the number of calls and of iterations of loops, the depth of the recursion,
and the number of nodes of syntax trees that are copied. The functions are those of `Model/Parser.lean` and
`Model/TypeChecker.lean`; that results are the same is a theorem (`C89_same_results`). Copies are made where an expression
is passed by value without `std::move` (parser.cc:285, 291, 363, 369); the constructors of `ast_constructors.cc` move their
arguments into place, results are moved, and `WrapWithCast` moves as well. Not metered: tokenization, copies of tokens,
quoting and formatting of errors.
-/

namespace P4C

/-- A result, with the number of calls and of iterations, the depth of the recursion, and the number of nodes copied. -/
structure Metered (α : Type) where
  calls : Nat
  depth : Nat
  copied : Nat
  res : Res α

namespace Metered

/-- Sequencing; an error stops. -/
def bind {α β : Type} (x : Metered α) (f : α → Metered β) : Metered β :=
  match x.res with
  | .ok a => ⟨x.calls + (f a).calls, max x.depth (f a).depth, x.copied + (f a).copied, (f a).res⟩
  | .err c => ⟨x.calls, x.depth, x.copied, .err c⟩
  | .crash => ⟨x.calls, x.depth, x.copied, .crash⟩
  | .oof => ⟨x.calls, x.depth, x.copied, .oof⟩

instance : Monad Metered where
  pure a := ⟨0, 0, 0, .ok a⟩
  bind := bind

end Metered

/-- A call of a recursive function. -/
def enter {α : Type} (x : Metered α) : Metered α := ⟨x.calls + 1, x.depth + 1, x.copied, x.res⟩

/-- An iteration of a loop. -/
def iteration : Metered Unit := ⟨1, 0, 0, .ok ()⟩

/-- The number of messages of the protobuf type `Expression` in an expression. -/
def messages : Expr → Nat
  | .boolNeg _ e | .arithNeg _ e | .typeCast _ e | .field _ e _ => messages e + 1
  | .bin _ _ l r => messages l + messages r + 1
  | _ => 1

/-- Passing an expression by value. -/
def copy (e : Expr) : Metered Expr := ⟨0, 0, messages e, .ok e⟩

/-- Something that is not metered. -/
def lift {α : Type} (r : Res α) : Metered α := ⟨0, 0, 0, r⟩

/-- The loop of parser.cc:271-277. -/
def parseDotsC (src : ConstraintSource) : Nat → List Token → Stream → Metered (List Token × Stream)
  | 0, _, _ => lift .oof
  | fuel + 1, ids, s => do
    iteration
    if s.peek.kind = .dot then do
      let (t, s) ← lift (expectTokenKind .id src s.next)
      parseDotsC src fuel (ids ++ [t]) s
    else lift (.ok (ids, s))

mutual

/-- `ParseConstraintAbove` (parser.cc:233-372), up to the loop. -/
def parseAboveC (sys : Sys) (k : ConstraintKind) (src : ConstraintSource) :
    Nat → Nat → Stream → Metered (Expr × Stream)
  | 0, _, _ => lift .oof
  | fuel + 1, prec, s0 => enter (do
    let t := s0.peek
    let s := s0.next
    let (ast, s) ← (match t.kind with
      | .true_ | .false_ => do
        let e ← lift (makeBooleanConstant t)
        lift (.ok (e, s))
      | .binary | .octary | .decimal | .hexadec => do
        let e ← lift (makeIntegerConstant t)
        lift (.ok (e, s))
      | .id =>
        if s.peek.kind = .lpar then do
          let (strTok, s) ← lift (expectTokenKind .string src s.next)
          let (rpar, s) ← lift (expectTokenKind .rpar src s)
          let e ← lift (makeNetworkAddress sys t.text strTok.text t.start rpar.stop)
          lift (.ok (e, s))
        else do
          let (ids, s) ← parseDotsC src (s.rest.length + 1) [t] s
          let e ← lift (makeVariable ids k)
          lift (.ok (e, s))
      | .doubleColon => do
        let (name, s) ← lift (expectTokenKind .id src s)
        let e ← lift (makeAttributeAccess t name)
        lift (.ok (e, s))
      | .bang => do
        let (e, s) ← parseAboveC sys k src fuel (tokenPrecedence .bang) s
        let e ← copy e
        let e ← lift (makeBooleanNegation t e)
        lift (.ok (e, s))
      | .minus => do
        let (e, s) ← parseAboveC sys k src fuel (tokenPrecedence .minus) s
        let e ← copy e
        let e ← lift (makeArithmeticNegation t e)
        lift (.ok (e, s))
      | .lpar => do
        let (e, s) ← parseAboveC sys k src fuel 0 s
        let (_, s) ← lift (expectTokenKind .rpar src s)
        lift (.ok (e, s))
      | _ => lift (parseError t src))
    parseExtC sys k src fuel prec ast s)

/-- The loop of `ParseConstraintAbove` (parser.cc:315-371). -/
def parseExtC (sys : Sys) (k : ConstraintKind) (src : ConstraintSource) :
    Nat → Nat → Expr → Stream → Metered (Expr × Stream)
  | 0, _, _, _ => lift .oof
  | fuel + 1, prec, ast, s => do
    iteration
    let t := s.peek
    if t.kind = .endOfInput ∨ t.kind = .rpar then lift (.ok (ast, s))
    else if isExtension t.kind then
      if prec = tokenPrecedence t.kind ∧ tokenAssociativity t.kind = .none then lift (parseError t src)
      else if prec > tokenPrecedence t.kind ∨
          (prec = tokenPrecedence t.kind ∧ tokenAssociativity t.kind = .left) then lift (.ok (ast, s))
      else
        let s := s.next
        if t.kind = .semicolon ∧ (s.peek.kind = .endOfInput ∨ s.peek.kind = .rpar) then lift (.ok (ast, s))
        else if t.kind = .doubleColon then do
          let (f, s) ← lift (expectTokenKind .id src s)
          let ast ← copy ast
          let ast ← lift (makeFieldAccess ast f)
          parseExtC sys k src fuel prec ast s
        else do
          let (another, s) ← parseAboveC sys k src fuel (tokenPrecedence t.kind) s
          let ast ← copy ast
          let another ← copy another
          let ast ← lift (makeBinaryExpression t ast another)
          parseExtC sys k src fuel prec ast s
    else lift (parseError t src)

end

/-- `internal_parser::ParseConstraint` (parser.cc:380-388). -/
def parseTokensC (sys : Sys) (k : ConstraintKind) (ts : List Token) (src : ConstraintSource) : Metered Expr := do
  let (ast, s) ← parseAboveC sys k src (2 * ts.length + 2) 0 ⟨ts, eofLoc ts⟩
  let _ ← lift (expectTokenKind .endOfInput src s)
  lift (.ok ast)

/-- `ParseConstraint` (parser.cc:394-398). -/
def parseConstraintC (sys : Sys) (k : ConstraintKind) (src : ConstraintSource) : Metered Expr :=
  parseTokensC sys k (tokenize src) src

/-- `InferAndCheckTypes` (type_checker.cc:231-434). -/
def inferAndCheckC (src : ConstraintSource) (sc : Scope) : Expr → Metered Expr
  | .boolNeg i e => enter (do
    let e ← inferAndCheckC src sc e
    if e.ty ≠ .boolean then lift (quotingError src e.start e.stop)
    else lift (.ok (.boolNeg (i.withTy .boolean) e)))
  | .arithNeg i e => enter (do
    let e ← inferAndCheckC src sc e
    if e.ty ≠ .arbitraryInt then lift (quotingError src e.start e.stop)
    else lift (.ok (.arithNeg (i.withTy .arbitraryInt) e)))
  | .bin i op l r => enter (do
    let l ← inferAndCheckC src sc l
    let r ← inferAndCheckC src sc r
    match op with
    | .and | .or | .implies =>
      if l.ty ≠ .boolean then lift (quotingError src l.start l.stop)
      else if r.ty ≠ .boolean then lift (quotingError src r.start r.stop)
      else lift (.ok (.bin (i.withTy .boolean) op l r))
    | .gt | .ge | .lt | .le | .eq | .ne => do
      let (t, l, r) ← lift (unify src l r)
      if op ≠ .eq ∧ op ≠ .ne ∧ !typeHasOrdering t then lift (quotingError src i.start i.stop)
      else lift (.ok (.bin (i.withTy .boolean) op l r))
    | .unknown => lift (.err .internal))
  | .field i e f => enter (do
    let e ← inferAndCheckC src sc e
    match fieldTypeOfCompositeType e.ty f with
    | none => lift (quotingError src i.start i.stop)
    | some t => lift (.ok (.field (i.withTy t) e f)))
  | .boolConst i b => enter (lift (inferAndCheck src sc (.boolConst i b)))
  | .intConst i s => enter (lift (inferAndCheck src sc (.intConst i s)))
  | .key i n => enter (lift (inferAndCheck src sc (.key i n)))
  | .actionParam i n => enter (lift (inferAndCheck src sc (.actionParam i n)))
  | .typeCast i e => enter (lift (inferAndCheck src sc (.typeCast i e)))
  | .attr i n => enter (lift (inferAndCheck src sc (.attr i n)))
  | .notSet i => enter (lift (inferAndCheck src sc (.notSet i)))

end P4C
