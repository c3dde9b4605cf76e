import Verif.Model.ConstraintInfo

/-
The texts of the error statuses of the parser, the type checker and `P4ToConstraintInfo`.

The other model files keep of an error status only its code. This file models the same functions once more,
statement by statement, with the message of the status; `MRes.erase` forgets the messages, and
`Verif/Proofs/Message.lean` proves that the functions here and those of the other files agree up to `erase`.
-/

namespace P4C

/-- Outcome of a C++ call returning `absl::StatusOr<α>`, with the text of the error status. -/
inductive MRes (α : Type) where
  | ok (a : α)
  | err (c : Code) (msg : Str)
  | crash
  | oof
deriving DecidableEq, Repr

namespace MRes

/-- `ASSIGN_OR_RETURN` / `RETURN_IF_ERROR` (`gutils/status_macros.h`): a status is passed on as it is. -/
protected def bind {α β : Type} (x : MRes α) (f : α → MRes β) : MRes β :=
  match x with
  | .ok a => f a
  | .err c m => .err c m
  | .crash => .crash
  | .oof => .oof

instance : Monad MRes where
  pure := MRes.ok
  bind := MRes.bind

/-- Forget the text. -/
def erase {α : Type} : MRes α → Res α
  | .ok a => .ok a
  | .err c _ => .err c
  | .crash => .crash
  | .oof => .oof

end MRes

/-- Texts that are not modelled, as unknown functions of what they describe: protobuf `DebugString`s and enum
names, and the messages of failing `RET_CHECK`s and of failing quotations. -/
structure Texts where
  /-- `Failed to quote sub-constraint: ..`. -/
  quoteFailure : ConstraintSource → Loc → Loc → Str
  /-- `RET_CHECK failure ..`. -/
  retCheck : Str
  /-- `Expression::DebugString`. -/
  expression : Expr → Str
  /-- `ast::BinaryOperator_Name`. -/
  operator : BinOp → Str
  /-- The text about a match field without valid match type (constraint_info.cc:205-207, 213-214). -/
  matchType : MatchField → Str
  /-- `MatchField::DebugString`. -/
  matchField : MatchField → Str
  /-- `Action_Param::DebugString`. -/
  param : ParamDecl → Str
  /-- `Table::DebugString`. -/
  table : TableDecl → Str
  /-- `Action::DebugString`. -/
  action : ActionDecl → Str

/-! ### ast_constructors.cc -/

/-- `ConvertBinaryOperator` (ast_constructors.cc:50-75). -/
def convertBinaryOperatorM : Kind → MRes BinOp
  | .and | .semicolon => .ok .and
  | .or => .ok .or
  | .implies => .ok .implies
  | .eq => .ok .eq
  | .ne => .ok .ne
  | .gt => .ok .gt
  | .ge => .ok .ge
  | .lt => .ok .lt
  | .le => .ok .le
  | k => .err .invalidArgument (c!"expected binary operator, got " ++ kindToKeyword k)

/-- `ConvertNumeral` (ast_constructors.cc:77-100). -/
def convertNumeralM (x : Texts) (kind : Kind) (text : Str) : MRes Str :=
  let conv (base : Nat) : MRes Str :=
    match setStr base text with
    | some n => .ok (intDec n)
    | none => .err .internal x.retCheck
  match kind with
  | .binary => conv 2
  | .octary => conv 8
  | .decimal => conv 10
  | .hexadec => conv 16
  | k => .err .invalidArgument (c!"expected numeral, got " ++ kindToKeyword k)

/-- The loop of `Base10StringToByte` (ast_constructors.cc:113-121); `all` is the whole string. -/
def base10LoopM (all : Str) : Nat → Str → MRes Nat
  | acc, [] => .ok acc
  | acc, c :: cs =>
    if c.toNat > 57 ∨ c.toNat < 48 then
      .err .invalidArgument (c!"Invalid character in base-10 string: '" ++ [c] ++ c!"' in string '" ++ all ++ c!"'")
    else base10LoopM all (acc * 10 + (c.toNat - 48)) cs

/-- `Base10StringToByte` (ast_constructors.cc:102-130). -/
def base10StringToByteM (s : Str) : MRes Nat :=
  if s.isEmpty ∨ s.length > 3 then
    .err .invalidArgument (c!"Invalid base10 string length: '" ++ natDec s.length ++
      c!"', expected 0 < string length < 3.")
  else do
    let buffer ← base10LoopM s 0 s
    if buffer > 255 then
      .err .invalidArgument (c!"Invalid base10 string. Buffer size of '" ++ natDec buffer ++ c!"' exceeded 255")
    else .ok buffer

/-- The loop of `Base16StringToByte` (ast_constructors.cc:142-152); `all` is the whole string. -/
def base16LoopM (all : Str) : Nat → Str → MRes Nat
  | acc, [] => .ok acc
  | acc, c :: cs =>
    if !isXDigit c then
      .err .invalidArgument (c!"Invalid character in base16 string: '" ++ [c] ++ c!"' in string '" ++ all ++ c!"'")
    else base16LoopM all (acc * 16 + xdigitVal c) cs

/-- `Base16StringToByte` (ast_constructors.cc:132-155). -/
def base16StringToByteM (s : Str) : MRes Nat :=
  if s.isEmpty ∨ s.length > 2 then
    .err .invalidArgument (c!"Invalid base16 string length: '" ++ natDec s.length ++
      c!"', expected 0 < string length <= 2.")
  else base16LoopM s 0 s

/-- The loops of ast_constructors.cc:169-173 and 213-217. -/
def addressLoopM (conv : Str → MRes Nat) (n : Nat) : Nat → List Str → MRes Nat
  | bits, [] => .ok bits
  | bits, s :: ss => do
    let byte ← conv s
    addressLoopM conv n (bitsetShiftIn n bits byte) ss

/-- `Ipv4StringToByteString` (ast_constructors.cc:157-175). -/
def ipv4StringToByteStringM (s : Str) : MRes Str :=
  let bytes := strSplit '.' s
  if bytes.length ≠ 4 then
    .err .invalidArgument (c!"Invalid length for an IPv4 address: '" ++ s ++
      c!"'. Expected IPv4 address to be 4 bytes.")
  else do
    let bits ← addressLoopM base10StringToByteM 32 0 bytes
    .ok (bitsetToString 32 bits)

/-- `MacStringToByteString` (ast_constructors.cc:201-219). -/
def macStringToByteStringM (s : Str) : MRes Str :=
  let bytes := strSplit ':' s
  if bytes.length ≠ 6 then
    .err .invalidArgument (c!"Invalid length for MAC address: '" ++ s ++
      c!"'. Expected MAC address to be 6 bytes.")
  else do
    let bits ← addressLoopM base16StringToByteM 48 0 bytes
    .ok (bitsetToString 48 bits)

/-- `Ipv6StringToByteString` (ast_constructors.cc:190-199). -/
def ipv6StringToByteStringM (sys : Sys) (s : Str) : MRes Str :=
  match sys.inetPton6 (cstr s) with
  | some bytes => .ok (bitsetToString 128 (anyByteStringToBitset 128 bytes))
  | none => .err .invalidArgument (c!"Invalid Ipv6 address: " ++ s)

/-- `MakeBooleanConstant` (ast_constructors.cc:235-242). -/
def makeBooleanConstantM (x : Texts) (t : Token) : MRes Expr :=
  if t.kind = .true_ ∨ t.kind = .false_ then
    .ok (.boolConst (located t.start t.stop) (t.kind = .true_))
  else .err .internal x.retCheck

/-- `MakeIntegerConstant` (ast_constructors.cc:244-250). -/
def makeIntegerConstantM (x : Texts) (t : Token) : MRes Expr := do
  let s ← convertNumeralM x t.kind t.text
  .ok (.intConst (located t.start t.stop) s)

/-- `MakeNetworkAddressIntegerConstant` (ast_constructors.cc:252-282). -/
def makeNetworkAddressM (x : Texts) (sys : Sys) (addressType address : Str) (start stop : Loc) : MRes Expr := do
  let s ←
    if addressType = c!"ipv4" then do
      let bits ← ipv4StringToByteStringM address
      convertNumeralM x .binary bits
    else if addressType = c!"ipv6" then do
      let bits ← ipv6StringToByteStringM sys address
      convertNumeralM x .binary bits
    else if addressType = c!"mac" then do
      let bits ← macStringToByteStringM address
      convertNumeralM x .binary bits
    else .err .invalidArgument c!"Invalid network identifier"
  .ok (.intConst (located start stop) s)

/-- `MakeBooleanNegation` (ast_constructors.cc:284-291). -/
def makeBooleanNegationM (x : Texts) (t : Token) (e : Expr) : MRes Expr :=
  if t.kind = .bang then .ok (.boolNeg (located t.start e.stop) e) else .err .internal x.retCheck

/-- `MakeArithmeticNegation` (ast_constructors.cc:293-300). -/
def makeArithmeticNegationM (x : Texts) (t : Token) (e : Expr) : MRes Expr :=
  if t.kind = .minus then .ok (.arithNeg (located t.start e.stop) e) else .err .internal x.retCheck

/-- `MakeVariable` (ast_constructors.cc:302-335). -/
def makeVariableM (x : Texts) (ids : List Token) (k : ConstraintKind) : MRes Expr :=
  match ids with
  | [] => .err .internal x.retCheck
  | t :: ts =>
    if (t :: ts).all (fun t => t.kind = .id) then
      let i := located t.start ((t :: ts).getLast (by simp)).stop
      match k with
      | .table => .ok (.key i (variableName k (t :: ts)))
      | .action => .ok (.actionParam i (variableName k (t :: ts)))
    else .err .internal x.retCheck

/-- `MakeAttributeAccess` (ast_constructors.cc:337-343). -/
def makeAttributeAccessM (dc name : Token) : MRes Expr :=
  .ok (.attr (located dc.start name.stop) name.text)

/-- `MakeBinaryExpression` (ast_constructors.cc:345-358). -/
def makeBinaryExpressionM (t : Token) (l r : Expr) : MRes Expr := do
  let op ← convertBinaryOperatorM t.kind
  .ok (.bin (located l.start r.stop) op l r)

/-- `MakeFieldAccess` (ast_constructors.cc:360-368). -/
def makeFieldAccessM (x : Texts) (e : Expr) (f : Token) : MRes Expr :=
  if f.kind = .id then .ok (.field (located e.start f.stop) e f.text) else .err .internal x.retCheck

/-! ### parser.cc -/

/-- An error that quotes an interval of the constraint: `quote`, then `tag`, then `text`; if the quotation
fails, the message tells about that, followed by `text`, which is streamed into either builder
(parser.cc:141-156, type_checker.cc:49-60). -/
def quotingErrorM {α : Type} (x : Texts) (tag text : Str) (src : ConstraintSource) (start stop : Loc) : MRes α :=
  match quoteSub src start stop with
  | .ok q => .err .invalidArgument (q ++ tag ++ text)
  | .err _ => .err .internal (x.quoteFailure src start stop ++ text)
  | .crash => .crash
  | .oof => .oof

/-- `ParseError(token, source) << text` (parser.cc:141-156). -/
def parseErrorM {α : Type} (x : Texts) (text : Str) (t : Token) (src : ConstraintSource) : MRes α :=
  quotingErrorM x c!"Parse error: " text src t.start t.stop

/-- The enumeration of expected tokens (parser.cc:170-180), from the second on. -/
def expectedRest : List Kind → Str
  | [] => []
  | [k] => c!", or " ++ kindToKeyword k ++ c!"."
  | k :: ks => c!", " ++ kindToKeyword k ++ expectedRest ks

/-- The enumeration of expected tokens (parser.cc:170-180). -/
def expectedText : List Kind → Str
  | [] => []
  | [k] => c!" Expected " ++ kindToKeyword k ++ c!"."
  | k :: ks => c!" Expected " ++ kindToKeyword k ++ expectedRest ks

/-- `Unexpected` (parser.cc:160-181). -/
def unexpectedM {α : Type} (x : Texts) (t : Token) (expected : List Kind) (src : ConstraintSource) : MRes α :=
  if t.kind = .unexpectedChar then
    parseErrorM x (c!"unexpected character at or after '" ++ t.text ++ c!"'.") t src
  else parseErrorM x (c!"unexpected token: " ++ kindToKeyword t.kind ++ c!"." ++ expectedText expected) t src

/-- `ExpectTokenKind` (parser.cc:186-190). -/
def expectTokenKindM (x : Texts) (k : Kind) (src : ConstraintSource) (s : Stream) : MRes (Token × Stream) :=
  let t := s.peek
  if t.kind ≠ k then unexpectedM x t [k] src else .ok (t, s.next)

/-- The loop of parser.cc:271-277. -/
def parseDotsM (x : Texts) (src : ConstraintSource) : Nat → List Token → Stream → MRes (List Token × Stream)
  | 0, _, _ => .oof
  | fuel + 1, ids, s =>
    if s.peek.kind = .dot then do
      let (t, s) ← expectTokenKindM x .id src s.next
      parseDotsM x src fuel (ids ++ [t]) s
    else .ok (ids, s)

/-- The tokens named as expected at the beginning of an expression (parser.cc:307-311). -/
def initialKinds : List Kind :=
  [.true_, .false_, .binary, .octary, .decimal, .hexadec, .id, .doubleColon, .bang, .minus, .lpar]

/-- The tokens named as expected after an expression (parser.cc:348-352). -/
def extensionKinds : List Kind :=
  [.endOfInput, .rpar, .doubleColon, .and, .semicolon, .or, .implies, .eq, .ne, .gt, .ge, .lt, .le]

/-- The text about non-associative operators (parser.cc:338-341). -/
def nonAssociativeText (k : Kind) : Str :=
  c!"operator " ++ kindToKeyword k ++
    c!" is non-associative; enclose expression to the left of the operator in '(' and ')' to disambiguate?"

mutual

/-- `ParseConstraintAbove` (parser.cc:233-372), up to the loop. -/
def parseAboveM (x : Texts) (sys : Sys) (k : ConstraintKind) (src : ConstraintSource) :
    Nat → Nat → Stream → MRes (Expr × Stream)
  | 0, _, _ => .oof
  | fuel + 1, prec, s0 => do
    let t := s0.peek
    let s := s0.next
    let (ast, s) ← (match t.kind with
      | .true_ | .false_ => do
        let e ← makeBooleanConstantM x t
        .ok (e, s)
      | .binary | .octary | .decimal | .hexadec => do
        let e ← makeIntegerConstantM x t
        .ok (e, s)
      | .id =>
        if s.peek.kind = .lpar then do
          let (strTok, s) ← expectTokenKindM x .string src s.next
          let (rpar, s) ← expectTokenKindM x .rpar src s
          let e ← makeNetworkAddressM x sys t.text strTok.text t.start rpar.stop
          .ok (e, s)
        else do
          let (ids, s) ← parseDotsM x src (s.rest.length + 1) [t] s
          let e ← makeVariableM x ids k
          .ok (e, s)
      | .doubleColon => do
        let (name, s) ← expectTokenKindM x .id src s
        let e ← makeAttributeAccessM t name
        .ok (e, s)
      | .bang => do
        let (e, s) ← parseAboveM x sys k src fuel (tokenPrecedence .bang) s
        let e ← makeBooleanNegationM x t e
        .ok (e, s)
      | .minus => do
        let (e, s) ← parseAboveM x sys k src fuel (tokenPrecedence .minus) s
        let e ← makeArithmeticNegationM x t e
        .ok (e, s)
      | .lpar => do
        let (e, s) ← parseAboveM x sys k src fuel 0 s
        let (_, s) ← expectTokenKindM x .rpar src s
        .ok (e, s)
      | _ => unexpectedM x t initialKinds src)
    parseExtM x sys k src fuel prec ast s

/-- The loop of `ParseConstraintAbove` (parser.cc:315-371). -/
def parseExtM (x : Texts) (sys : Sys) (k : ConstraintKind) (src : ConstraintSource) :
    Nat → Nat → Expr → Stream → MRes (Expr × Stream)
  | 0, _, _, _ => .oof
  | fuel + 1, prec, ast, s =>
    let t := s.peek
    if t.kind = .endOfInput ∨ t.kind = .rpar then .ok (ast, s)
    else if isExtension t.kind then
      if prec = tokenPrecedence t.kind ∧ tokenAssociativity t.kind = .none then
        parseErrorM x (nonAssociativeText t.kind) t src
      else if prec > tokenPrecedence t.kind ∨
          (prec = tokenPrecedence t.kind ∧ tokenAssociativity t.kind = .left) then .ok (ast, s)
      else
        let s := s.next
        if t.kind = .semicolon ∧ (s.peek.kind = .endOfInput ∨ s.peek.kind = .rpar) then .ok (ast, s)
        else if t.kind = .doubleColon then do
          let (f, s) ← expectTokenKindM x .id src s
          let ast ← makeFieldAccessM x ast f
          parseExtM x sys k src fuel prec ast s
        else do
          let (another, s) ← parseAboveM x sys k src fuel (tokenPrecedence t.kind) s
          let ast ← makeBinaryExpressionM t ast another
          parseExtM x sys k src fuel prec ast s
    else unexpectedM x t extensionKinds src

end

/-- `internal_parser::ParseConstraint` (parser.cc:380-388). -/
def parseTokensM (x : Texts) (sys : Sys) (k : ConstraintKind) (ts : List Token) (src : ConstraintSource) :
    MRes Expr := do
  let (ast, s) ← parseAboveM x sys k src (2 * ts.length + 2) 0 ⟨ts, eofLoc ts⟩
  let _ ← expectTokenKindM x .endOfInput src s
  .ok ast

/-- `ParseConstraint` (parser.cc:394-398). -/
def parseConstraintM (x : Texts) (sys : Sys) (k : ConstraintKind) (src : ConstraintSource) : MRes Expr :=
  parseTokensM x sys k (tokenize src) src

/-! ### type_checker.cc -/

/-- `StaticTypeError(source, start, end) << text` (type_checker.cc:49-60). -/
def typeErrorM {α : Type} (x : Texts) (text : Str) (src : ConstraintSource) (start stop : Loc) : MRes α :=
  quotingErrorM x c!"Type error: " text src start stop

/-- `InternalError(source, start, end) << text` (type_checker.cc:62-73). -/
def internalErrorM {α : Type} (x : Texts) (text : Str) (src : ConstraintSource) (start stop : Loc) : MRes α :=
  match quoteSub src start stop with
  | .ok q => .err .internal (q ++ c!"Internal error: " ++ text)
  | .err _ => .err .internal (x.quoteFailure src start stop ++ text)
  | .crash => .crash
  | .oof => .oof

/-- `Unify` (type_checker.cc:174-186). -/
def unifyM (x : Texts) (src : ConstraintSource) (l r : Expr) : MRes (Ty × Expr × Expr) :=
  match leastUpperBound l.ty r.ty with
  | none => typeErrorM x (c!"cannot unify types " ++ typeName l.ty ++ c!" and " ++ typeName r.ty) src l.start r.stop
  | some t => .ok (t, castTransitivelyTo l t, castTransitivelyTo r t)

/-- `InferAndCheckTypes` (type_checker.cc:231-434). -/
def inferAndCheckM (x : Texts) (src : ConstraintSource) (sc : Scope) : Expr → MRes Expr
  | .boolConst i b => .ok (.boolConst (i.withTy .boolean) b)
  | .intConst i s => .ok (.intConst (i.withTy .arbitraryInt) s)
  | .key i n =>
    match sc with
    | .action _ => typeErrorM x c!"unexpected key in action constraint" src i.start i.stop
    | .table keys =>
      match lookup n keys with
      | none => typeErrorM x (c!"unknown key " ++ n) src i.start i.stop
      | some ki =>
        if illegalType ki.ty then
          typeErrorM x (c!"key " ++ n ++ c!" has illegal type " ++ typeName ki.ty) src i.start i.stop
        else .ok (.key (i.withTy ki.ty) n)
  | .actionParam i n =>
    match sc with
    | .table _ => typeErrorM x c!"unexpected action parameter in table constraint" src i.start i.stop
    | .action params =>
      match lookup n params with
      | none => typeErrorM x (c!"unknown action parameter " ++ n) src i.start i.stop
      | some pi =>
        if illegalType pi.ty then
          typeErrorM x (c!"action parameter " ++ n ++ c!" has illegal type " ++ typeName pi.ty) src i.start i.stop
        else .ok (.actionParam (i.withTy pi.ty) n)
  | .boolNeg i e => do
    let e ← inferAndCheckM x src sc e
    if e.ty ≠ .boolean then
      typeErrorM x (c!"expected type bool, got " ++ typeName e.ty) src e.start e.stop
    else .ok (.boolNeg (i.withTy .boolean) e)
  | .arithNeg i e => do
    let e ← inferAndCheckM x src sc e
    if e.ty ≠ .arbitraryInt then
      typeErrorM x (c!"expected type int, got " ++ typeName e.ty) src e.start e.stop
    else .ok (.arithNeg (i.withTy .arbitraryInt) e)
  | .typeCast i _ =>
    typeErrorM x c!"type casts should only be inserted by the type checker" src i.start i.stop
  | .bin i op l r => do
    let l ← inferAndCheckM x src sc l
    let r ← inferAndCheckM x src sc r
    match op with
    | .and | .or | .implies =>
      if l.ty ≠ .boolean then
        typeErrorM x (c!"expected type bool, got " ++ typeName l.ty) src l.start l.stop
      else if r.ty ≠ .boolean then
        typeErrorM x (c!"expected type bool, got " ++ typeName r.ty) src r.start r.stop
      else .ok (.bin (i.withTy .boolean) op l r)
    | .gt | .ge | .lt | .le | .eq | .ne => do
      let (t, l, r) ← unifyM x src l r
      if op ≠ .eq ∧ op ≠ .ne ∧ !typeHasOrdering t then
        typeErrorM x (c!"operand type " ++ typeName t ++ c!" does not support ordered comparison") src
          i.start i.stop
      else .ok (.bin (i.withTy .boolean) op l r)
    | .unknown => .err .internal (c!"unknown binary operator " ++ x.operator op)
  | .field i e f => do
    let e ← inferAndCheckM x src sc e
    match fieldTypeOfCompositeType e.ty f with
    | none =>
      typeErrorM x (c!"expression of type " ++ typeName e.ty ++ c!" has no field '" ++ f ++ c!"'") src
        i.start i.stop
    | some t => .ok (.field (i.withTy t) e f)
  | .attr i n =>
    match getAttributeInfo n with
    | none => typeErrorM x (c!"unknown attribute '" ++ n ++ c!"'") src i.start i.stop
    | some t =>
      if illegalType t then
        internalErrorM x (c!"attribute '" ++ n ++ c!"' has illegal type " ++ typeName t) src i.start i.stop
      else .ok (.attr (i.withTy t) n)
  | .notSet i => typeErrorM x (c!"unexpected expression: " ++ x.expression (.notSet i)) src i.start i.stop

/-! ### constraint_info.cc -/

/-- "table " or "action ". -/
def kindWord : ConstraintKind → Str
  | .table => c!"table "
  | .action => c!"action "

/-- "entry" or "action". -/
def restrictionWord : ConstraintKind → Str
  | .table => c!"entry"
  | .action => c!"action"

/-- The end of the message of constraint_info.cc:161-174. -/
def unexpectedQuotesText : Str :=
  c!"_restriction was parsed with unexpected quotation marks (\"). Ensure you aren't using any quotation marks in a comment. Otherwise, this suggests a parser assumption was violated, likely due to a p4c frontend change, or `@p4runtime_translation` support being added."

/-- `ExtractConstraint` (constraint_info.cc:83-182). -/
def extractConstraintM (k : ConstraintKind) (p : Preamble) : MRes (Option ConstraintSource) :=
  let (st, s) := annLoop k {} p.annotations
  if s = [] then .ok none
  else
    match (consumePrefix c!"(\"" s).bind (consumeSuffix c!"\")") with
    | none =>
      .err .invalidArgument (c!"In " ++ kindWord k ++ p.name ++ c!":\nSyntax error: @" ++ restrictionWord k ++
        c!"_restriction must be enclosed in '(\"' and '\")'")
    | some s =>
      let s := replaceQuotes s
      if '"' ∈ s then
        .err .invalidArgument (c!"In " ++ kindWord k ++ p.name ++ c!":\nSyntax error: @" ++ restrictionWord k ++
          unexpectedQuotesText)
      else .ok (some ⟨s, constraintLoc k p.name st⟩)

/-- `ParseKeyType` (constraint_info.cc:184-216). -/
def parseKeyTypeM (x : Texts) (f : MatchField) : MRes Ty :=
  match f.kind with
  | .matchType .exact => .ok (.exact f.bitwidth)
  | .matchType .ternary => .ok (.ternary f.bitwidth)
  | .matchType .lpm => .ok (.lpm f.bitwidth)
  | .matchType .range => .ok (.range f.bitwidth)
  | .matchType .optional => .ok (.optionalMatch f.bitwidth)
  | .matchType .invalid => .err .invalidArgument (c!"match key of invalid MatchType: " ++ x.matchType f)
  | .otherMatchType n => .ok (.unsupported n)
  | .notSet => .err .internal (c!"unknown MatchField.match case: " ++ x.matchType f)

/-- `ParseParamType` (constraint_info.cc:218-229). -/
def parseParamTypeM (p : ParamDecl) : MRes Ty :=
  if p.typeName ≠ [] then .ok (.unsupported p.typeName) else .ok (.fixedUnsigned p.bitwidth)

/-- Insert a definition into both maps (constraint_info.cc:238-247, 285-294); `dup` is the message. -/
def insertVarM (dup : Str) (v : VarInfo) (m : VarMaps) : MRes VarMaps :=
  match insertNew v.id v m.1 with
  | none => .err .invalidArgument dup
  | some byId =>
    match insertNew v.name v m.2 with
    | none => .err .invalidArgument dup
    | some byName => .ok (byId, byName)

/-- The loop over match fields (constraint_info.cc:235-248) of the table called `name`. -/
def parseKeysM (x : Texts) (name : Str) : VarMaps → List MatchField → MRes VarMaps
  | m, [] => .ok m
  | m, f :: fs => do
    let t ← parseKeyTypeM x f
    let m ← insertVarM (c!"table " ++ name ++ c!" has duplicate key: " ++ x.matchField f) ⟨f.id, f.name, t⟩ m
    parseKeysM x name m fs

/-- The loop over action parameters (constraint_info.cc:282-299) of the action called `name`. -/
def parseParamDeclsM (x : Texts) (name : Str) : VarMaps → List ParamDecl → MRes VarMaps
  | m, [] => .ok m
  | m, p :: ps => do
    let t ← parseParamTypeM p
    let m ← insertVarM (c!"action " ++ name ++ c!" has duplicate param: " ++ x.param p) ⟨p.id, p.name, t⟩ m
    parseParamDeclsM x name m ps

/-- Extract, parse and type check a constraint (constraint_info.cc:250-273 and 300-320). -/
def parseAndCheckM (x : Texts) (sys : Sys) (k : ConstraintKind) (p : Preamble) (sc : Scope) :
    MRes (Option Expr × ConstraintSource) := do
  let source ← extractConstraintM k p
  match source with
  | none => .ok (none, {})
  | some src => do
    let e ← parseConstraintM x sys k src
    let e ← inferAndCheckM x src sc e
    .ok (some e, src)

/-- `ParseTableInfo` (constraint_info.cc:231-276). -/
def parseTableInfoM (x : Texts) (sys : Sys) (t : TableDecl) : MRes TableInfo := do
  let (byId, byName) ← parseKeysM x t.preamble.name ([], []) t.matchFields
  let (constraint, src) ← parseAndCheckM x sys .table t.preamble (.table byName)
  .ok ⟨t.preamble.id, t.preamble.name, constraint, src, byId, byName⟩

/-- `ParseActionInfo` (constraint_info.cc:278-322). -/
def parseActionInfoM (x : Texts) (sys : Sys) (a : ActionDecl) : MRes ActionInfo := do
  let (byId, byName) ← parseParamDeclsM x a.preamble.name ([], []) a.params
  let (constraint, src) ← parseAndCheckM x sys .action a.preamble (.action byName)
  .ok ⟨a.preamble.id, a.preamble.name, constraint, src, byId, byName⟩

/-- The loops of `P4ToConstraintInfo` (constraint_info.cc:362-383): the map and the messages of the errors. -/
def collectM {δ ι : Type} (parse : δ → MRes ι) (id : δ → Nat) (dup : δ → Str) :
    List (Nat × ι) → List δ → MRes (List (Nat × ι) × List Str)
  | m, [] => .ok (m, [])
  | m, d :: ds =>
    match parse d with
    | .ok i =>
      match insertNew (id d) i m with
      | some m => collectM parse id dup m ds
      | none => do
        let (m, msgs) ← collectM parse id dup m ds
        .ok (m, dup d :: msgs)
    | .err _ msg => do
      let (m, msgs) ← collectM parse id dup m ds
      .ok (m, msg :: msgs)
    | .crash => .crash
    | .oof => .oof

/-- `absl::StrJoin(errors, "\n- ", ..)`, each followed by a newline (constraint_info.cc:392-396). -/
def joinErrors : List Str → Str
  | [] => []
  | [m] => m ++ c!"\n"
  | m :: ms => m ++ c!"\n" ++ c!"\n- " ++ joinErrors ms

/-- `P4ToConstraintInfo` (constraint_info.cc:354-398). -/
def p4ToConstraintInfoM (x : Texts) (sys : Sys) (p : P4Info) : MRes ConstraintInfo := do
  let (tables, e1) ← collectM (parseTableInfoM x sys) (fun t => t.preamble.id)
    (fun t => c!"duplicate table: " ++ x.table t) [] p.tables
  let (actions, e2) ← collectM (parseActionInfoM x sys) (fun a => a.preamble.id)
    (fun a => c!"duplicate action: " ++ x.action a) [] p.actions
  if e1 ++ e2 = [] then .ok ⟨actions, tables⟩
  else
    .err .invalidArgument (c!"P4Info to constraint info translation failed with the following errors:\n- " ++
      joinErrors (e1 ++ e2))

end P4C
