import Verif.Model.Lexer

/-
Model of `p4_constraints/frontend/ast_constructors.cc` and `p4_constraints/frontend/parser.cc`.
-/

namespace P4C

/-- The operating system functions the library calls. `inetPton6 s` is `inet_pton(AF_INET6, s, ..)`:
the 16 address bytes if it returns 1. -/
structure Sys where
  inetPton6 : Str → Option Bytes

/-- `enum class ConstraintKind` (constraint_kind.h). -/
inductive ConstraintKind where
  | table
  | action
deriving DecidableEq, Repr

/-- `ConvertBinaryOperator` (ast_constructors.cc:50-75). -/
def convertBinaryOperator : Kind → Res BinOp
  | .and | .semicolon => .ok .and
  | .or => .ok .or
  | .implies => .ok .implies
  | .eq => .ok .eq
  | .ne => .ok .ne
  | .gt => .ok .gt
  | .ge => .ok .ge
  | .lt => .ok .lt
  | .le => .ok .le
  | _ => .err .invalidArgument

/-- `ConvertNumeral` (ast_constructors.cc:77-100); a failing `RET_CHECK` is an Internal error. -/
def convertNumeral (kind : Kind) (text : Str) : Res Str :=
  let conv (base : Nat) : Res Str :=
    match setStr base text with
    | some n => .ok (intDec n)
    | none => .err .internal
  match kind with
  | .binary => conv 2
  | .octary => conv 8
  | .decimal => conv 10
  | .hexadec => conv 16
  | _ => .err .invalidArgument

/-- The loop of `Base10StringToByte` (ast_constructors.cc:113-121). -/
def base10Loop : Nat → Str → Res Nat
  | acc, [] => .ok acc
  | acc, c :: cs =>
    if c.toNat > 57 ∨ c.toNat < 48 then .err .invalidArgument
    else base10Loop (acc * 10 + (c.toNat - 48)) cs

/-- `Base10StringToByte` (ast_constructors.cc:102-130). -/
def base10StringToByte (s : Str) : Res Nat :=
  if s.isEmpty ∨ s.length > 3 then .err .invalidArgument
  else do
    let buffer ← base10Loop 0 s
    if buffer > 255 then .err .invalidArgument else .ok buffer

/-- `absl::ascii_isxdigit`. -/
def isXDigit (c : Char) : Bool := isHex c

/-- The value of a hexadecimal digit (ast_constructors.cc:149-150). -/
def xdigitVal (c : Char) : Nat :=
  if c.toNat ≥ 65 then (if c.toNat ≥ 97 then c.toNat - 97 + 10 else c.toNat - 65 + 10) else c.toNat - 48

/-- The loop of `Base16StringToByte` (ast_constructors.cc:142-152). -/
def base16Loop : Nat → Str → Res Nat
  | acc, [] => .ok acc
  | acc, c :: cs =>
    if !isXDigit c then .err .invalidArgument
    else base16Loop (acc * 16 + xdigitVal c) cs

/-- `Base16StringToByte` (ast_constructors.cc:132-155). -/
def base16StringToByte (s : Str) : Res Nat :=
  if s.isEmpty ∨ s.length > 2 then .err .invalidArgument
  else base16Loop 0 s

/-- `absl::StrSplit(s, c)`. -/
def strSplit (sep : Char) : Str → List Str
  | [] => [[]]
  | c :: cs =>
    if c = sep then [] :: strSplit sep cs
    else match strSplit sep cs with
      | p :: ps => (c :: p) :: ps
      | [] => [[c]]

/-- `bits <<= 8; bits |= byte` on a `std::bitset<n>`, for each byte in turn. -/
def bitsetShiftIn (n : Nat) (bits : Nat) (byte : Nat) : Nat := ((bits * 256) % 2 ^ n) ||| byte

/-- `std::bitset<n>::to_string()`. -/
def bitsetToString : Nat → Nat → Str
  | 0, _ => []
  | n + 1, bits => (if bits.testBit n then '1' else '0') :: bitsetToString n bits

/-- The loops of ast_constructors.cc:169-173 and 213-217. -/
def addressLoop (conv : Str → Res Nat) (n : Nat) : Nat → List Str → Res Nat
  | bits, [] => .ok bits
  | bits, s :: ss => do
    let byte ← conv s
    addressLoop conv n (bitsetShiftIn n bits byte) ss

/-- `Ipv4StringToByteString` (ast_constructors.cc:157-175). -/
def ipv4StringToByteString (s : Str) : Res Str :=
  let bytes := strSplit '.' s
  if bytes.length ≠ 4 then .err .invalidArgument
  else do
    let bits ← addressLoop base10StringToByte 32 0 bytes
    .ok (bitsetToString 32 bits)

/-- `MacStringToByteString` (ast_constructors.cc:201-219). -/
def macStringToByteString (s : Str) : Res Str :=
  let bytes := strSplit ':' s
  if bytes.length ≠ 6 then .err .invalidArgument
  else do
    let bits ← addressLoop base16StringToByte 48 0 bytes
    .ok (bitsetToString 48 bits)

/-- `AnyByteStringToBitset<n>` (ast_constructors.cc:177-188). -/
def anyByteStringToBitset (n : Nat) (bs : Bytes) : Nat :=
  bs.foldl (fun bits b => bitsetShiftIn n bits b.toNat) 0

/-- `Ipv6StringToByteString` (ast_constructors.cc:190-199); `data()` ends at the first NUL. -/
def ipv6StringToByteString (sys : Sys) (s : Str) : Res Str :=
  match sys.inetPton6 (cstr s) with
  | some bytes => .ok (bitsetToString 128 (anyByteStringToBitset 128 bytes))
  | none => .err .invalidArgument

/-- `LocatedExpression` (ast_constructors.cc:223-229). -/
def located (start stop : Loc) : Info := { start := start, stop := stop }

/-- `MakeBooleanConstant` (ast_constructors.cc:235-242). -/
def makeBooleanConstant (t : Token) : Res Expr :=
  if t.kind = .true_ ∨ t.kind = .false_ then
    .ok (.boolConst (located t.start t.stop) (t.kind = .true_))
  else .err .internal

/-- `MakeIntegerConstant` (ast_constructors.cc:244-250). -/
def makeIntegerConstant (t : Token) : Res Expr := do
  let s ← convertNumeral t.kind t.text
  .ok (.intConst (located t.start t.stop) s)

/-- `MakeNetworkAddressIntegerConstant` (ast_constructors.cc:252-282). -/
def makeNetworkAddress (sys : Sys) (addressType address : Str) (start stop : Loc) : Res Expr := do
  let s ←
    if addressType = c!"ipv4" then do
      let bits ← ipv4StringToByteString address
      convertNumeral .binary bits
    else if addressType = c!"ipv6" then do
      let bits ← ipv6StringToByteString sys address
      convertNumeral .binary bits
    else if addressType = c!"mac" then do
      let bits ← macStringToByteString address
      convertNumeral .binary bits
    else .err .invalidArgument
  .ok (.intConst (located start stop) s)

/-- `MakeBooleanNegation` (ast_constructors.cc:284-291). -/
def makeBooleanNegation (t : Token) (e : Expr) : Res Expr :=
  if t.kind = .bang then .ok (.boolNeg (located t.start e.stop) e) else .err .internal

/-- `MakeArithmeticNegation` (ast_constructors.cc:293-300). -/
def makeArithmeticNegation (t : Token) (e : Expr) : Res Expr :=
  if t.kind = .minus then .ok (.arithNeg (located t.start e.stop) e) else .err .internal

/-- The name built by `MakeVariable` (ast_constructors.cc:302-335): identifiers are joined by "." for
keys and concatenated for action parameters. -/
def variableName : ConstraintKind → List Token → Str
  | _, [] => []
  | k, t :: ts =>
    match k with
    | .table => t.text ++ (ts.map fun t => '.' :: t.text).flatten
    | .action => t.text ++ (ts.map fun t => t.text).flatten

/-- `MakeVariable` (ast_constructors.cc:302-335). -/
def makeVariable (ids : List Token) (k : ConstraintKind) : Res Expr :=
  match ids with
  | [] => .err .internal
  | t :: ts =>
    if (t :: ts).all (fun t => t.kind = .id) then
      let i := located t.start ((t :: ts).getLast (by simp)).stop
      match k with
      | .table => .ok (.key i (variableName k (t :: ts)))
      | .action => .ok (.actionParam i (variableName k (t :: ts)))
    else .err .internal

/-- `MakeAttributeAccess` (ast_constructors.cc:337-343). -/
def makeAttributeAccess (dc name : Token) : Res Expr :=
  .ok (.attr (located dc.start name.stop) name.text)

/-- `MakeBinaryExpression` (ast_constructors.cc:345-358). -/
def makeBinaryExpression (t : Token) (l r : Expr) : Res Expr := do
  let op ← convertBinaryOperator t.kind
  .ok (.bin (located l.start r.stop) op l r)

/-- `MakeFieldAccess` (ast_constructors.cc:360-368). -/
def makeFieldAccess (e : Expr) (f : Token) : Res Expr :=
  if f.kind = .id then .ok (.field (located e.start f.stop) e f.text) else .err .internal

/-- `enum class Associativity` (parser.cc:84). -/
inductive Assoc where
  | left | right | none
deriving DecidableEq, Repr

/-- `TokenAssociativity` (parser.cc:88-104). -/
def tokenAssociativity : Kind → Assoc
  | .and | .or | .doubleColon | .semicolon => .left
  | _ => .none

/-- `TokenPrecedence` (parser.cc:110-137). -/
def tokenPrecedence : Kind → Nat
  | .doubleColon => 7
  | .bang | .minus => 6
  | .eq | .ne | .gt | .ge | .lt | .le => 5
  | .and => 4
  | .or => 3
  | .implies => 2
  | .semicolon => 1
  | _ => 0

/-- `TokenStream` (parser.cc:46-76): the tokens not yet consumed; `eof` is the end location of the last
token of the whole stream. -/
structure Stream where
  rest : List Token
  eof : Loc

/-- `TokenStream::Peek` (parser.cc:63-69). -/
def Stream.peek (s : Stream) : Token :=
  match s.rest with
  | t :: _ => t
  | [] => ⟨.endOfInput, [], s.eof, s.eof⟩

/-- The stream after `TokenStream::Next` (parser.cc:71-75). -/
def Stream.next (s : Stream) : Stream := { s with rest := s.rest.tail }

/-- `Unexpected` and `ParseError(token, source)` (parser.cc:141-181): only the status code matters. -/
def parseError {α : Type} (t : Token) (src : ConstraintSource) : Res α :=
  quotingError src t.start t.stop

/-- `ExpectTokenKind` (parser.cc:186-190). -/
def expectTokenKind (k : Kind) (src : ConstraintSource) (s : Stream) : Res (Token × Stream) :=
  let t := s.peek
  if t.kind ≠ k then parseError t src else .ok (t, s.next)

/-- The loop of parser.cc:271-277, collecting `(DOT ID)*`; `fuel` bounds the iterations. -/
def parseDots (src : ConstraintSource) : Nat → List Token → Stream → Res (List Token × Stream)
  | 0, _, _ => .oof
  | fuel + 1, ids, s =>
    if s.peek.kind = .dot then do
      let (t, s) ← expectTokenKind .id src s.next
      parseDots src fuel (ids ++ [t]) s
    else .ok (ids, s)

/-- Tokens that may extend an expression (parser.cc:324-334). -/
def isExtension : Kind → Bool
  | .doubleColon | .and | .semicolon | .or | .implies | .eq | .ne | .gt | .ge | .lt | .le => true
  | _ => false

mutual

/-- `ParseConstraintAbove` (parser.cc:233-372), up to the loop. -/
def parseAbove (sys : Sys) (k : ConstraintKind) (src : ConstraintSource) :
    Nat → Nat → Stream → Res (Expr × Stream)
  | 0, _, _ => .oof
  | fuel + 1, prec, s0 => do
    let t := s0.peek
    let s := s0.next
    let (ast, s) ← (match t.kind with
      | .true_ | .false_ => do
        let e ← makeBooleanConstant t
        .ok (e, s)
      | .binary | .octary | .decimal | .hexadec => do
        let e ← makeIntegerConstant t
        .ok (e, s)
      | .id =>
        if s.peek.kind = .lpar then do
          let (strTok, s) ← expectTokenKind .string src s.next
          let (rpar, s) ← expectTokenKind .rpar src s
          let e ← makeNetworkAddress sys t.text strTok.text t.start rpar.stop
          .ok (e, s)
        else do
          let (ids, s) ← parseDots src (s.rest.length + 1) [t] s
          let e ← makeVariable ids k
          .ok (e, s)
      | .doubleColon => do
        let (name, s) ← expectTokenKind .id src s
        let e ← makeAttributeAccess t name
        .ok (e, s)
      | .bang => do
        let (e, s) ← parseAbove sys k src fuel (tokenPrecedence .bang) s
        let e ← makeBooleanNegation t e
        .ok (e, s)
      | .minus => do
        let (e, s) ← parseAbove sys k src fuel (tokenPrecedence .minus) s
        let e ← makeArithmeticNegation t e
        .ok (e, s)
      | .lpar => do
        let (e, s) ← parseAbove sys k src fuel 0 s
        let (_, s) ← expectTokenKind .rpar src s
        .ok (e, s)
      | _ => parseError t src)
    parseExt sys k src fuel prec ast s

/-- The loop of `ParseConstraintAbove` (parser.cc:315-371). -/
def parseExt (sys : Sys) (k : ConstraintKind) (src : ConstraintSource) :
    Nat → Nat → Expr → Stream → Res (Expr × Stream)
  | 0, _, _, _ => .oof
  | fuel + 1, prec, ast, s =>
    let t := s.peek
    if t.kind = .endOfInput ∨ t.kind = .rpar then .ok (ast, s)
    else if isExtension t.kind then
      if prec = tokenPrecedence t.kind ∧ tokenAssociativity t.kind = .none then parseError t src
      else if prec > tokenPrecedence t.kind ∨
          (prec = tokenPrecedence t.kind ∧ tokenAssociativity t.kind = .left) then .ok (ast, s)
      else
        let s := s.next
        if t.kind = .semicolon ∧ (s.peek.kind = .endOfInput ∨ s.peek.kind = .rpar) then .ok (ast, s)
        else if t.kind = .doubleColon then do
          let (f, s) ← expectTokenKind .id src s
          let ast ← makeFieldAccess ast f
          parseExt sys k src fuel prec ast s
        else do
          let (another, s) ← parseAbove sys k src fuel (tokenPrecedence t.kind) s
          let ast ← makeBinaryExpression t ast another
          parseExt sys k src fuel prec ast s
    else parseError t src

end

/-- End location used for the infinite tail of END_OF_INPUT tokens (parser.cc:66-67). -/
def eofLoc (ts : List Token) : Loc := (ts.getLast?.map Token.stop).getD {}

/-- `internal_parser::ParseConstraint` (parser.cc:380-388). -/
def parseTokens (sys : Sys) (k : ConstraintKind) (ts : List Token) (src : ConstraintSource) :
    Res Expr := do
  let (ast, s) ← parseAbove sys k src (2 * ts.length + 2) 0 ⟨ts, eofLoc ts⟩
  let _ ← expectTokenKind .endOfInput src s
  .ok ast

/-- `ParseConstraint` (parser.cc:394-398). -/
def parseConstraint (sys : Sys) (k : ConstraintKind) (src : ConstraintSource) : Res Expr :=
  parseTokens sys k (tokenize src) src

end P4C
