import Verif.Model.Ast

/-
Model of `p4_constraints/frontend/token.h` and `token.cc`.
-/

namespace P4C

/-- `Token::Kind` (token.h; listed in token.cc:30-57). -/
inductive Kind where
  | true_ | false_ | bang | and | or | implies | minus | dot | doubleColon | semicolon
  | eq | ne | gt | ge | lt | le | lpar | rpar
  | id | binary | octary | decimal | hexadec | string
  | endOfInput | unexpectedChar
deriving DecidableEq, Repr

/-- `Token::kAllKinds` (token.cc:29-57). -/
def allKinds : List Kind :=
  [.true_, .false_, .bang, .and, .or, .implies, .minus, .dot, .doubleColon, .semicolon,
   .eq, .ne, .gt, .ge, .lt, .le, .lpar, .rpar, .id, .binary, .octary, .decimal, .hexadec, .string,
   .endOfInput, .unexpectedChar]

/-- `Token::KindToKeyword` (token.cc:59-117). -/
def kindToKeyword : Kind → Str
  | .true_ => c!"true"
  | .false_ => c!"false"
  | .bang => c!"!"
  | .and => c!"&&"
  | .or => c!"||"
  | .implies => c!"->"
  | .minus => c!"-"
  | .dot => c!"."
  | .doubleColon => c!"::"
  | .semicolon => c!";"
  | .eq => c!"=="
  | .ne => c!"!="
  | .gt => c!">"
  | .ge => c!">="
  | .lt => c!"<"
  | .le => c!"<="
  | .lpar => c!"("
  | .rpar => c!")"
  | .id => c!"<ID>"
  | .binary => c!"<BINARY>"
  | .octary => c!"<OCTARY>"
  | .decimal => c!"<DECIMAL>"
  | .hexadec => c!"<HEXADEC>"
  | .string => c!"<STRING>"
  | .endOfInput => c!"<END_OF_INPUT>"
  | .unexpectedChar => c!"<UNEXPECTED_CHAR>"

/-- `kind_keyword_map` (token.cc:119-127). -/
def kindKeywordMap : List (Str × Kind) := allKinds.map fun k => (kindToKeyword k, k)

/-- `Token::KeywordToKind` (token.cc:129-136). -/
def keywordToKind (s : Str) : Option Kind := lookup s kindKeywordMap

/-- `struct Token` (token.h). -/
structure Token where
  kind : Kind
  text : Str
  start : Loc
  stop : Loc
deriving DecidableEq, Repr

end P4C
