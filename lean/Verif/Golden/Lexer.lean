import Verif.Model.Lexer

/-
The tests of `frontend/lexer_test.cc` and `frontend/token_test.cc`, run on the model.
-/

namespace P4C.Golden.Lexer

/-- The kinds of the tokens of a text. -/
def lexed (s : Str) : List Kind := (tokenize ⟨s, {}⟩).map Token.kind

/-- The keywords: the kinds whose text is not in angle brackets. -/
def keywords : List Kind :=
  allKinds.filter fun k => ¬ ((kindToKeyword k).head? = some '<' ∧ (kindToKeyword k).getLast? = some '>')

-- AllKeywordsAreRecognized (lexer_test.cc:43-76)
example : keywords.length = 18 := by decide +kernel
example : ∀ k ∈ keywords, lexed (kindToKeyword k) = [k, .endOfInput] := by decide +kernel
example : lexed (keywords.flatMap fun k => kindToKeyword k ++ [' ']) = keywords ++ [.endOfInput] := by decide +kernel

-- PositiveSingleToken (lexer_test.cc:79-208): the tokens begin with the expected ones
/-- The texts and the tokens expected for them. -/
def positive : List (Str × List Kind) :=
  [(c!"true", [.true_, .endOfInput]),
   (c!"false", [.false_, .endOfInput]),
   (c!"!", [.bang, .endOfInput]),
   (c!"&&", [.and, .endOfInput]),
   (c!"||", [.or, .endOfInput]),
   (c!"->", [.implies, .endOfInput]),
   (c!".", [.dot, .endOfInput]),
   (c!"::", [.doubleColon, .endOfInput]),
   (c!"(", [.lpar, .endOfInput]),
   (c!")", [.rpar, .endOfInput]),
   (c!"<", [.lt, .endOfInput]),
   (c!"<=", [.le, .endOfInput]),
   (c!"==", [.eq, .endOfInput]),
   (c!"!=", [.ne, .endOfInput]),
   (c!">", [.gt, .endOfInput]),
   (c!">=", [.ge, .endOfInput]),
   (c!"_", [.id, .endOfInput]),
   (c!"d", [.id, .endOfInput]),
   (c!"D", [.id, .endOfInput]),
   (c!"__", [.id, .endOfInput]),
   (c!"a1234567890", [.id, .endOfInput]),
   (c!"_._", [.id, .dot, .id, .endOfInput]),
   (c!"_.d._01234567890.a0.b1", [.id, .dot, .id, .dot, .id, .dot, .id, .dot, .id, .endOfInput]),
   (c!"_.3", [.id, .dot, .decimal, .endOfInput]),
   (c!"0", [.decimal, .endOfInput]),
   (c!"00", [.decimal, .endOfInput]),
   (c!"000", [.decimal, .endOfInput]),
   (c!"00001", [.decimal, .endOfInput]),
   (c!"1234567890", [.decimal, .endOfInput]),
   (c!"0d0", [.decimal, .endOfInput]),
   (c!"0d1234567890", [.decimal, .endOfInput]),
   (c!"0D0", [.decimal, .endOfInput]),
   (c!"0D1234567890", [.decimal, .endOfInput]),
   (c!"0b0", [.binary, .endOfInput]),
   (c!"0b1", [.binary, .endOfInput]),
   (c!"0b00", [.binary, .endOfInput]),
   (c!"0b01", [.binary, .endOfInput]),
   (c!"0b10", [.binary, .endOfInput]),
   (c!"0b11", [.binary, .endOfInput]),
   (c!"0B0", [.binary, .endOfInput]),
   (c!"0B1", [.binary, .endOfInput]),
   (c!"0B00", [.binary, .endOfInput]),
   (c!"0B01", [.binary, .endOfInput]),
   (c!"0B10", [.binary, .endOfInput]),
   (c!"0B11", [.binary, .endOfInput]),
   (c!"0b012", [.binary, .decimal, .endOfInput]),
   (c!"0b01 2", [.binary, .decimal, .endOfInput]),
   (c!"0b01a", [.binary, .id, .endOfInput]),
   (c!"0b01 a", [.binary, .id, .endOfInput]),
   (c!"0o0", [.octary, .endOfInput]),
   (c!"0o1", [.octary, .endOfInput]),
   (c!"0o00", [.octary, .endOfInput]),
   (c!"0o001", [.octary, .endOfInput]),
   (c!"0o12345670", [.octary, .endOfInput]),
   (c!"0O0", [.octary, .endOfInput]),
   (c!"0O1", [.octary, .endOfInput]),
   (c!"0O00", [.octary, .endOfInput]),
   (c!"0O001", [.octary, .endOfInput]),
   (c!"0O12345670", [.octary, .endOfInput]),
   (c!"0o128", [.octary, .decimal, .endOfInput]),
   (c!"0o12 8", [.octary, .decimal, .endOfInput]),
   (c!"0o23a", [.octary, .id, .endOfInput]),
   (c!"0o23 a", [.octary, .id, .endOfInput]),
   (c!"0x0", [.hexadec, .endOfInput]),
   (c!"0x1", [.hexadec, .endOfInput]),
   (c!"0x00", [.hexadec, .endOfInput]),
   (c!"0x001", [.hexadec, .endOfInput]),
   (c!"0x1234567890aAbBcCdDeEfF", [.hexadec, .endOfInput]),
   (c!"0X0", [.hexadec, .endOfInput]),
   (c!"0X1", [.hexadec, .endOfInput]),
   (c!"0X00", [.hexadec, .endOfInput]),
   (c!"0X001", [.hexadec, .endOfInput]),
   (c!"0X1234567890aAbBcCdDeEfF", [.hexadec, .endOfInput]),
   (c!"0xfF0o", [.hexadec, .id, .endOfInput]),
   (c!"0xfF0 o", [.hexadec, .id, .endOfInput]),
   ([], [.endOfInput]),
   (c!"@", [.unexpectedChar]),
   (c!"#", [.unexpectedChar]),
   (c!"$", [.unexpectedChar]),
   (c!"%", [.unexpectedChar]),
   (c!"^", [.unexpectedChar]),
   (c!"&", [.unexpectedChar]),
   (c!"*", [.unexpectedChar]),
   (c!"+", [.unexpectedChar]),
   (c!"=", [.unexpectedChar]),
   (c!"~", [.unexpectedChar]),
   (c!"|", [.unexpectedChar]),
   (c!"\\", [.unexpectedChar]),
   (c!"/", [.unexpectedChar]),
   (c!"{", [.unexpectedChar]),
   (c!"}", [.unexpectedChar]),
   (c!"[", [.unexpectedChar]),
   (c!"]", [.unexpectedChar]),
   (c!"`", [.unexpectedChar]),
   (c!"0b2", [.decimal, .id, .endOfInput]),
   (c!"0o8", [.decimal, .id, .endOfInput]),
   (c!"0df", [.decimal, .id, .endOfInput]),
   (c!"0xg", [.decimal, .id, .endOfInput])]

example : ∀ t ∈ positive, t.2.isPrefixOf (lexed t.1) = true := by decide +kernel

-- NegativeToken (lexer_test.cc:211-263): the first token is not the given one
/-- The texts and the kinds that their first token must not have. -/
def negative : List (Str × Kind) :=
  [(c!"True", .true_),
   (c!"trUe", .true_),
   (c!"ture", .true_),
   (c!"False", .false_),
   (c!"falsE", .false_),
   (c!"FALSE", .false_),
   (c!"fasle", .false_),
   (c!"~", .bang),
   (c!"not", .bang),
   (c!"&", .and),
   (c!"and", .and),
   (c!"|", .or),
   (c!"or", .or),
   (c!"=>", .implies),
   (c!"implies", .implies),
   (c!"{", .lpar),
   (c!"begin", .lpar),
   (c!"}", .rpar),
   (c!"end", .rpar),
   (c!".", .id),
   (c!"..", .id),
   (c!".abc", .id),
   (c!"7", .id),
   (c!".abc", .id),
   (c!"+0", .decimal),
   (c!"-0", .decimal),
   (c!"+0b0", .binary),
   (c!"-0b1", .binary),
   (c!"0b2", .binary)]

example : ∀ t ∈ negative, lexed t.1 ≠ [] ∧ (lexed t.1).head? ≠ some t.2 := by decide +kernel

-- CommentsAreLexedCorrectly (lexer_test.cc:265-297)
/-- The texts with comments and the tokens expected for them. -/
def comments : List (Str × List Kind) :=
  [(c!"// just a comment", [.endOfInput]),
   (c!"// comment followed by token\ntrue", [.true_, .endOfInput]),
   (c!"true // trailing comment\n false", [.true_, .false_, .endOfInput]),
   (c!"/* just a\n multiline\n comment */", [.endOfInput]),
   (c!"/* comment followed by token\n*/true", [.true_, .endOfInput]),
   (c!"true /* trailing comment */ false", [.true_, .false_, .endOfInput])]

example : ∀ t ∈ comments, t.2.isPrefixOf (lexed t.1) = true := by decide +kernel

-- TokenizeAnEmptyString, TokenizeAnEmptyStringWithADoubleQuoteInMiddle, TokenizeString (lexer_test.cc:299-328)
example : lexed c!"''" = [.string, .endOfInput] := by decide +kernel
example : (tokenize ⟨c!"''", {}⟩).head?.map Token.text = some [] := by decide +kernel
example : lexed c!"'''" = [.string, .unexpectedChar] := by decide +kernel
example : lexed c!"'192.168.2.1'" = [.string, .endOfInput] := by decide +kernel
example : (tokenize ⟨c!"'192.168.2.1'", {}⟩).head?.map Token.text = some c!"192.168.2.1" := by decide +kernel

-- KindToKeyword_KeywordToKind_Rountrip (token_test.cc:43-48)
example : ∀ k ∈ allKinds, keywordToKind (kindToKeyword k) = some k := by decide +kernel

end P4C.Golden.Lexer
