import Verif.Model.Token

/-
Lexical structure of constraints (docs/language-specification.md "Lexical structure", lexer.h), and
positions in texts. Input is a byte string, one `Char` per byte.
-/

namespace P4C.Spec

/-! ### Positions -/

/-- The location one line down. -/
def nextLine (l : Loc) : Loc := { l with line := l.line + 1, col := 0 }

/-- The location `n` columns to the right. -/
def shift (l : Loc) (n : Nat) : Loc := { l with col := l.col + n }

/-- The location after reading a text. Line breaks are `\n`, `\r` and `\r\n`: a `\r` before a `\n` is not
counted by itself. -/
def advance (l : Loc) : Str → Loc
  | [] => l
  | c :: cs =>
    advance (if c = '\r' ∧ cs.head? = some '\n' then l
      else if c = '\r' ∨ c = '\n' then nextLine l
      else shift l 1) cs

/-! ### Characters -/

/-- A continuation byte. -/
def Cont (c : Char) : Prop := 0x80 ≤ c.toNat ∧ c.toNat ≤ 0xBF

/-- A character: an ASCII byte or a multi-byte sequence. -/
inductive Rune : Str → Prop where
  | ascii {c : Char} : c.toNat < 0x80 → Rune [c]
  | two {c d : Char} : 0xC2 ≤ c.toNat → c.toNat ≤ 0xDF → Cont d → Rune [c, d]
  | three {c d e : Char} : 0xE0 ≤ c.toNat → c.toNat ≤ 0xEF → Cont d → Cont e → Rune [c, d, e]
  | four {c d e f : Char} : 0xF0 ≤ c.toNat → c.toNat ≤ 0xF4 → Cont d → Cont e → Cont f →
      Rune [c, d, e, f]

/-- A sequence of characters. -/
inductive Runes : Str → Prop where
  | nil : Runes []
  | cons {r s : Str} : Rune r → Runes s → Runes (r ++ s)

/-- The text does not start with a character: it is empty or malformed there. -/
def NoRune (s : Str) : Prop := ∀ r t, Rune r → s ≠ r ++ t

/-! ### Tokens -/

/-- Keywords, operators and punctuation. -/
def keywords : List (Kind × Str) :=
  [(.true_, c!"true"), (.false_, c!"false"), (.bang, c!"!"), (.and, c!"&&"), (.or, c!"||"),
   (.implies, c!"->"), (.minus, c!"-"), (.dot, c!"."), (.doubleColon, c!"::"), (.semicolon, c!";"),
   (.eq, c!"=="), (.ne, c!"!="), (.gt, c!">"), (.ge, c!">="), (.lt, c!"<"), (.le, c!"<="),
   (.lpar, c!"("), (.rpar, c!")")]

/-- Letters (with the underscore). -/
def Letter (c : Char) : Prop := c = '_' ∨ ('a' ≤ c ∧ c ≤ 'z') ∨ ('A' ≤ c ∧ c ≤ 'Z')

/-- Decimal digits. -/
def Digit (c : Char) : Prop := '0' ≤ c ∧ c ≤ '9'

/-- Hexadecimal digits. -/
def HexDigit (c : Char) : Prop := Digit c ∨ ('a' ≤ c ∧ c ≤ 'f') ∨ ('A' ≤ c ∧ c ≤ 'F')

/-- `Spells k text s`: `s` spells a token of kind `k` with the given text. -/
inductive Spells : Kind → Str → Str → Prop where
  | keyword {k : Kind} {s : Str} : (k, s) ∈ keywords → Spells k s s
  | id {c : Char} {s : Str} : Letter c → (∀ d ∈ s, Letter d ∨ Digit d) → Spells .id (c :: s) (c :: s)
  | binary {b : Char} {s : Str} : b = 'b' ∨ b = 'B' → s ≠ [] → (∀ d ∈ s, d = '0' ∨ d = '1') →
      Spells .binary s ('0' :: b :: s)
  | octary {b : Char} {s : Str} : b = 'o' ∨ b = 'O' → s ≠ [] → (∀ d ∈ s, '0' ≤ d ∧ d ≤ '7') →
      Spells .octary s ('0' :: b :: s)
  | hexadec {b : Char} {s : Str} : b = 'x' ∨ b = 'X' → s ≠ [] → (∀ d ∈ s, HexDigit d) →
      Spells .hexadec s ('0' :: b :: s)
  | decimal {s : Str} : s ≠ [] → (∀ d ∈ s, Digit d) → Spells .decimal s s
  | decimalD {b : Char} {s : Str} : b = 'd' ∨ b = 'D' → s ≠ [] → (∀ d ∈ s, Digit d) →
      Spells .decimal s ('0' :: b :: s)
  | string {s : Str} : Runes s → '\'' ∉ s → Spells .string s ('\'' :: (s ++ ['\'']))

/-- The token to be read at the beginning of the input is the longest possible one, except that input
starting with `true` or `false` always gives that keyword. -/
structure Chosen (input : Str) (k : Kind) (lexeme : Str) : Prop where
  isTrue : c!"true" <+: input → k = .true_
  isFalse : c!"false" <+: input → k = .false_
  longest : k ≠ .true_ → k ≠ .false_ →
    ∀ k' t' l', Spells k' t' l' → l' <+: input → l'.length ≤ lexeme.length

/-- No token, white space or comment starts here. -/
structure Unlexable (s : Str) : Prop where
  token : ∀ k t l, Spells k t l → ¬ l <+: s
  space : ∀ c ∈ c!" \t\r\n", ¬ [c] <+: s
  comment : ¬ c!"//" <+: s ∧ ¬ c!"/*" <+: s

/-- `Lexed l s ts`: the text `s`, starting at location `l`, consists of the tokens `ts`. White space and
comments separate tokens. A line comment extends to the end of the line; a block comment to the first
`*/` or the end of the input. (A comment also ends where the text is malformed; nothing can be read
there.) The last token is END_OF_INPUT, or UNEXPECTED_CHAR at the point where nothing can be read. A token
is taken to be on one line. -/
inductive Lexed : Loc → Str → List Token → Prop where
  | eof {l : Loc} : Lexed l [] [⟨.endOfInput, [], l, l⟩]
  | bad {l : Loc} {c : Char} {s : Str} : Unlexable (c :: s) →
      Lexed l (c :: s) [⟨.unexpectedChar, [c], l, shift l 1⟩]
  | blank {l : Loc} {c : Char} {s : Str} {ts : List Token} : c = ' ' ∨ c = '\t' → Lexed (shift l 1) s ts →
      Lexed l (c :: s) ts
  | crlf {l : Loc} {s : Str} {ts : List Token} : Lexed (nextLine l) s ts → Lexed l ('\r' :: '\n' :: s) ts
  | cr {l : Loc} {s : Str} {ts : List Token} : (∀ t, s ≠ '\n' :: t) → Lexed (nextLine l) s ts →
      Lexed l ('\r' :: s) ts
  | lf {l : Loc} {s : Str} {ts : List Token} : Lexed (nextLine l) s ts → Lexed l ('\n' :: s) ts
  | line {l : Loc} {a s : Str} {ts : List Token} : Runes a → (∀ c ∈ a, c ≠ '\r' ∧ c ≠ '\n') →
      (NoRune s ∨ ∃ t, s = '\r' :: t ∨ s = '\n' :: t) → Lexed (shift l (a.length + 2)) s ts →
      Lexed l ('/' :: '/' :: (a ++ s)) ts
  | block {l : Loc} {a s : Str} {ts : List Token} : Runes a → ¬ c!"*/" <:+: a →
      Lexed (advance l (c!"/*" ++ a ++ c!"*/")) s ts → Lexed l (c!"/*" ++ a ++ c!"*/" ++ s) ts
  | openBlock {l : Loc} {a s : Str} {ts : List Token} : Runes a → ¬ c!"*/" <:+: a → NoRune s →
      Lexed (advance l (c!"/*" ++ a)) s ts → Lexed l (c!"/*" ++ a ++ s) ts
  | tok {l : Loc} {k : Kind} {text lexeme s : Str} {ts : List Token} : Spells k text lexeme →
      Chosen (lexeme ++ s) k lexeme → Lexed (shift l lexeme.length) s ts →
      Lexed l (lexeme ++ s) (⟨k, text, l, shift l lexeme.length⟩ :: ts)

end P4C.Spec
