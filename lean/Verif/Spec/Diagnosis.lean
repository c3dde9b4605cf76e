import Verif.Spec.Grammar
import Verif.Spec.Lexical
import Verif.Spec.Annotation

/-
What error messages about constraints should say.
-/

namespace P4C.Spec

/-! ### Syntax errors -/

/-- Names: `ID (. ID)*`. -/
inductive Names : List Kind → Prop where
  | one : Names [.id]
  | snoc {ks : List Kind} : Names ks → Names (ks ++ [.dot, .id])

/-- `Shape n ks`: tokens of the kinds `ks` form an expression of level `n`. This is the grammar `G`, without trees and
regardless of the contents of address literals. -/
inductive Shape : Nat → List Kind → Prop where
  | true_ : Shape 8 [.true_]
  | false_ : Shape 8 [.false_]
  | numeral {k : Kind} {b : Nat} : baseOf k = some b → Shape 8 [k]
  | address : Shape 8 [.id, .lpar, .string, .rpar]
  | name {ks : List Kind} : Names ks → Shape 8 ks
  | attr : Shape 8 [.doubleColon, .id]
  | paren {ks : List Kind} : Shape 0 ks → Shape 8 (.lpar :: ks ++ [.rpar])
  | up {n : Nat} {ks : List Kind} : n < 8 → Shape (n + 1) ks → Shape n ks
  | field {ks : List Kind} : Shape 7 ks → Shape 7 (ks ++ [.doubleColon, .id])
  | not {ks : List Kind} : Shape 6 ks → Shape 6 (.bang :: ks)
  | neg {ks : List Kind} : Shape 6 ks → Shape 6 (.minus :: ks)
  | bin {o : Kind} {op : BinOp} {n l r : Nat} {ks us : List Kind} : Infix o op n l r → Shape l ks → Shape r us →
      Shape n (ks ++ o :: us)
  | trailing {ks : List Kind} : Shape 1 ks → Shape 0 (ks ++ [.semicolon])

/-- Tokens of these kinds form a whole constraint. -/
def Sentence (ks : List Kind) : Prop := ∃ a, Shape 0 a ∧ ks = a ++ [.endOfInput]

/-- Tokens of these kinds are the beginning of a constraint. -/
def Viable (ks : List Kind) : Prop := ∃ rest, Sentence (ks ++ rest)

/-- How messages refer to kinds of tokens. -/
def nameOf (k : Kind) : Str :=
  match keywords.find? fun p => p.1 = k with
  | some p => p.2
  | none =>
    match k with
    | .id => c!"<ID>"
    | .binary => c!"<BINARY>"
    | .octary => c!"<OCTARY>"
    | .decimal => c!"<DECIMAL>"
    | .hexadec => c!"<HEXADEC>"
    | .string => c!"<STRING>"
    | .endOfInput => c!"<END_OF_INPUT>"
    | _ => c!"<UNEXPECTED_CHAR>"

/-- An enumeration of alternatives: `a`; `a, or b`; `a, b, or c`; and so on. -/
inductive Listing : List Kind → Str → Prop where
  | one {k : Kind} : Listing [k] (nameOf k)
  | more {ks : List Kind} {k : Kind} : ks ≠ [] →
      Listing (ks ++ [k]) (List.intercalate c!", " (ks.map nameOf) ++ c!", or " ++ nameOf k)

/-- The tokens that may be named as expected although they cannot follow. -/
def uncertain : List Kind := [.endOfInput, .rpar, .implies, .eq, .ne, .gt, .ge, .lt, .le]

/-- The tokens `ks` may be named as expected after `before`: all of them could follow, except that in a list of several
tokens those of `uncertain` need not; and at least one could. -/
structure Possible (before ks : List Kind) : Prop where
  some : ∃ k ∈ ks, Viable (before ++ [k])
  all : ∀ k ∈ ks, ks.length = 1 ∨ k ∉ uncertain → Viable (before ++ [k])

/-- The kinds of tokens an operand starts with. -/
def operandStarts : List Kind :=
  [.true_, .false_, .binary, .octary, .decimal, .hexadec, .id, .doubleColon, .bang, .minus, .lpar]

/-- The kinds of tokens an operand ends with. -/
def operandEnds : List Kind := [.true_, .false_, .binary, .octary, .decimal, .hexadec, .id, .rpar]

/-- The end of the input, and the kinds of tokens that may follow an operand, except after names. -/
def operandNexts : List Kind :=
  [.endOfInput, .rpar, .doubleColon, .and, .semicolon, .or, .implies, .eq, .ne, .gt, .ge, .lt, .le]

/-- Operators, except for the semicolon. -/
def operators : List Kind := [.and, .or, .implies, .eq, .ne, .gt, .ge, .lt, .le, .bang, .minus]

/-- After `before`, an operand follows. -/
inductive Opening : List Kind → Prop where
  | start : Opening []
  | operator {u : List Kind} {o : Kind} : o ∈ operators → Opening (u ++ [o])
  | semicolon {u : List Kind} : Opening (u ++ [.semicolon])
  | paren {u : List Kind} : (∀ v, u ≠ v ++ [.id]) → Opening (u ++ [.lpar])

/-- `Enumerated before t ks`: if the token `t` cannot follow tokens of the kinds `before`, the kinds of tokens named as
expected are `ks`. Where an operand might follow: what operands start with; after an operand: what may follow operands;
but if the end of the input is met after an operand or semicolon, only a closing parenthesis; and if a closing parenthesis
is met there, only the end of the input. -/
inductive Enumerated (before : List Kind) (t : Kind) : List Kind → Prop where
  | field {u : List Kind} : before = u ++ [.dot] ∨ before = u ++ [.doubleColon] → Enumerated before t [.id]
  | literal {u : List Kind} : before = u ++ [.id, .lpar] → Enumerated before t [.string]
  | close {u : List Kind} : before = u ++ [.string] → Enumerated before t [.rpar]
  | operand : Opening before → (∀ u, before = u ++ [.semicolon] → t ≠ .endOfInput ∧ t ≠ .rpar) →
      Enumerated before t operandStarts
  | next {u : List Kind} {o : Kind} : before = u ++ [o] → o ∈ operandEnds → t ∉ operandNexts →
      Enumerated before t operandNexts
  | unclosed {u : List Kind} {o : Kind} : before = u ++ [o] → o ∈ operandEnds ∨ o = .semicolon → t = .endOfInput →
      Enumerated before t [.rpar]
  | unopened {u : List Kind} {o : Kind} : before = u ++ [o] → o ∈ operandEnds ∨ o = .semicolon → t = .rpar →
      Enumerated before t [.endOfInput]

/-- `Unlisted before t k`: a token of the kind `k` might follow although it is not named as expected when `t` is met: what
continues or follows a name (`.`, or `(` of an address literal); the end of the input or a closing parenthesis after a
semicolon; and anything if the token met is the end of the input or a closing parenthesis. -/
inductive Unlisted (before : List Kind) (t k : Kind) : Prop where
  | name {u : List Kind} : before = u ++ [.id] → k = .dot ∨ k = .lpar → Unlisted before t k
  | semicolon {u : List Kind} : before = u ++ [.semicolon] → k = .endOfInput ∨ k = .rpar → Unlisted before t k
  | bracket {u : List Kind} {o : Kind} : before = u ++ [o] → o ∈ operandEnds ∨ o = .semicolon →
      t = .endOfInput ∨ t = .rpar → Unlisted before t k

/-- `Complaint before t text`: the text says why the token `t` cannot follow tokens of the kinds `before`: it is not a
token at all; or other kinds of tokens are expected (and could indeed follow, see `Possible`); or it is an
operator that does not associate, met after an operand (and putting what is on its left in parentheses would indeed make it possible). -/
inductive Complaint (before : List Kind) (t : Token) : Str → Prop where
  | character : t.kind = .unexpectedChar →
      Complaint before t (c!"unexpected character at or after '" ++ t.text ++ c!"'.")
  | token {ks : List Kind} {list : Str} : t.kind ≠ .unexpectedChar → Listing ks list → Possible before ks →
      Enumerated before t.kind ks → Complaint before t (c!"unexpected token: " ++ nameOf t.kind ++ c!". Expected " ++ list ++ c!".")
  | association {op : BinOp} {n : Nat} {a b u : List Kind} {o : Kind} : before = u ++ [o] → o ∈ operandEnds →
      Infix t.kind op n (n + 1) (n + 1) → before = a ++ b →
      Viable (a ++ [.lpar] ++ b ++ [.rpar] ++ [t.kind]) →
      Complaint before t (c!"operator " ++ nameOf t.kind ++ c!" is non-associative; enclose expression to the left " ++
        c!"of the operator in '(' and ')' to disambiguate?")

/-- `Culprit ts before t after`: in the token sequence `ts`, `t` is the first token that cannot be reached by any
constraint: the tokens before it are the beginning of a constraint; together with `t` they are not. -/
def Culprit (ts before : List Token) (t : Token) (after : List Token) : Prop :=
  ts = before ++ t :: after ∧ Viable (before.map (·.kind)) ∧ ¬ Viable ((before ++ [t]).map (·.kind))

/-- `Literal ts before i s after`: the tokens contain the address literal `i ( s )`, and up to its end they are the
beginning of a constraint. -/
def Literal (ts before : List Token) (i s : Token) (after : List Token) : Prop :=
  ∃ l r, ts = before ++ [i, l, s, r] ++ after ∧ i.kind = .id ∧ l.kind = .lpar ∧ s.kind = .string ∧ r.kind = .rpar ∧
    Viable ((before ++ [i, l, s, r]).map (·.kind))

/-! ### Malformed addresses -/

/-- The text consists of these parts, separated by `sep`. -/
def Parts (sep : Char) (s : Str) (ps : List Str) : Prop := ps ≠ [] ∧ (∀ p ∈ ps, sep ∉ p) ∧ s = join [sep] ps

/-- A digit of base `b`. -/
def DigitOf (b : Nat) (c : Char) : Prop := ∃ d, (c, d) ∈ digits ∧ d < b

/-- What is wrong with a part of an IPv4 address: its length, its first character that is not a digit, or its value.
(The text says that less than three characters are expected, but three are allowed.) -/
inductive OctetFault : Str → Str → Prop where
  | length {s l : Str} : s = [] ∨ 3 < s.length → Canonical l s.length →
      OctetFault s (c!"Invalid base10 string length: '" ++ l ++ c!"', expected 0 < string length < 3.")
  | character {a b : Str} {c : Char} : (a ++ c :: b).length ≤ 3 → (∀ d ∈ a, DigitOf 10 d) → ¬ DigitOf 10 c →
      OctetFault (a ++ c :: b)
        (c!"Invalid character in base-10 string: '" ++ [c] ++ c!"' in string '" ++ (a ++ c :: b) ++ c!"'")
  | value {s v : Str} {n : Nat} : s.length ≤ 3 → NumVal 10 s n → 255 < n → Canonical v n →
      OctetFault s (c!"Invalid base10 string. Buffer size of '" ++ v ++ c!"' exceeded 255")

/-- What is wrong with a part of a MAC address. -/
inductive HexByteFault : Str → Str → Prop where
  | length {s l : Str} : s = [] ∨ 2 < s.length → Canonical l s.length →
      HexByteFault s (c!"Invalid base16 string length: '" ++ l ++ c!"', expected 0 < string length <= 2.")
  | character {a b : Str} {c : Char} : (a ++ c :: b).length ≤ 2 → (∀ d ∈ a, DigitOf 16 d) → ¬ DigitOf 16 c →
      HexByteFault (a ++ c :: b)
        (c!"Invalid character in base16 string: '" ++ [c] ++ c!"' in string '" ++ (a ++ c :: b) ++ c!"'")

/-- `AddressFault pton type s text`: `text` says why `type('s')` is not an address: there are no such addresses, it has a
wrong number of parts, its first bad part is bad, or it is not an IPv6 address. -/
inductive AddressFault (pton : Str → Option Bytes) : Str → Str → Str → Prop where
  | type {i s : Str} : i ≠ c!"ipv4" → i ≠ c!"ipv6" → i ≠ c!"mac" → AddressFault pton i s c!"Invalid network identifier"
  | ipv4Length {s : Str} {ps : List Str} : Parts '.' s ps → ps.length ≠ 4 →
      AddressFault pton c!"ipv4" s
        (c!"Invalid length for an IPv4 address: '" ++ s ++ c!"'. Expected IPv4 address to be 4 bytes.")
  | ipv4Part {s p m : Str} {a b : List Str} : Parts '.' s (a ++ p :: b) → (a ++ p :: b).length = 4 →
      (∀ q ∈ a, ∃ n, Octet q n) → OctetFault p m → AddressFault pton c!"ipv4" s m
  | ipv6 {s : Str} : pton (s.takeWhile (· ≠ '\x00')) = none →
      AddressFault pton c!"ipv6" s (c!"Invalid Ipv6 address: " ++ s)
  | macLength {s : Str} {ps : List Str} : Parts ':' s ps → ps.length ≠ 6 →
      AddressFault pton c!"mac" s
        (c!"Invalid length for MAC address: '" ++ s ++ c!"'. Expected MAC address to be 6 bytes.")
  | macPart {s p m : Str} {a b : List Str} : Parts ':' s (a ++ p :: b) → (a ++ p :: b).length = 6 →
      (∀ q ∈ a, ∃ n, HexByte q n) → HexByteFault p m → AddressFault pton c!"mac" s m

/-- The address literals among the first tokens are well formed: those that start before the `n`-th token. -/
def AddressesOk (pton : Str → Option Bytes) (ts : List Token) (n : Nat) : Prop :=
  ∀ before i s after, Literal ts before i s after → before.length < n → ∃ v, Address pton i.text s.text v

end P4C.Spec
