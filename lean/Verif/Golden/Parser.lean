import Verif.Model.Parser
import Verif.Model.Inet

/-
The tests of `frontend/parser_test.cc`, run on the model.
-/

namespace P4C.Golden.Parser

/-- A token without locations. -/
def tok (k : Kind) (s : Str) : Token := ⟨k, s, {}, {}⟩

/-- A token without text and locations. -/
def dummy (k : Kind) : Token := tok k []

/-- `ParseConstraint` on tokens, with the source of the tests. -/
def parsed (k : ConstraintKind) (ts : List Token) : Res Expr := parseTokens glibc k ts ⟨c!" ", {}⟩

/-- Is the status OK? -/
def isOk {α : Type} : Res α → Bool
  | .ok _ => true
  | _ => false

-- Positive (parser_test.cc:105-265)
/-- The tokens and the expressions expected for them. -/
def positive : List (List Token × Expr) :=
  [([dummy .true_],
    .boolConst {} true),
   ([dummy .false_],
    .boolConst {} false),
   ([dummy .id, dummy .eq, tok .binary c!"11"],
    .bin {} .eq (.key {} []) (.intConst {} c!"3")),
   ([dummy .id, dummy .ne, tok .octary c!"11"],
    .bin {} .ne (.key {} []) (.intConst {} c!"9")),
   ([dummy .id, dummy .gt, tok .decimal c!"11"],
    .bin {} .gt (.key {} []) (.intConst {} c!"11")),
   ([dummy .id, dummy .ge, tok .hexadec c!"11"],
    .bin {} .ge (.key {} []) (.intConst {} c!"17")),
   ([dummy .id, dummy .lt, tok .hexadec c!"1f"],
    .bin {} .lt (.key {} []) (.intConst {} c!"31")),
   ([dummy .id, dummy .le, tok .hexadec c!"af"],
    .bin {} .le (.key {} []) (.intConst {} c!"175")),
   ([dummy .bang, dummy .true_],
    .boolNeg {} (.boolConst {} true)),
   ([dummy .bang, dummy .false_],
    .boolNeg {} (.boolConst {} false)),
   ([dummy .bang, dummy .lpar, dummy .id, dummy .eq, tok .decimal c!"000123", dummy .rpar],
    .boolNeg {} (.bin {} .eq (.key {} []) (.intConst {} c!"123"))),
   ([dummy .bang, dummy .bang, dummy .true_],
    .boolNeg {} (.boolNeg {} (.boolConst {} true))),
   ([dummy .true_, dummy .and, dummy .true_],
    .bin {} .and (.boolConst {} true) (.boolConst {} true)),
   ([dummy .true_, dummy .or, dummy .true_],
    .bin {} .or (.boolConst {} true) (.boolConst {} true)),
   ([dummy .true_, dummy .implies, dummy .true_],
    .bin {} .implies (.boolConst {} true) (.boolConst {} true)),
   ([dummy .true_, dummy .and, dummy .true_, dummy .and, dummy .true_],
    .bin {} .and (.bin {} .and (.boolConst {} true) (.boolConst {} true)) (.boolConst {} true)),
   ([dummy .true_, dummy .and, dummy .lpar, dummy .true_, dummy .and, dummy .true_, dummy .rpar],
    .bin {} .and (.boolConst {} true) (.bin {} .and (.boolConst {} true) (.boolConst {} true))),
   ([dummy .true_, dummy .or, dummy .true_, dummy .or, dummy .true_],
    .bin {} .or (.bin {} .or (.boolConst {} true) (.boolConst {} true)) (.boolConst {} true)),
   ([dummy .true_, dummy .or, dummy .lpar, dummy .true_, dummy .or, dummy .true_, dummy .rpar],
    .bin {} .or (.boolConst {} true) (.bin {} .or (.boolConst {} true) (.boolConst {} true))),
   ([dummy .bang, dummy .true_, dummy .and, dummy .true_, dummy .or, dummy .true_, dummy .implies, dummy .true_],
    .bin {} .implies (.bin {} .or (.bin {} .and (.boolNeg {} (.boolConst {} true)) (.boolConst {} true)) (.boolConst {} true)) (.boolConst {} true)),
   ([dummy .bang, dummy .true_, dummy .implies, dummy .true_, dummy .or, dummy .true_, dummy .and, dummy .true_],
    .bin {} .implies (.boolNeg {} (.boolConst {} true)) (.bin {} .or (.boolConst {} true) (.bin {} .and (.boolConst {} true) (.boolConst {} true)))),
   ([dummy .lpar, dummy .true_, dummy .rpar],
    .boolConst {} true),
   ([dummy .lpar, dummy .lpar, dummy .true_, dummy .rpar, dummy .rpar],
    .boolConst {} true),
   ([dummy .lpar, dummy .lpar, dummy .lpar, dummy .true_, dummy .rpar, dummy .rpar, dummy .rpar],
    .boolConst {} true),
   ([dummy .doubleColon, dummy .id],
    .attr {} [])]

example : ∀ t ∈ positive, parsed .table t.1 = .ok t.2 := by decide +kernel

-- Negative (parser_test.cc:267-310)
/-- The tokens that do not parse. -/
def negative : List (List Token) :=
  [[dummy .true_, dummy .false_],
   [dummy .bang],
   [dummy .true_, dummy .bang],
   [dummy .true_, dummy .bang, dummy .true_],
   [dummy .true_, dummy .and],
   [dummy .and, dummy .true_, dummy .true_],
   [dummy .lpar, dummy .true_],
   [dummy .lpar, dummy .true_, dummy .rpar, dummy .rpar],
   [dummy .lpar, dummy .lpar, dummy .true_, dummy .rpar],
   [dummy .rpar, dummy .true_],
   [dummy .rpar, dummy .true_, dummy .rpar],
   [dummy .rpar, dummy .true_, dummy .lpar],
   [dummy .true_, dummy .implies, dummy .true_, dummy .implies, dummy .true_],
   [dummy .true_, dummy .eq, dummy .true_, dummy .ne, dummy .true_],
   [dummy .true_, dummy .ne, dummy .true_, dummy .gt, dummy .true_],
   [dummy .true_, dummy .gt, dummy .true_, dummy .ge, dummy .true_],
   [dummy .true_, dummy .ge, dummy .true_, dummy .lt, dummy .true_],
   [dummy .true_, dummy .lt, dummy .true_, dummy .le, dummy .true_]]

example : ∀ t ∈ negative, isOk (parsed .table t) = false ∧ parsed .table t ≠ .crash ∧ parsed .table t ≠ .oof := by
  decide +kernel

-- IdGetsParsedAsActionParameterInActionConstraintParsingMode, IdGetsParsedAsKeyInTableConstraintParsingMode
example : parsed .action [dummy .id, dummy .eq, tok .binary c!"1"]
    = .ok (.bin {} .eq (.actionParam {} []) (.intConst {} c!"1")) := by decide +kernel
example : parsed .table [dummy .id, dummy .eq, tok .binary c!"1"]
    = .ok (.bin {} .eq (.key {} []) (.intConst {} c!"1")) := by decide +kernel

/-- The tokens of an address. -/
def address (kind text : Str) : List Token := [tok .id kind, dummy .lpar, tok .string text, dummy .rpar]

-- ParseIpv4Address, ParseIpv4AddressExpression, FailsToParseInvalidIpv4Address
example : parsed .table (address c!"ipv4" c!"0.0.0.13") = .ok (.intConst {} c!"13") := by decide +kernel
example : parsed .table ([dummy .id, dummy .le] ++ address c!"ipv4" c!"0.0.0.255")
    = .ok (.bin {} .le (.key {} []) (.intConst {} c!"255")) := by decide +kernel
example : parsed .table (address c!"ipv4" c!"239.255.255") = .err .invalidArgument := by decide +kernel
example : parsed .table (address c!"ipv4" c!"239.abc.255.1") = .err .invalidArgument := by decide +kernel

-- ParseMacAddress, FailsToParseInvalidMacAddress
example : parsed .table (address c!"mac" c!"00:00:00:00:00:0F") = .ok (.intConst {} c!"15") := by decide +kernel
example : parsed .table (address c!"ipv4" c!"DE:EF:CA:FE") = .err .invalidArgument := by decide +kernel
example : parsed .table (address c!"ipv4" c!"DE:GH:RS:EF:CA:FE") = .err .invalidArgument := by decide +kernel

-- ParseIpv6Address, FailsToParseInvalidIpv6Address
example : parsed .table (address c!"ipv6" c!"::") = .ok (.intConst {} c!"0") := by decide +kernel
example : parsed .table (address c!"ipv6" c!"0000:0000:0000:0000:0000:0000:0000:0009")
    = .ok (.intConst {} c!"9") := by decide +kernel
example : parsed .table (address c!"ipv6" c!"::0000:0005") = .ok (.intConst {} c!"5") := by decide +kernel
example : parsed .table (address c!"ipv6" c!"0000:0000::0000:4") = .ok (.intConst {} c!"4") := by decide +kernel
example : parsed .table (address c!"ipv6" c!"0000:0000::") = .ok (.intConst {} c!"0") := by decide +kernel
example : parsed .table (address c!"ipv6" c!"2001:db8::lmno:5678") = .err .invalidArgument := by decide +kernel
example : parsed .table (address c!"ipv6" c!"2001:db8:3333:4444:5555:6666:7777:8888:5000:5000:5000")
    = .err .invalidArgument := by decide +kernel
example : parsed .table (address c!"ipv6" c!":::") = .err .invalidArgument := by decide +kernel

end P4C.Golden.Parser
