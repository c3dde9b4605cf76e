import Verif.Spec.Entry
import Verif.Model.Token

/-
Values of numerals and network addresses (docs/language-specification.md).
-/

namespace P4C.Spec

/-- The digits of bases up to 16, with their values. -/
def digits : List (Char × Nat) :=
  [('0', 0), ('1', 1), ('2', 2), ('3', 3), ('4', 4), ('5', 5), ('6', 6), ('7', 7), ('8', 8), ('9', 9),
   ('a', 10), ('b', 11), ('c', 12), ('d', 13), ('e', 14), ('f', 15),
   ('A', 10), ('B', 11), ('C', 12), ('D', 13), ('E', 14), ('F', 15)]

/-- `NumVal b s n`: the digit string `s` denotes `n` in base `b`. -/
inductive NumVal (b : Nat) : Str → Nat → Prop where
  | one {c : Char} {d : Nat} : (c, d) ∈ digits → d < b → NumVal b [c] d
  | snoc {s : Str} {n : Nat} {c : Char} {d : Nat} : NumVal b s n → (c, d) ∈ digits → d < b →
      NumVal b (s ++ [c]) (n * b + d)

/-- The base of a numeral token. -/
def baseOf : Kind → Option Nat
  | .binary => some 2
  | .octary => some 8
  | .decimal => some 10
  | .hexadec => some 16
  | _ => none

/-- The canonical decimal numeral: no leading zeros. -/
def Canonical (s : Str) (n : Nat) : Prop := NumVal 10 s n ∧ (s = c!"0" ∨ ¬ c!"0" <+: s)

/-- Decimal numerals of integers, without leading zeros. -/
inductive IntNumeral : Int → Str → Prop where
  | nonneg {n : Nat} {s : Str} : Canonical s n → IntNumeral n s
  | neg {n : Nat} {s : Str} : 0 < n → Canonical s n → IntNumeral (-n) ('-' :: s)

/-- One byte of an IPv4 address: one to three decimal digits, at most 255. -/
def Octet (s : Str) (n : Nat) : Prop := NumVal 10 s n ∧ s.length ≤ 3 ∧ n ≤ 255

/-- One byte of a MAC address: one or two hexadecimal digits. -/
def HexByte (s : Str) (n : Nat) : Prop := NumVal 16 s n ∧ s.length ≤ 2

/-- Values of address literals: `Address pton type text n`. IPv6 addresses are those recognised by the
operating system's `inet_pton`, which is given the text up to its first NUL character. -/
inductive Address (pton : Str → Option Bytes) : Str → Str → Nat → Prop where
  | ipv4 {a b c d : Str} {m n p q : Nat} : Octet a m → Octet b n → Octet c p → Octet d q →
      Address pton c!"ipv4" (a ++ c!"." ++ b ++ c!"." ++ c ++ c!"." ++ d) (m * 2 ^ 24 + n * 2 ^ 16 + p * 2 ^ 8 + q)
  | mac {a b c d e f : Str} {m n p q r s : Nat} : HexByte a m → HexByte b n → HexByte c p → HexByte d q →
      HexByte e r → HexByte f s →
      Address pton c!"mac" (a ++ c!":" ++ b ++ c!":" ++ c ++ c!":" ++ d ++ c!":" ++ e ++ c!":" ++ f)
        (m * 2 ^ 40 + n * 2 ^ 32 + p * 2 ^ 24 + q * 2 ^ 16 + r * 2 ^ 8 + s)
  | ipv6 {s : Str} {bytes : Bytes} : pton (s.takeWhile (· ≠ '\x00')) = some bytes →
      Address pton c!"ipv6" s (bytesNat bytes % 2 ^ 128)

end P4C.Spec
