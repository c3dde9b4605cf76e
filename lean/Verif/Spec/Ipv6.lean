import Verif.Spec.Numeral

/-
The texts of IPv6 addresses (RFC 4291, section 2.2; docs/language-specification.md refers to "IPv6 addresses").
-/

namespace P4C.Spec

/-- A group of 16 bits: one to four hexadecimal digits. -/
def Hextet (s : Str) (n : Nat) : Prop := NumVal 16 s n ∧ s.length ≤ 4

/-- A byte in dotted notation: a decimal numeral without leading zeros, at most 255. -/
def DottedByte (s : Str) (n : Nat) : Prop := Canonical s n ∧ n ≤ 255

/-- One or more groups, separated by colons. -/
inductive Hextets : Str → List Nat → Prop where
  | one {s : Str} {n : Nat} : Hextet s n → Hextets s [n]
  | cons {s t : Str} {n : Nat} {ns : List Nat} : Hextet s n → Hextets t ns → Hextets (s ++ c!":" ++ t) (n :: ns)

/-- One or more groups, separated by colons; the last two may be written as four bytes in dotted notation. -/
inductive Groups : Str → List Nat → Prop where
  | one {s : Str} {n : Nat} : Hextet s n → Groups s [n]
  | dotted {a b c d : Str} {m n p q : Nat} : DottedByte a m → DottedByte b n → DottedByte c p → DottedByte d q →
      Groups (a ++ c!"." ++ b ++ c!"." ++ c ++ c!"." ++ d) [m * 256 + n, p * 256 + q]
  | cons {s t : Str} {n : Nat} {ns : List Nat} : Hextet s n → Groups t ns → Groups (s ++ c!":" ++ t) (n :: ns)

/-- `Ipv6Text s ns`: the text `s` denotes the address whose eight groups are `ns`. `::` stands for one or more groups that are
zero, and may occur once. -/
inductive Ipv6Text : Str → List Nat → Prop where
  | full {s : Str} {ns : List Nat} : Groups s ns → ns.length = 8 → Ipv6Text s ns
  | short {a b : Str} {ms ns : List Nat} {k : Nat} : (a = [] ∧ ms = []) ∨ Hextets a ms → (b = [] ∧ ns = []) ∨ Groups b ns →
      0 < k → ms.length + k + ns.length = 8 → Ipv6Text (a ++ c!"::" ++ b) (ms ++ List.replicate k 0 ++ ns)

/-- The number that the groups of an address stand for. -/
def groupsNat (ns : List Nat) : Nat := ns.foldl (fun v n => v * 2 ^ 16 + n) 0

end P4C.Spec
