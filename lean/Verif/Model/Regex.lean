import Verif.Model.Basic

/-
A model of the part of RE2 that the library uses: anchored, leftmost-first ("Perl-like") matching of
patterns built from character classes, sequences, ordered alternatives and greedy repetition of single
classes. Input is a byte string; RE2 compiles patterns to UTF-8 byte automata, so a negated class matches
one ASCII byte not in the class or one multi-byte sequence.
-/

namespace P4C

/-- A character class `[...]` (`neg = false`) or `[^...]` (`neg = true`) over ASCII characters. -/
structure Cls where
  neg : Bool
  mem : Char → Bool

/-- Is this a UTF-8 continuation byte? -/
def isCont (c : Char) : Bool := 0x80 ≤ c.toNat && c.toNat ≤ 0xBF

/-- Length of the multi-byte sequence at the start of the input as accepted by RE2 for the code points
0x80-0x10FFFF (RE2 `Compiler::Add_80_10ffff`). -/
def multiByteLen : Str → Option Nat
  | [] => none
  | c :: cs =>
    if 0xC2 ≤ c.toNat && c.toNat ≤ 0xDF then
      (match cs with | c1 :: _ => if isCont c1 then some 2 else none | _ => none)
    else if 0xE0 ≤ c.toNat && c.toNat ≤ 0xEF then
      (match cs with | c1 :: c2 :: _ => if isCont c1 && isCont c2 then some 3 else none | _ => none)
    else if 0xF0 ≤ c.toNat && c.toNat ≤ 0xF4 then
      (match cs with
       | c1 :: c2 :: c3 :: _ => if isCont c1 && isCont c2 && isCont c3 then some 4 else none
       | _ => none)
    else none

/-- Number of bytes of the first rune of the input if it is in the class. -/
def Cls.len (k : Cls) : Str → Option Nat
  | [] => none
  | c :: cs =>
    if c.toNat < 0x80 then (if k.mem c != k.neg then some 1 else none)
    else if k.neg then multiByteLen (c :: cs) else none

/-- Names of capture groups. -/
inductive Grp where
  | whitespace | newline | comment | beginMultilineComment | keyword | id
  | binary | octary | hexadec | decimal | string | stringBody
  | endOfComment | fragment | file | line
deriving DecidableEq, Repr

/-- Regular expressions. -/
inductive Re where
  | eps
  | cls (k : Cls)
  | star (k : Cls)
  | seq (r s : Re)
  | alt (r s : Re)
  | opt (r : Re)
  | grp (g : Grp) (r : Re)

/-- A match: the number of bytes consumed and the captured groups. -/
abbrev Match := Nat × List (Grp × Str)

/-- All lengths matched by the greedy repetition of a class, longest first. -/
def starLens (k : Cls) : Nat → Str → List Nat
  | 0, _ => [0]
  | fuel + 1, s =>
    match k.len s with
    | some n => (starLens k fuel (s.drop n)).map (n + ·) ++ [0]
    | none => [0]

/-- All anchored matches, in order of preference. -/
def Re.matches : Re → Str → List Match
  | .eps, _ => [(0, [])]
  | .cls k, s => match k.len s with | some n => [(n, [])] | none => []
  | .star k, s => (starLens k s.length s).map fun n => (n, [])
  | .seq r t, s =>
    (r.matches s).flatMap fun m => (t.matches (s.drop m.1)).map fun m' => (m.1 + m'.1, m.2 ++ m'.2)
  | .alt r t, s => r.matches s ++ t.matches s
  | .opt r, s => r.matches s ++ [(0, [])]
  | .grp g r, s => (r.matches s).map fun m => (m.1, (g, s.take m.1) :: m.2)

/-- The match reported by RE2: the most preferred one. -/
def Re.first (r : Re) (s : Str) : Option Match := (r.matches s).head?

/-- The text captured by a group; the empty string if it did not participate. -/
def capture (g : Grp) (m : Match) : Str := (lookup g m.2).getD []

namespace Re

/-- The class containing exactly the given characters. -/
def oneOf (cs : Str) : Cls := ⟨false, fun c => cs.contains c⟩
/-- The class of all characters except the given ones. -/
def noneOf (cs : Str) : Cls := ⟨true, fun c => cs.contains c⟩
/-- A literal string. -/
def lit : Str → Re
  | [] => eps
  | [c] => cls (oneOf [c])
  | c :: cs => seq (cls (oneOf [c])) (lit cs)
/-- `k+`. -/
def plus (k : Cls) : Re := seq (cls k) (star k)
/-- Ordered alternatives. -/
def alts : List Re → Re
  | [] => seq eps (cls ⟨false, fun _ => false⟩)
  | [r] => r
  | r :: rs => alt r (alts rs)

end Re

/-- Is the character between `lo` and `hi`? -/
def inRange (lo hi : Char) (c : Char) : Bool := lo.toNat ≤ c.toNat && c.toNat ≤ hi.toNat

/-- `[_a-zA-Z]` -/
def isIdStart (c : Char) : Bool := c = '_' || inRange 'a' 'z' c || inRange 'A' 'Z' c
/-- `[_a-zA-Z0-9]` -/
def isIdChar (c : Char) : Bool := isIdStart c || inRange '0' '9' c
/-- `[0-9]` -/
def isDec (c : Char) : Bool := inRange '0' '9' c
/-- `[0-1]` -/
def isBin (c : Char) : Bool := inRange '0' '1' c
/-- `[0-7]` -/
def isOct (c : Char) : Bool := inRange '0' '7' c
/-- `[0-9a-fA-F]` -/
def isHex (c : Char) : Bool := inRange '0' '9' c || inRange 'a' 'f' c || inRange 'A' 'F' c

end P4C
