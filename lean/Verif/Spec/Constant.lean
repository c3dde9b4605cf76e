import Verif.Spec.Solve

/-
Comparisons of keys with constants.
-/

namespace P4C.Spec

/-- The match is for the declared key, and only the number `n` matches. -/
inductive MatchesOnly : MatchField → MatchVal → Int → Prop where
  | exact {id : Nat} {name : Str} {w : Int} {v : Bytes} {n : Int} : (bytesNat v : Int) = n →
      MatchesOnly ⟨id, name, w, .matchType .exact⟩ (.exact v) n
  | ternary {id : Nat} {name : Str} {w : Int} {v m : Bytes} {n : Int} : (bytesNat v : Int) = n →
      (bytesNat m : Int) = 2 ^ w.toNat - 1 → MatchesOnly ⟨id, name, w, .matchType .ternary⟩ (.ternary v m) n
  | lpm {id : Nat} {name : Str} {w : Int} {v : Bytes} {n : Int} : (bytesNat v : Int) = n →
      MatchesOnly ⟨id, name, w, .matchType .lpm⟩ (.lpm v w) n
  | range {id : Nat} {name : Str} {w : Int} {l h : Bytes} {n : Int} : (bytesNat l : Int) = n → (bytesNat h : Int) = n →
      MatchesOnly ⟨id, name, w, .matchType .range⟩ (.range l h) n
  | optional {id : Nat} {name : Str} {w : Int} {v : Bytes} {n : Int} : (bytesNat v : Int) = n →
      MatchesOnly ⟨id, name, w, .matchType .optional⟩ (.optional v) n

/-- Integer constants, which can be negated. -/
inductive IsInteger : SExpr → Int → Prop where
  | int (c : Int) : IsInteger (.int c) c
  | neg {e : SExpr} {c : Int} : IsInteger e c → IsInteger (.neg e) (-c)

/-- `Contains e x`: the expression `x` is a part of `e`. -/
inductive Contains : SExpr → SExpr → Prop where
  | here {x : SExpr} : Contains x x
  | not {e x : SExpr} : Contains e x → Contains (.not e) x
  | neg {e x : SExpr} : Contains e x → Contains (.neg e) x
  | connL {o : Conn} {e f x : SExpr} : Contains e x → Contains (.conn o e f) x
  | connR {o : Conn} {e f x : SExpr} : Contains f x → Contains (.conn o e f) x
  | cmpL {o : Cmp} {e f x : SExpr} : Contains e x → Contains (.cmp o e f) x
  | cmpR {o : Cmp} {e f x : SExpr} : Contains f x → Contains (.cmp o e f) x
  | field {e x : SExpr} {f : Str} : Contains e x → Contains (.field e f) x

/-- Keys, parameters, their fields, attributes and numbers. -/
inductive Numeric : SExpr → Prop where
  | int (z : Int) : Numeric (.int z)
  | key (n : Str) : Numeric (.key n)
  | param (n : Str) : Numeric (.param n)
  | attr (n : Str) : Numeric (.attr n)
  | field (e : SExpr) (f : Str) : Numeric (.field e f)
  | neg (e : SExpr) : Numeric (.neg e)

/-- A number is compared with `true` or `false`. -/
inductive WithBool : SExpr → Prop where
  | left (o : Cmp) (b : Bool) {x : SExpr} : Numeric x → WithBool (.cmp o (.bool b) x)
  | right (o : Cmp) (b : Bool) {x : SExpr} : Numeric x → WithBool (.cmp o x (.bool b))

/-- The constraint attached is a text that says `s`, whatever its type. -/
def Spelled (pton : Str → Option Bytes) (k : ConstraintKind) (p : Preamble) (s : SExpr) : Prop :=
  ∃ src ts e, Attached k p (some src) ∧ Lexed src.loc src.str ts ∧ Constraint pton k ts e ∧ abs e = some s

/-! ### Fields of keys -/

/-- The fields of keys of each kind. -/
inductive HasField : MatchCase → Str → Prop where
  | exactValue : HasField (.matchType .exact) c!"value"
  | ternaryValue : HasField (.matchType .ternary) c!"value"
  | ternaryMask : HasField (.matchType .ternary) c!"mask"
  | optionalValue : HasField (.matchType .optional) c!"value"
  | optionalMask : HasField (.matchType .optional) c!"mask"
  | lpmValue : HasField (.matchType .lpm) c!"value"
  | lpmPrefix : HasField (.matchType .lpm) c!"prefix_length"
  | rangeLow : HasField (.matchType .range) c!"low"
  | rangeHigh : HasField (.matchType .range) c!"high"

/-- The number in a field of a match. -/
inductive InMatch (w : Int) : MatchVal → Str → Int → Prop where
  | exactValue (v : Bytes) : InMatch w (.exact v) c!"value" (bytesNat v)
  | ternaryValue (v m : Bytes) : InMatch w (.ternary v m) c!"value" (bytesNat v)
  | ternaryMask (v m : Bytes) : InMatch w (.ternary v m) c!"mask" (bytesNat m)
  | optionalValue (v : Bytes) : InMatch w (.optional v) c!"value" (bytesNat v)
  | optionalMask (v : Bytes) : InMatch w (.optional v) c!"mask" (2 ^ w.toNat - 1)
  | lpmValue (v : Bytes) (n : Int) : InMatch w (.lpm v n) c!"value" (bytesNat v)
  | lpmPrefix (v : Bytes) (n : Int) : InMatch w (.lpm v n) c!"prefix_length" n
  | rangeLow (l h : Bytes) : InMatch w (.range l h) c!"low" (bytesNat l)
  | rangeHigh (l h : Bytes) : InMatch w (.range l h) c!"high" (bytesNat h)

/-- The number in a field of a key that is omitted: everything matches. -/
inductive InOmitted (w : Int) : MatchCase → Str → Int → Prop where
  | ternaryValue : InOmitted w (.matchType .ternary) c!"value" 0
  | ternaryMask : InOmitted w (.matchType .ternary) c!"mask" 0
  | optionalValue : InOmitted w (.matchType .optional) c!"value" 0
  | optionalMask : InOmitted w (.matchType .optional) c!"mask" 0
  | lpmValue : InOmitted w (.matchType .lpm) c!"value" 0
  | lpmPrefix : InOmitted w (.matchType .lpm) c!"prefix_length" 0
  | rangeLow : InOmitted w (.matchType .range) c!"low" 0
  | rangeHigh : InOmitted w (.matchType .range) c!"high" (2 ^ w.toNat - 1)

/-- The number in the field `g` of the key `f` in the entry. -/
def FieldNumber (f : MatchField) (g : Str) (entry : RtEntry) (z : Int) : Prop :=
  (∃ m ∈ entry.matches_, m.fieldId = f.id ∧ InMatch f.bitwidth m.val g z) ∨
  ((∀ m ∈ entry.matches_, m.fieldId ≠ f.id) ∧ InOmitted f.bitwidth f.kind g z)

/-- The constant with which the field `g` is compared, if `c` is written: modulo 2^W, except for prefix lengths. -/
def written (f : MatchField) (g : Str) (c : Int) : Int := if g = c!"prefix_length" then c else c % 2 ^ f.bitwidth.toNat

/-- Comparisons of integers. -/
def Cmp.ofInts : Cmp → Int → Int → Prop
  | .eq, a, b => a = b
  | .ne, a, b => a ≠ b
  | .lt, a, b => a < b
  | .le, a, b => a ≤ b
  | .gt, a, b => a > b
  | .ge, a, b => a ≥ b

end P4C.Spec
