import Verif.Spec.Entry

/-
The packets matched by the value of a key (P4Runtime specification, section 9.1.1; P4 specification on `&&&`, `..`
and prefixes), and the well-formedness conditions assumed of entries (docs/language-specification.md, "Accessing
the fields of a key").
-/

namespace P4C.Spec

/-- Keys of width `W` and values they can be compared with. -/
inductive OfWidth (W : Nat) : Ty → Prop where
  | bit : OfWidth W (.fixedUnsigned W)
  | exact : OfWidth W (.exact W)
  | ternary : OfWidth W (.ternary W)
  | optional : OfWidth W (.optionalMatch W)
  | lpm : OfWidth W (.lpm W)
  | range : OfWidth W (.range W)

/-- `Matched W t v x`: the `W`-bit number `x` of a packet is matched by the value `v` of type `t`. A number matches
itself, an `int` its residue. -/
def Matched (W : Nat) : Ty → Value → Nat → Prop
  | .arbitraryInt, .int z, x => (x : Int) = z % 2 ^ W
  | .fixedUnsigned _, .int b, x => (x : Int) = b
  | .exact _, .exact v, x => (x : Int) = v
  | .ternary _, .ternary v m, x | .optionalMatch _, .ternary v m, x => x &&& m.toNat = v.toNat &&& m.toNat
  | .lpm _, .lpm v p, x => x / 2 ^ (W - p.toNat) = v.toNat / 2 ^ (W - p.toNat)
  | .range _, .range l h, x => l ≤ x ∧ x ≤ h
  | _, _, _ => False

/-- The value fits the width `W`, has no bits outside of its mask or prefix, and matches something. An optional
match is exact or a wildcard. For ranges, docs/language-specification.md demands more: `low < high` or both zero. -/
def WellFormed (W : Nat) : Ty → Value → Prop
  | .arbitraryInt, .int _ => True
  | .fixedUnsigned _, .int b => 0 ≤ b ∧ b < 2 ^ W
  | .exact _, .exact v => 0 ≤ v ∧ v < 2 ^ W
  | .ternary _, .ternary v m => 0 ≤ v ∧ 0 ≤ m ∧ m < 2 ^ W ∧ v.toNat &&& m.toNat = v.toNat
  | .optionalMatch _, .ternary v m => 0 ≤ v ∧ v < 2 ^ W ∧ (m = 2 ^ W - 1 ∨ v = 0 ∧ m = 0)
  | .lpm _, .lpm v p => 0 ≤ v ∧ v < 2 ^ W ∧ 0 ≤ p ∧ p ≤ W ∧ 2 ^ (W - p.toNat) ∣ v.toNat
  | .range _, .range l h => 0 ≤ l ∧ l ≤ h ∧ h < 2 ^ W
  | _, _ => False

/-- The two match the same packets. -/
def SameMatches (W : Nat) (a : Ty) (v : Value) (b : Ty) (w : Value) : Prop :=
  ∀ x < 2 ^ W, Matched W a v x ↔ Matched W b w x

/-- Every key has a well-formed value in the entry. -/
def WellFormedEntry (ti : TableInfo) (entry : RtEntry) : Prop :=
  ∀ n ki v, (n, ki) ∈ ti.keysByName → KeyValue entry ki v → ∃ W, OfWidth W ki.ty ∧ WellFormed W ki.ty v

end P4C.Spec
