import Verif.Spec.Layout

/-
The range of source locations.
-/

namespace P4C.Spec

/-- The location is not before the location `l` of a text of `n` characters, and lines and columns together are not more than
the text has characters. -/
def WithinText (l : Loc) (n : Nat) (x : Loc) : Prop :=
  l.line ≤ x.line ∧ 0 ≤ x.col ∧ x.line + x.col ≤ l.line + l.col + n

/-- The number is an `int32_t`. -/
def Fits32 (z : Int) : Prop := -2 ^ 31 ≤ z ∧ z < 2 ^ 31

instance (z : Int) : Decidable (Fits32 z) := inferInstanceAs (Decidable (_ ∧ _))

/-- Lines and columns are `int32_t`, counted from zero (in protos) or from one (in messages). -/
def LocFits (x : Loc) : Prop := Fits32 x.line ∧ Fits32 (x.line + 1) ∧ Fits32 x.col ∧ Fits32 (x.col + 1)

end P4C.Spec
