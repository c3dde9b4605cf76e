import Verif.Spec.Verdict

/-
The meaning of constraints with ordered comparisons of bit strings as two's complement numbers.
-/

namespace P4C.Spec

/-- The number that a bit string denotes in two's complement; integers denote themselves. -/
def twos (t : Ty) (z : Int) : Int :=
  match t with
  | .fixedUnsigned w | .exact w => if 2 * z < 2 ^ w.toNat then z else z - 2 ^ w.toNat
  | _ => z

/-- Comparison of two values of type `t`, as two's complement numbers. -/
def compareSigned (t : Ty) (o : Cmp) (a b : Value) : Option Bool :=
  match o with
  | .eq => some (decide (a = b))
  | .ne => some (decide (a ≠ b))
  | .lt => (orderKey a).bind fun x => (orderKey b).map fun y => decide (twos t x < twos t y)
  | .le => (orderKey a).bind fun x => (orderKey b).map fun y => decide (twos t x ≤ twos t y)
  | .gt => (orderKey a).bind fun x => (orderKey b).map fun y => decide (twos t y < twos t x)
  | .ge => (orderKey a).bind fun x => (orderKey b).map fun y => decide (twos t y ≤ twos t x)

/-- Like `Means`, but with ordered comparisons of bit strings as two's complement numbers. -/
inductive SignedMeans (Γ : Sig) (ρ : Env) : SExpr → Ty → Value → Prop where
  | bool (b : Bool) : SignedMeans Γ ρ (.bool b) .boolean (.bool b)
  | int (z : Int) : SignedMeans Γ ρ (.int z) .arbitraryInt (.int z)
  | key {n : Str} {t : Ty} {v : Value} : Γ.key n = some t → ρ.key n = some v → SignedMeans Γ ρ (.key n) t v
  | param {n : Str} {t : Ty} {z : Int} : Γ.param n = some t → ρ.param n = some z →
      SignedMeans Γ ρ (.param n) t (.int z)
  | priority {p : Int} : ρ.priority = some p → SignedMeans Γ ρ (.attr c!"priority") .arbitraryInt (.int p)
  | not {e : SExpr} {b : Bool} : SignedMeans Γ ρ e .boolean (.bool b) → SignedMeans Γ ρ (.not e) .boolean (.bool (!b))
  | neg {e : SExpr} {z : Int} : SignedMeans Γ ρ e .arbitraryInt (.int z) →
      SignedMeans Γ ρ (.neg e) .arbitraryInt (.int (-z))
  | conn {o : Conn} {l r : SExpr} {a b : Bool} : SignedMeans Γ ρ l .boolean (.bool a) →
      SignedMeans Γ ρ r .boolean (.bool b) → SignedMeans Γ ρ (.conn o l r) .boolean (.bool (o.apply a b))
  | cmp {o : Cmp} {l r : SExpr} {a b t : Ty} {v w : Value} {c : Bool} : SignedMeans Γ ρ l a v →
      SignedMeans Γ ρ r b w → IsJoin a b t → compareSigned t o (convert a t v) (convert b t w) = some c →
      SignedMeans Γ ρ (.cmp o l r) .boolean (.bool c)
  | field {e : SExpr} {f : Str} {a t : Ty} {v : Value} {z : Int} : SignedMeans Γ ρ e a v → FieldTy a f t →
      FieldVal v f z → SignedMeans Γ ρ (.field e f) t (.int z)

/-- The constraint, with signed comparisons, holds of the entry. -/
def SignedHolds (Γ : Sig) (ρ : Env) (e : SExpr) : Prop := SignedMeans Γ ρ e .boolean (.bool true)

end P4C.Spec
