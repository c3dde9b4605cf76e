import Verif.Proofs.Eval
import Verif.Proofs.Elab

/-!
Equality across types: if the conversions of a first and a second value agree, and those of the second and a third,
so do those of the first and the third, unless the first and the third are integers and the second is not.
-/

namespace P4C
open Spec

/-- Values of pairwise comparable types. -/
theorem join_trans {a b c t1 t2 t : Ty} {v u w : Value} (hl : HasShape a v) (hm : HasShape b u) (hr : HasShape c w)
    (j1 : leastUpperBound a b = some t1) (j2 : leastUpperBound b c = some t2) (j : leastUpperBound a c = some t)
    (h1 : convert a t1 v = convert b t1 u) (h2 : convert b t2 u = convert c t2 w)
    (hx : ¬ (a = .arbitraryInt ∧ c = .arbitraryInt ∧ b ≠ .arbitraryInt)) : convert a t v = convert c t w := by
  cases hl <;> cases hm <;> simp [leastUpperBound, strictlyAbove, typeBitwidth] at j1 <;>
    cases hr <;> simp [leastUpperBound, strictlyAbove, typeBitwidth] at j j2 hx <;>
    (try obtain ⟨j1a, j1⟩ := j1) <;> (try obtain ⟨j2a, j2⟩ := j2) <;> (try obtain ⟨ja, j⟩ := j) <;>
    (try subst j1) <;> (try subst j2) <;> (try subst j) <;>
    simp [convert, exactMatch] at h1 h2 ⊢ <;> grind

/-- In the remaining case, `l` and `r` agree modulo 2^W. -/
theorem join_mod {b t1 t2 : Ty} {x y : Int} {u : Value} (hm : HasShape b u) (hb : b ≠ .arbitraryInt)
    (j1 : leastUpperBound .arbitraryInt b = some t1) (j2 : leastUpperBound b .arbitraryInt = some t2)
    (h1 : convert .arbitraryInt t1 (.int x) = convert b t1 u) (h2 : convert b t2 u = convert .arbitraryInt t2 (.int y)) :
    ∃ W : Int, CastsTo (.fixedUnsigned W) b ∧ x % 2 ^ W.toNat = y % 2 ^ W.toNat := by
  simp only [castsTo_iff]
  cases hm <;> simp [leastUpperBound, strictlyAbove, typeBitwidth] at j1 j2 hb ⊢ <;>
    (try subst j1) <;> (try subst j2) <;> simp [convert, exactMatch] at h1 h2 ⊢ <;> grind

end P4C
