import Verif.Spec.Language

/-
Castability: the order of the specification and the functions of the type checker.
-/

namespace P4C

open Spec

theorem strictlyAbove_irrefl (a : Ty) : strictlyAbove a a = false := by
  cases a <;> simp [strictlyAbove]

theorem strictlyAbove_trans {a b c : Ty} (h1 : strictlyAbove a b = true)
    (h2 : strictlyAbove b c = true) : strictlyAbove a c = true := by
  cases a <;> cases b <;> simp [strictlyAbove] at h1 <;> cases c <;> simp_all [strictlyAbove]

theorem strictlyAbove_asymm {a b : Ty} (h1 : strictlyAbove a b = true) : strictlyAbove b a = false := by
  cases a <;> cases b <;> simp_all [strictlyAbove]

theorem castStep_above {a b : Ty} (h : CastStep a b) : strictlyAbove b a = true := by
  cases h <;> simp [strictlyAbove, typeBitwidth]

theorem castsTo_iff {a b : Ty} : CastsTo a b ↔ a = b ∨ strictlyAbove b a = true := by
  constructor
  · intro h
    induction h with
    | refl => exact .inl rfl
    | step s _ ih =>
      right
      rcases ih with rfl | ih
      · exact castStep_above s
      · exact strictlyAbove_trans ih (castStep_above s)
  · rintro (rfl | h)
    · exact .refl _
    · cases a <;> cases b <;> simp [strictlyAbove, typeBitwidth] at h <;> subst_vars
      all_goals first
        | exact .step (.intBit _) (.refl _)
        | exact .step (.bitExact _) (.refl _)
        | exact .step (.bitTernary _) (.refl _)
        | exact .step (.bitLpm _) (.refl _)
        | exact .step (.bitRange _) (.refl _)
        | exact .step (.bitOptional _) (.refl _)
        | exact .step (.intBit _) (.step (.bitExact _) (.refl _))
        | exact .step (.intBit _) (.step (.bitTernary _) (.refl _))
        | exact .step (.intBit _) (.step (.bitLpm _) (.refl _))
        | exact .step (.intBit _) (.step (.bitRange _) (.refl _))
        | exact .step (.intBit _) (.step (.bitOptional _) (.refl _))

theorem castsTo_antisymm {a b : Ty} (h1 : CastsTo a b) (h2 : CastsTo b a) : a = b := by
  rw [castsTo_iff] at h1 h2
  rcases h1 with h1 | h1
  · exact h1
  · rcases h2 with h2 | h2
    · exact h2.symm
    · have := strictlyAbove_asymm h1
      simp [this] at h2

theorem isJoin_unique {a b t u : Ty} (h1 : IsJoin a b t) (h2 : IsJoin a b u) : t = u :=
  castsTo_antisymm (h1.2.2 u h2.1 h2.2.1) (h2.2.2 t h1.1 h1.2.1)

/-- Two types below a common type are comparable. -/
theorem common_upper {a b u : Ty} (h1 : CastsTo a u) (h2 : CastsTo b u) :
    a = b ∨ strictlyAbove a b = true ∨ strictlyAbove b a = true := by
  rw [castsTo_iff] at h1 h2
  rcases h1 with rfl | h1
  · rcases h2 with rfl | h2
    · exact .inl rfl
    · exact .inr (.inl h2)
  · rcases h2 with rfl | h2
    · exact .inr (.inr h1)
    · cases u <;> cases a <;> simp [strictlyAbove, typeBitwidth] at h1 <;> cases b <;>
        simp_all [strictlyAbove, typeBitwidth]

theorem lub_iff {a b t : Ty} : leastUpperBound a b = some t ↔ IsJoin a b t := by
  constructor
  · intro h
    unfold leastUpperBound at h
    split at h
    · rename_i e; subst e; cases h
      exact ⟨.refl _, .refl _, fun u h _ => h⟩
    · split at h
      · rename_i e; cases h
        exact ⟨.refl _, castsTo_iff.2 (.inr e), fun u h _ => h⟩
      · split at h
        · rename_i e; cases h
          exact ⟨castsTo_iff.2 (.inr e), .refl _, fun u _ h => h⟩
        · cases h
  · intro h
    unfold leastUpperBound
    rcases common_upper h.1 h.2.1 with rfl | e | e
    · simp
      exact castsTo_antisymm h.1 (h.2.2 a (.refl _) (.refl _))
    · have hne : a ≠ b := by rintro rfl; simp [strictlyAbove_irrefl] at e
      simp [hne, e]
      exact castsTo_antisymm h.1 (h.2.2 a (.refl _) (castsTo_iff.2 (.inr e)))
    · have hne : a ≠ b := by rintro rfl; simp [strictlyAbove_irrefl] at e
      have := strictlyAbove_asymm e
      simp [hne, e, this]
      exact castsTo_antisymm h.2.1 (h.2.2 b (castsTo_iff.2 (.inr e)) (.refl _))

theorem lub_comm (a b : Ty) : leastUpperBound a b = leastUpperBound b a := by
  apply Option.ext
  intro t
  rw [lub_iff, lub_iff]
  constructor <;> (rintro ⟨x, y, z⟩; exact ⟨y, x, fun u p q => z u q p⟩)

theorem lub_none {a b : Ty} : leastUpperBound a b = none ↔ ¬ ∃ u, CastsTo a u ∧ CastsTo b u := by
  constructor
  · rintro h ⟨u, h1, h2⟩
    unfold leastUpperBound at h
    rcases common_upper h1 h2 with rfl | e | e
    · simp at h
    · simp [e] at h
    · simp only [e, if_true] at h
      repeat' split at h
      all_goals cases h
  · intro h
    cases e : leastUpperBound a b with
    | none => rfl
    | some t =>
      have := lub_iff.1 e
      exact absurd ⟨t, this.1, this.2.1⟩ h

theorem isOrder_ordered {t : Ty} : typeHasOrdering t = true ↔ Ordered t := by
  constructor
  · intro h
    cases t <;> simp [typeHasOrdering] at h
    · exact .int
    · exact .bit _
    · exact .exact _
  · intro h; cases h <;> rfl

theorem fieldTy_iff {t : Ty} {f : Str} {u : Ty} :
    fieldTypeOfCompositeType t f = some u ↔ FieldTy t f u := by
  constructor
  · intro h
    cases t <;> simp [fieldTypeOfCompositeType, kFieldTypes, lookup, Ty.case, typeBitwidth] at h
    all_goals
      by_cases h1 : c!"value" = f
      · subst h1; simp [typeCaseToType, setTypeBitwidth] at h; try (subst h; constructor)
      by_cases h2 : c!"mask" = f
      · subst h2; simp [typeCaseToType, setTypeBitwidth] at h; try (subst h; constructor)
      by_cases h3 : c!"prefix_length" = f
      · subst h3; simp [typeCaseToType, setTypeBitwidth] at h; try (subst h; constructor)
      by_cases h4 : c!"low" = f
      · subst h4; simp [typeCaseToType, setTypeBitwidth] at h; try (subst h; constructor)
      by_cases h5 : c!"high" = f
      · subst h5; simp [typeCaseToType, setTypeBitwidth] at h; try (subst h; constructor)
      simp_all
  · intro h
    cases h <;> simp [fieldTypeOfCompositeType, kFieldTypes, lookup, Ty.case, typeBitwidth, typeCaseToType, setTypeBitwidth]

theorem fieldTy_unique {t : Ty} {f : Str} {u u' : Ty} (h : FieldTy t f u) (h' : FieldTy t f u') :
    u = u' := by
  have := fieldTy_iff.2 h
  rw [fieldTy_iff.2 h'] at this
  exact (Option.some.inj this).symm

theorem illegalType_iff {t : Ty} : illegalType t = false ↔ Supported t := by
  cases t <;> simp [illegalType, Supported]

end P4C
