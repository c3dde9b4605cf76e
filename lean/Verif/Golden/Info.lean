import Verif.Golden.Base

/-
The tests of `backend/constraint_info_test.cc`, run on the model.
-/

namespace P4C.Golden.Info

/-- A program with one action. -/
def oneAction (name : Str) (annotations : List Str) (params : List ParamDecl) : P4Info := ⟨[], [⟨⟨123, name, annotations⟩, params⟩]⟩

-- ValidActionRestrictionSucceeds
example : ∃ ci ai, p4ToConstraintInfo sys (oneAction c!"MyIngress.act_1" [c!"@action_restriction(\"multicast_group_id != 0\")"]
      [⟨1, c!"multicast_group_id", 16, []⟩]) = .ok ci ∧
    getActionInfo ci 123 = some ai ∧ ai.source.str = c!"multicast_group_id != 0" :=
  ⟨_, _, rfl, rfl, rfl⟩

-- ActionWithP4NamedTypeConstraintFails
example : ∃ c, p4ToConstraintInfo sys (oneAction c!"MyIngress.act_2" [c!"@action_restriction(\"custom_type_param != 0\")"]
      [⟨1, c!"custom_type_param", 16, c!"custom_type_t"⟩]) = .err c :=
  ⟨_, rfl⟩

-- ConstraintAnnotationsMustBeEnclosedInParen
example : ∃ c, p4ToConstraintInfoM texts sys (oneAction c!"MyIngress.act_1" [c!"@action_restriction x != 0"] []) = .err c
    (text [c!"P4Info to constraint info translation failed with the following errors:\n",
      c!"- In action MyIngress.act_1:\n",
      c!"Syntax error: @action_restriction must be enclosed in '(\"' and '\")'\n"]) :=
  ⟨_, rfl⟩

-- ShouldGetNonNullptrToTableInfo
example : ∃ ci, p4ToConstraintInfo sys ⟨[⟨⟨1, c!"table", []⟩, []⟩], []⟩ = .ok ci ∧ getTableInfo ci 1 ≠ none :=
  ⟨_, rfl, by decide +kernel⟩

-- ShouldGetNonNullptrToActionInfo
example : ∃ ci, p4ToConstraintInfo sys (oneAction c!"MyIngress.act_1" [] []) = .ok ci ∧ getActionInfo ci 123 ≠ none :=
  ⟨_, rfl, by decide +kernel⟩

end P4C.Golden.Info
