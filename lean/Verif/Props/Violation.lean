import Verif.Proofs.Violation2
import Verif.Props.Accept

/-!
# C69: exactly what is reported about entries that violate a constraint
-/

namespace P4C

open Spec

/-- C69: for any program that is accepted, an entry is said to violate constraints, with the message `m`, if and only if this
is the report described by `ReportsViolation`, which is in terms of the declarations of the program: which constraint is
quoted, which part of it, how, and which keys or parameters are listed with which values. `hw`: bitwidths are not negative. -/
theorem C69_report {sys : Sys} {p : P4Info} {ci : ConstraintInfo} (h : p4ToConstraintInfo sys p = .ok ci)
    (hw : NonNegProgram p) (entry : RtEntry) (m : Str) :
    (reasonEntryViolatesConstraint entry ci = .ok m ∧ m ≠ []) ↔ ReportsViolation sys.inetPton6 p entry m :=
  reason_reports h hw

/-- C69: the same for actions by themselves. -/
theorem C69_action {sys : Sys} {p : P4Info} {ci : ConstraintInfo} (h : p4ToConstraintInfo sys p = .ok ci)
    (hw : NonNegProgram p) (a : RtAction) (m : Str) : (reasonAction a ci = .ok m ∧ m ≠ []) ↔
      ∃ d ∈ p.actions, d.preamble.id = a.actionId ∧ ActionReport sys.inetPton6 d a m :=
  reasonAction_reports h hw

/-- C69: the part that is quoted is among those that decide the value of the constraint, and none of these is smaller. -/
theorem C69_least {Γ : Sig} {ρ : Env} {e y : Expr} (h : Explained Γ ρ e y) :
    Considered Γ ρ e y ∧ Explains y ∧ ∀ z, Considered Γ ρ e z → Explains z → weight y ≤ weight z := h.least

/-- C69: whenever the part that is quoted has the same value, for whatever entry, the constraint has the same value, if any. -/
theorem C69_sufficient {Γ : Sig} {ρ : Env} {e y : Expr} {v b : Bool} (h : Explained Γ ρ e y) (h1 : Valued Γ ρ e b)
    (h2 : Valued Γ ρ y v) (ρ' : Env) (h3 : Valued Γ ρ' y v) (b' : Bool) (h4 : Valued Γ ρ' e b') : b' = b :=
  h.sufficient h1 h2 h3 h4

/-- A report about the constraint of the table, and one about the constraint of the second action. -/
example : (∃ m, ReportsViolation Ex.sys.inetPton6 (Ex.p4info c!"opt == 3 && (ex == 7 || tern::mask == 1)" c!"p == 1") (Ex.entry 2) m ∧
      c!"But your entry does not.\n>>>Relevant Entry Info<<<\nTable Name: \"tbl\"\nPriority:10\nField: \"ex\" -> Value: Exact{.value = 2}\n"
        <:+: m) ∧
    ∃ m, ReportsViolation Ex.sys.inetPton6 (Ex.p4info c!"opt == 3" c!"p == 1 -> q == 1")
        { Ex.entry 2 with action := some (.actionSet [Ex.action 2 2, Ex.action 1 2]) } m ∧
      c!"Action Name: \"act\"\nParam name: \"p\" -> Value: 1\nParam name: \"q\" -> Value: 2\n" <:+ m :=
  ⟨⟨Ex.get [] (reasonEntryViolatesConstraint (Ex.entry 2) (Ex.ci c!"opt == 3 && (ex == 7 || tern::mask == 1)" c!"p == 1")),
      (C69_report (ci := Ex.ci c!"opt == 3 && (ex == 7 || tern::mask == 1)" c!"p == 1") (Ex.get_of_isOk (by decide +kernel))
        (Ex.nonNeg _ _) _ _).1 ⟨Ex.get_of_isOk (by decide +kernel), by decide +kernel⟩, by decide +kernel⟩,
    ⟨Ex.get [] (reasonEntryViolatesConstraint { Ex.entry 2 with action := some (.actionSet [Ex.action 2 2, Ex.action 1 2]) }
        (Ex.ci c!"opt == 3" c!"p == 1 -> q == 1")),
      (C69_report (ci := Ex.ci c!"opt == 3" c!"p == 1 -> q == 1") (Ex.get_of_isOk (by decide +kernel))
        (Ex.nonNeg _ _) _ _).1 ⟨Ex.get_of_isOk (by decide +kernel), by decide +kernel⟩, by decide +kernel⟩⟩

/-- Of two false operands of a conjunction the smaller is the explanation. -/
example (i : Info) (n : Str) (Γ : Sig) (ρ : Env) (hΓ : Γ.key n = some (.exact 8)) (hρ : ρ.key n = some (.exact 5)) :
    Explained Γ ρ (.bin i .and (.bin i .eq (.key i n) (.intConst i c!"6")) (.boolConst i false)) (.boolConst i false) := by
  refine .bothRight (o := .and) (a := false) (b := false) rfl ⟨_, rfl, ?_⟩ ⟨_, rfl, .bool false⟩ rfl rfl (.cmp rfl)
    (.const _ _) ⟨trivial, trivial⟩ trivial (by simp [weight])
  refine .cmp (c := false) (.key hΓ hρ) (.int 6) (lub_iff.1 rfl) (fun h => by cases h) ?_
  decide

end P4C
