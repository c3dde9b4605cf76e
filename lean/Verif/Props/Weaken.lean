import Verif.Proofs.Weaken
import Verif.Props.Exchange
import Verif.Props.Formula

/-
C91: weakening a constraint.
-/

namespace P4C

open Spec

section
variable {sys : Sys} {ts : List TableDecl} {as : List ActionDecl} {d d' : TableDecl} {ci ci' : ConstraintInfo}
  (hw : NonNegProgram ⟨d :: ts, as⟩) (h : p4ToConstraintInfo sys ⟨d :: ts, as⟩ = .ok ci)
  (h' : p4ToConstraintInfo sys ⟨d' :: ts, as⟩ = .ok ci') (hk : SameTableKeys d d')
  {s s' : SExpr} (hs : TableSays sys.inetPton6 d s) (hs' : TableSays sys.inetPton6 d' s')
  {vs : List VarInfo} (hv : Each KeyDecl d.matchFields vs) {entry : RtEntry}
  (hx : Weakened (Entails vs entry) true s s')

include hw h h' hk hs hs' hv hx in
/-- C91: the parts of a constraint that are in positive positions can be replaced by weaker ones, and those in negative positions
by stronger ones: entries that are accepted are then not rejected. -/
theorem C91_not_rejected (h1 : reasonEntryViolatesConstraint entry ci = .ok []) {m : Str}
    (h2 : reasonEntryViolatesConstraint entry ci' = .ok m) : m = [] :=
  weakened_reason hw (nonNeg_keys hk.keys.symm hw) h h' hk hs hs' hv hx h1 h2

include hw h h' hk hs hs' hv hx in
/-- C91: they are still accepted, if the new constraint does not order keys themselves. -/
theorem C91_accepted (ho : ∀ x, Contains s' x → ¬ OrdersKey x) (h1 : reasonEntryViolatesConstraint entry ci = .ok []) :
    reasonEntryViolatesConstraint entry ci' = .ok [] :=
  weakened_accepts hw (nonNeg_keys hk.keys.symm hw) h h' hk hs hs' hv hx ho h1

end

/-- C91 for actions. -/
theorem C91_action {sys : Sys} {ts : List TableDecl} {as : List ActionDecl} {d d' : ActionDecl} {ci ci' : ConstraintInfo}
    (hw : NonNegProgram ⟨ts, d :: as⟩) (h : p4ToConstraintInfo sys ⟨ts, d :: as⟩ = .ok ci)
    (h' : p4ToConstraintInfo sys ⟨ts, d' :: as⟩ = .ok ci') (hk : SameActionParams d d')
    {s s' : SExpr} (hs : ActionSays sys.inetPton6 d s) (hs' : ActionSays sys.inetPton6 d' s')
    {vs : List VarInfo} (hv : Each ParamIs d.params vs) {a : RtAction} (hx : Weakened (ArgsEntail vs a) true s s')
    (h1 : reasonAction a ci = .ok []) {m : Str} (h2 : reasonAction a ci' = .ok m) : m = [] :=
  weakened_reasonAction hw (nonNeg_params hk.params.symm hw) h h' hk hs hs' hv hx h1 h2

/-- C91 for actions: they are still accepted, if there is an argument for each parameter and the new constraint does not mention
attributes, which actions do not have. -/
theorem C91_action_accepted {sys : Sys} {ts : List TableDecl} {as : List ActionDecl} {d d' : ActionDecl} {ci ci' : ConstraintInfo}
    (hw : NonNegProgram ⟨ts, d :: as⟩) (h : p4ToConstraintInfo sys ⟨ts, d :: as⟩ = .ok ci)
    (h' : p4ToConstraintInfo sys ⟨ts, d' :: as⟩ = .ok ci') (hk : SameActionParams d d')
    {s s' : SExpr} (hs : ActionSays sys.inetPton6 d s) (hs' : ActionSays sys.inetPton6 d' s')
    {vs : List VarInfo} (hv : Each ParamIs d.params vs) {a : RtAction} (hx : Weakened (ArgsEntail vs a) true s s')
    (hfit : ActionFits vs a) (hn : ∀ n, ¬ Contains s' (.attr n)) (h1 : reasonAction a ci = .ok []) :
    reasonAction a ci' = .ok [] :=
  weakened_acceptsAction hw (nonNeg_params hk.params.symm hw) h h' hk hs hs' hv hx hfit hn h1

/-! ### Examples -/

theorem Ex.exTy (z : Int) : HasTy (keySig Ex.keys) (.cmp .eq (.key c!"ex") (.int z)) .boolean :=
  .cmp (.key (by rfl) ⟨by nofun, by nofun⟩) (.int z) ((lub_iff (t := .exact 32)).1 (by decide +kernel)) (by nofun)

theorem Ex.optTy (z : Int) : HasTy (keySig Ex.keys) (.cmp .eq (.key c!"opt") (.int z)) .boolean :=
  .cmp (.key (by rfl) ⟨by nofun, by nofun⟩) (.int z) ((lub_iff (t := .optionalMatch 4)).1 (by decide +kernel)) (by nofun)

/-- A constraint, and a weaker one. -/
def Ex.strict : Str := c!"(ex == 2 || ex == 7) -> opt == 3"
def Ex.lax : Str := c!"ex == 2 -> (opt == 3 || opt == 4)"

/-- What they say. -/
def Ex.strictSays : SExpr := .conn .implies (.conn .or (.cmp .eq (.key c!"ex") (.int 2)) (.cmp .eq (.key c!"ex") (.int 7)))
  (.cmp .eq (.key c!"opt") (.int 3))
def Ex.laxSays : SExpr := .conn .implies (.cmp .eq (.key c!"ex") (.int 2))
  (.conn .or (.cmp .eq (.key c!"opt") (.int 3)) (.cmp .eq (.key c!"opt") (.int 4)))

theorem Ex.strict_says : TableSays Ex.sys.inetPton6 (Ex.tableDecl Ex.strict) Ex.strictSays := by
  obtain ⟨src, ts, e, h1, h2, h3, h4⟩ := Ex.spelled (text := Ex.strict) (loc := { src := .tableName c!"tbl" })
    (x := Ex.strictSays) (by decide +kernel) (by decide +kernel) (by decide +kernel)
  exact ⟨Ex.keys, src, e, Ex.keysDeclared _, .some h1 h2 h3 h4 (.conn (.conn (Ex.exTy 2) (Ex.exTy 7)) (Ex.optTy 3))⟩

theorem Ex.lax_says : TableSays Ex.sys.inetPton6 (Ex.tableDecl Ex.lax) Ex.laxSays := by
  obtain ⟨src, ts, e, h1, h2, h3, h4⟩ := Ex.spelled (text := Ex.lax) (loc := { src := .tableName c!"tbl" })
    (x := Ex.laxSays) (by decide +kernel) (by decide +kernel) (by decide +kernel)
  exact ⟨Ex.keys, src, e, Ex.keysDeclared _, .some h1 h2 h3 h4 (.conn (Ex.exTy 2) (.conn (Ex.optTy 3) (Ex.optTy 4)))⟩

theorem Ex.or_not_false {Γ : Sig} {ρ : Env} {x y : SExpr} (h : Evaluates Γ ρ x .boolean (.bool true)) :
    ¬ Evaluates Γ ρ (.conn .or x y) .boolean (.bool false) := by
  intro h'
  obtain ⟨a, b, h1, _, h3⟩ := conn_inv h'
  have := (evaluates_unique h h1).2
  simp only [Value.bool.injEq] at this
  subst this
  simp [Spec.Conn.apply] at h3

theorem Ex.laxer (entry : RtEntry) : Weakened (Entails Ex.keys entry) true Ex.strictSays Ex.laxSays :=
  .implies (.stronger fun _ _ => Ex.or_not_false) (.weaker fun _ _ => Ex.or_not_false)

/-- An entry that satisfies the constraint satisfies the weaker one. -/
example : reasonEntryViolatesConstraint (Ex.entry 7) (Ex.ci Ex.lax c!"true") = .ok [] :=
  C91_accepted (d' := Ex.tableDecl Ex.lax) (ts := [Ex.freeTable]) (as := [Ex.actionDecl c!"true", Ex.freeAction]) (Ex.nonNeg _ _)
    (ci := Ex.ci Ex.strict c!"true") (ci' := Ex.ci Ex.lax c!"true") (Ex.get_of_isOk (by decide +kernel)) (Ex.get_of_isOk (by decide +kernel)) ⟨rfl, rfl⟩
    Ex.strict_says Ex.lax_says (Ex.keysDeclared _) (Ex.laxer (Ex.entry 7))
    (by
      intro x hx ho
      unfold Ex.laxSays at hx
      cases ho <;> grind [Contains, Cmp.isOrder])
    (by decide +kernel)

/-- Any verdict about it agrees. -/
example {m : Str} (h : reasonEntryViolatesConstraint (Ex.entry 7) (Ex.ci Ex.lax c!"true") = .ok m) : m = [] :=
  C91_not_rejected (d' := Ex.tableDecl Ex.lax) (ts := [Ex.freeTable]) (as := [Ex.actionDecl c!"true", Ex.freeAction]) (Ex.nonNeg _ _)
    (ci := Ex.ci Ex.strict c!"true") (ci' := Ex.ci Ex.lax c!"true") (Ex.get_of_isOk (by decide +kernel)) (Ex.get_of_isOk (by decide +kernel)) ⟨rfl, rfl⟩
    Ex.strict_says Ex.lax_says (Ex.keysDeclared _) (Ex.laxer (Ex.entry 7)) (by decide +kernel) h

/-- The constraint `p <= q` of an action, and the weaker `p <= q || p == 9`. -/
theorem Ex.laxActionSays : ActionSays Ex.sys.inetPton6 (Ex.actionDecl c!"p <= q || p == 9")
    (.conn .or (.cmp .le (.param c!"p") (.param c!"q")) (.cmp .eq (.param c!"p") (.int 9))) :=
  ⟨Ex.params, _, _, .cons (.bits ..) (.cons (.bits ..) .nil), .some (attached_iff.1 (by rfl))
    (tokenize_iff (src := ⟨c!"p <= q || p == 9", { src := .actionName c!"act" }⟩).1 rfl)
    (parseConstraint_iff.1 (Ex.get_of_isOk (d := .notSet {}) (by decide +kernel))) (by decide +kernel)
    (.conn (.cmp (.param (by rfl) ⟨by nofun, by nofun⟩) (.param (by rfl) ⟨by nofun, by nofun⟩) ((lub_iff (t := .fixedUnsigned 8)).1 (by decide +kernel)) (fun _ => .bit 8))
      (.cmp (.param (by rfl) ⟨by nofun, by nofun⟩) (.int 9) (join_bit _) (by nofun)))⟩

example {m : Str} (h : reasonAction (Ex.action 3 4) (Ex.ci c!"true" c!"p <= q || p == 9") = .ok m) : m = [] :=
  C91_action (d' := Ex.actionDecl c!"p <= q || p == 9") (ts := [Ex.tableDecl c!"true", Ex.freeTable]) (as := [Ex.freeAction]) (Ex.nonNeg _ _)
    (ci := Ex.ci c!"true" c!"p <= q") (ci' := Ex.ci c!"true" c!"p <= q || p == 9") (Ex.get_of_isOk (by decide +kernel)) (Ex.get_of_isOk (by decide +kernel)) ⟨rfl, rfl⟩
    Ex.actionSays Ex.laxActionSays (vs := Ex.params) (.cons (.bits ..) (.cons (.bits ..) .nil))
    (.weaker fun _ _ => Ex.or_not_false) (a := Ex.action 3 4) (by decide +kernel) h

example : reasonAction (Ex.action 3 4) (Ex.ci c!"true" c!"p <= q || p == 9") = .ok [] :=
  C91_action_accepted (d' := Ex.actionDecl c!"p <= q || p == 9") (ts := [Ex.tableDecl c!"true", Ex.freeTable]) (as := [Ex.freeAction]) (Ex.nonNeg _ _)
    (ci := Ex.ci c!"true" c!"p <= q") (ci' := Ex.ci c!"true" c!"p <= q || p == 9") (Ex.get_of_isOk (by decide +kernel)) (Ex.get_of_isOk (by decide +kernel)) ⟨rfl, rfl⟩
    Ex.actionSays Ex.laxActionSays (vs := Ex.params) (.cons (.bits ..) (.cons (.bits ..) .nil))
    (.weaker fun _ _ => Ex.or_not_false) (a := Ex.action 3 4) ⟨by decide, by decide, by simp [Ex.params, Ex.action]⟩
    (by intro n hx; grind [Contains]) (by decide +kernel)

/-- C91: the position matters. The part `opt == 4` of these constraints is false of the entry, so anything follows from it. But
below a negation, and as an operand of a comparison, replacing it by `true` makes the entry violate the constraint. -/
theorem C91_positions :
    reasonEntryViolatesConstraint (Ex.entry 2) (Ex.ci c!"!(opt == 4)" c!"true") = .ok [] ∧
    Ex.isOk (reasonEntryViolatesConstraint (Ex.entry 2) (Ex.ci c!"!(true)" c!"true")) = true ∧
    reasonEntryViolatesConstraint (Ex.entry 2) (Ex.ci c!"!(true)" c!"true") ≠ .ok [] ∧
    reasonEntryViolatesConstraint (Ex.entry 2) (Ex.ci c!"(opt == 4) == false" c!"true") = .ok [] ∧
    Ex.isOk (reasonEntryViolatesConstraint (Ex.entry 2) (Ex.ci c!"(true) == false" c!"true")) = true ∧
    reasonEntryViolatesConstraint (Ex.entry 2) (Ex.ci c!"(true) == false" c!"true") ≠ .ok [] := by
  decide +kernel

end P4C
