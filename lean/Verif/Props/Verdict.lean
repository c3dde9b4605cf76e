import Verif.Props.Examples

/-
Verdicts: properties C01, C02, C10, C11, C45.
-/

namespace P4C

open Spec

/-! ### C01: the verdict agrees with the language semantics -/

/-- C01 for tables. Full statement: without the hypothesis `hn`; it fails then
(`C01_verdict_fails`): ordered comparisons with an `exact` key type check but cannot be evaluated. -/
theorem C01_verdict_partial {ci : ConstraintInfo} {entry : RtEntry} {ti : TableInfo} {s : SExpr} {ρ : Env}
    (h : TableCase ci entry ti s ρ) (ha : entry.action = none)
    (hn : NoOrderedExact (sigOf (.table ti.keysByName)) s) :
    reasonEntryViolatesConstraint entry ci = .ok [] ↔ Holds (sigOf (.table ti.keysByName)) ρ s := by
  rw [reason_noAction h.found ha]
  exact h.iff hn

/-- C01 for actions. Full statement: without the hypothesis `hs`; `::priority` type checks in action
constraints but cannot be evaluated (`C02_fails_priority`). -/
theorem C01_action_partial {ci : ConstraintInfo} {a : RtAction} {ai : ActionInfo} {s : SExpr} {ρ : Env}
    (h : ActionCase ci a ai s ρ) (hs : AttrFree s) :
    reasonAction a ci = .ok [] ↔ Holds (sigOf (.action ai.paramsByName)) ρ s := h.iff hs

example : NoOrderedExact (sigOf (.table (Ex.ti Ex.tc1).keysByName)) Ex.s1 := by
  simp only [NoOrderedExact, Ex.s1, Cmp.isOrder, true_and, false_implies, and_true,
    Bool.false_eq_true]
  refine ⟨fun _ w => ⟨fun h => ?_, fun h => ?_⟩, fun _ w => ⟨fun h => ?_, fun h => ?_⟩⟩
  · cases h with
    | field _ hf => cases hf
  · cases h
  · cases h
  · cases h

example : TableCase (Ex.ci Ex.tc1 Ex.ac1) (Ex.entry 5) (Ex.ti Ex.tc1) Ex.s1
      (envOf (Ex.ctx Ex.tc1 (Ex.entry 5))) ∧
    reasonEntryViolatesConstraint (Ex.entry 5) (Ex.ci Ex.tc1 Ex.ac1) = .ok [] :=
  ⟨Ex.case1 5, by decide +kernel⟩

example : TableCase (Ex.ci Ex.tc1 Ex.ac1) (Ex.entry 6) (Ex.ti Ex.tc1) Ex.s1
      (envOf (Ex.ctx Ex.tc1 (Ex.entry 6))) ∧
    reasonEntryViolatesConstraint (Ex.entry 6) (Ex.ci Ex.tc1 Ex.ac1) ≠ .ok [] :=
  ⟨Ex.case1 6, by decide +kernel⟩

example : ActionCase (Ex.ci Ex.tc1 Ex.ac1) (Ex.action 3 4) (Ex.ai Ex.ac1) Ex.s2
      (envOf (Ex.actx Ex.ac1 (Ex.action 3 4))) ∧ AttrFree Ex.s2 ∧
    reasonAction (Ex.action 3 4) (Ex.ci Ex.tc1 Ex.ac1) = .ok [] ∧
    reasonAction (Ex.action 5 4) (Ex.ci Ex.tc1 Ex.ac1) ≠ .ok [] :=
  ⟨Ex.acase1 3 4, ⟨trivial, trivial⟩, by decide +kernel, by decide +kernel⟩

/-- The semantics gives `ex < 9` on an exact key `ex` with value 5 the value true. -/
theorem holds_exact_order :
    Holds (sigOf (.table (Ex.ti c!"ex < 9").keysByName)) (envOf (Ex.ctx c!"ex < 9" (Ex.entry 5)))
      (.cmp .lt (.key c!"ex") (.int 9)) := by
  refine .cmp (a := .exact 32) (b := .arbitraryInt) (t := .exact 32) (v := .exact 5) (w := .int 9)
    (.key (by decide +kernel) (by decide +kernel)) (.int 9) (lub_iff.1 (by decide)) (by decide)

/-- C01 fails as stated: a true constraint on which the checker reports an error. -/
theorem C01_verdict_fails : ∃ ci entry ti s ρ, TableCase ci entry ti s ρ ∧ entry.action = none ∧
    Holds (sigOf (.table ti.keysByName)) ρ s ∧ reasonEntryViolatesConstraint entry ci = .err .internal :=
  ⟨_, _, _, _, _, Ex.tableCase (tc := c!"ex < 9") (ac := c!"true") (e := Ex.entry 5)
    (s := .cmp .lt (.key c!"ex") (.int 9)) (by decide +kernel), rfl, holds_exact_order, by decide +kernel⟩

/-! ### C45: verdicts are never wrong -/

/-- C45 for tables: whatever the constraint, an entry reported as satisfying satisfies the constraint, and
an entry reported as violating violates it. -/
theorem C45_no_wrong_verdict {ci : ConstraintInfo} {entry : RtEntry} {ti : TableInfo} {s : SExpr} {ρ : Env}
    {msg : Str} (h : TableCase ci entry ti s ρ) (ha : entry.action = none)
    (hr : reasonEntryViolatesConstraint entry ci = .ok msg) :
    (msg = [] → Holds (sigOf (.table ti.keysByName)) ρ s) ∧
    (msg ≠ [] → Fails (sigOf (.table ti.keysByName)) ρ s ∧ ¬ Holds (sigOf (.table ti.keysByName)) ρ s) := by
  rw [reason_noAction h.found ha] at hr
  refine ⟨fun hm => h.satisfied (hm ▸ hr), fun hm => ?_⟩
  have := h.violated hr hm
  exact ⟨this, fun hh => holds_not_fails hh this⟩

/-- C45 for actions. -/
theorem C45_no_wrong_action_verdict {ci : ConstraintInfo} {a : RtAction} {ai : ActionInfo} {s : SExpr}
    {ρ : Env} {msg : Str} (h : ActionCase ci a ai s ρ) (hs : AttrFree s) (hr : reasonAction a ci = .ok msg) :
    (msg = [] → Holds (sigOf (.action ai.paramsByName)) ρ s) ∧
    (msg ≠ [] → Fails (sigOf (.action ai.paramsByName)) ρ s ∧ ¬ Holds (sigOf (.action ai.paramsByName)) ρ s) := by
  refine ⟨fun hm => h.satisfied hs (hm ▸ hr), fun hm => ?_⟩
  have := h.violated hs hr hm
  exact ⟨this, fun hh => holds_not_fails hh this⟩

example : ∃ msg, msg ≠ [] ∧
    reasonEntryViolatesConstraint (Ex.entry 6) (Ex.ci Ex.tc1 Ex.ac1) = .ok msg :=
  ⟨Ex.get [] (reasonEntryViolatesConstraint (Ex.entry 6) (Ex.ci Ex.tc1 Ex.ac1)), by decide +kernel,
    Ex.get_of_isOk (by decide +kernel)⟩

/-! ### C02: type soundness of evaluation -/

/-- C02 for tables: an accepted boolean constraint evaluates to a boolean. Full statement: without `hn`. -/
theorem C02_soundness_partial {ci : ConstraintInfo} {entry : RtEntry} {ti : TableInfo} {s : SExpr} {ρ : Env}
    (h : TableCase ci entry ti s ρ) (hn : NoOrderedExact (sigOf (.table ti.keysByName)) s) :
    ∃ c ctx b, ti.constraint = some c ∧ parseTableEntry entry ti = .ok ctx ∧
      evalToBool ctx c [] none = .ok (b, none) := by
  obtain ⟨c, ctx, hc, _, hp, _, _, _, h3⟩ := h.check
  obtain ⟨b, hb⟩ := h3 hn
  have := evalToBool_agrees (c₀ := none) (ctx := ctx) (root := c) (e := c) (p := []) (c := none) .root
    ⟨fun m hm => (Option.some_ne_none m hm.symm).elim, rfl⟩
  rw [hb] at this
  obtain ⟨c', hc', _, hk⟩ := this
  cases c' with
  | none => exact ⟨c, ctx, b, hc, hp, hc'⟩
  | some m => cases hk

/-- C02 for actions. Full statement: without `hs`. -/
theorem C02_action_soundness_partial {ci : ConstraintInfo} {a : RtAction} {ai : ActionInfo} {s : SExpr}
    {ρ : Env} (h : ActionCase ci a ai s ρ) (hs : AttrFree s) :
    ∃ c ctx b, ai.constraint = some c ∧ parseAction a ai = .ok ctx ∧
      evalToBool ctx c [] none = .ok (b, none) := by
  obtain ⟨c, ctx, hc, _, hp, _, _, _, h3⟩ := h.check hs
  obtain ⟨b, hb⟩ := h3 (action_noOrderedExact h.bits s)
  have := evalToBool_agrees (c₀ := none) (ctx := ctx) (root := c) (e := c) (p := []) (c := none) .root
    ⟨fun m hm => (Option.some_ne_none m hm.symm).elim, rfl⟩
  rw [hb] at this
  obtain ⟨c', hc', _, hk⟩ := this
  cases c' with
  | none => exact ⟨c, ctx, b, hc, hp, hc'⟩
  | some m => cases hk

/-- C02 fails as stated (1): ordered comparison with an `exact` key. -/
theorem C02_fails_exact : ∃ ci entry ti s ρ c ctx, TableCase ci entry ti s ρ ∧ ti.constraint = some c ∧
    parseTableEntry entry ti = .ok ctx ∧ evalToBool ctx c [] none = .err .internal :=
  ⟨_, _, _, _, _, (Ex.ti c!"ex < 9").constraint.getD (.notSet {}), Ex.ctx c!"ex < 9" (Ex.entry 5),
    Ex.tableCase (tc := c!"ex < 9") (ac := c!"true") (e := Ex.entry 5)
      (s := .cmp .lt (.key c!"ex") (.int 9)) (by decide +kernel), by decide +kernel,
    Ex.get_of_isOk (by decide +kernel), by decide +kernel⟩

/-- C02 fails as stated (2): `::priority` in an action constraint. -/
theorem C02_fails_priority : ∃ ci a ai s ρ, ActionCase ci a ai s ρ ∧ reasonAction a ci = .err .internal :=
  ⟨_, _, _, _, _, Ex.actionCase (tc := c!"true") (ac := c!"::priority > 1") (a := Ex.action 1 2)
    (s := .cmp .gt (.attr c!"priority") (.int 1)) (by decide +kernel), by decide +kernel⟩

/-- C02 (3): completeness of the invocation is needed. An invocation of an action without its parameter `q`
is accepted as consistent with the action (`ParseAction` succeeds), and evaluating `p <= q` then fails. -/
theorem C02_fails_missing_param : ∃ a ctx e,
    parseAction a (Ex.ai Ex.ac1) = .ok ctx ∧ (Ex.ai Ex.ac1).constraint = some e ∧
    evalToBool ctx e [] none = .err .internal ∧ reasonAction a (Ex.ci Ex.tc1 Ex.ac1) = .err .internal :=
  ⟨⟨7, [(1, [1])]⟩, Ex.actx Ex.ac1 ⟨7, [(1, [1])]⟩, (Ex.ai Ex.ac1).constraint.getD (.notSet {}),
    Ex.get_of_isOk (by decide +kernel), by decide +kernel, by decide +kernel, by decide +kernel⟩

example : ∃ b, evalToBool (Ex.ctx Ex.tc1 (Ex.entry 5)) ((Ex.ti Ex.tc1).constraint.getD (.notSet {})) [] none
    = .ok (b, none) := ⟨true, by decide +kernel⟩

/-! ### C11: the first failure is reported -/

/-- C11, order: what is reported is the reason (or error) for the table constraint if that is not
satisfied, and otherwise that for the first action whose constraint is not satisfied. -/
theorem C11_first_failure {ci : ConstraintInfo} {entry : RtEntry} {ti : TableInfo}
    (hf : lookup entry.tableId ci.tables = some ti) :
    (∀ r, reasonEntryViolatesConstraint { entry with action := none } ci = r → r ≠ .ok [] →
      reasonEntryViolatesConstraint entry ci = r) ∧
    (∀ as pre a post, actionsOf entry.action = some as → as = pre ++ a :: post →
      reasonEntryViolatesConstraint { entry with action := none } ci = .ok [] →
      (∀ b ∈ pre, reasonAction b ci = .ok []) → reasonAction a ci ≠ .ok [] →
      reasonEntryViolatesConstraint entry ci = reasonAction a ci) := by
  have e0 : reasonEntryViolatesConstraint { entry with action := none } ci = tableReason entry ti :=
    reason_noAction (entry := { entry with action := none }) hf rfl
  constructor
  · intro r hr hne
    rw [e0] at hr
    rw [reason_found hf, hr]
    cases r with
    | ok m => 
      have : m ≠ [] := fun h => hne (by rw [h])
      show (if m ≠ [] then _ else _) = _
      rw [if_pos this]
    | _ => rfl
  · intro as pre a post has hs ht hpre ha
    rw [e0] at ht
    rw [reason_found hf, ht]
    have key : ∀ pre : List RtAction, (∀ b ∈ pre, reasonAction b ci = .ok []) →
        reasonActionSet ci (pre ++ a :: post) = reasonAction a ci := by
      intro pre hpre
      induction pre with
      | nil =>
        rw [List.nil_append, reasonActionSet]
        cases hra : reasonAction a ci with
        | ok m =>
          have : m ≠ [] := fun h => ha (by rw [hra, h])
          show (if m ≠ [] then _ else _) = _
          rw [if_pos this]
        | _ => rfl
      | cons b pre ih =>
        rw [List.cons_append, reasonActionSet, hpre b (by simp)]
        exact ih fun c hc => hpre c (by simp [hc])
    show reasonTableAction ci entry.action = _
    revert has
    cases entry.action with
    | none => intro has; cases has; simp at hs
    | some ta =>
      cases ta with
      | action b =>
        intro has
        cases has
        cases pre with
        | nil => cases hs; rfl
        | cons c pre => simp at hs
      | actionSet bs => intro has; cases has; subst hs; exact key pre hpre
      | _ => intro has; cases has

/-! ### C10: unknown and unconstrained tables and actions -/

/-- C10 (1): an unknown table is rejected, whatever else the entry contains. -/
theorem C10_unknown_table {ci : ConstraintInfo} {entry : RtEntry}
    (h : ∀ ti, (entry.tableId, ti) ∉ ci.tables) :
    reasonEntryViolatesConstraint entry ci = .err .invalidArgument := by
  unfold reasonEntryViolatesConstraint getTableInfo
  rw [lookup_none_iff.2 h]

/-- C10 (2): an unknown action is rejected when it is checked. -/
theorem C10_unknown_action {ci : ConstraintInfo} {a : RtAction}
    (h : ∀ ai, (a.actionId, ai) ∉ ci.actions) : reasonAction a ci = .err .invalidArgument := by
  unfold reasonAction getActionInfo
  rw [lookup_none_iff.2 h]

/-- C10 (2), seen from the entry: if the table constraint and the actions before it are satisfied. -/
theorem C10_unknown_action_entry {ci : ConstraintInfo} {entry : RtEntry} {ti : TableInfo}
    {pre post : List RtAction} {a : RtAction} (hf : lookup entry.tableId ci.tables = some ti)
    (ht : reasonEntryViolatesConstraint { entry with action := none } ci = .ok [])
    (has : actionsOf entry.action = some (pre ++ a :: post)) (hpre : ∀ b ∈ pre, reasonAction b ci = .ok [])
    (h : ∀ ai, (a.actionId, ai) ∉ ci.actions) :
    reasonEntryViolatesConstraint entry ci = .err .invalidArgument := by
  have hu := C10_unknown_action h
  rw [(C11_first_failure hf).2 _ pre a post has rfl ht hpre (by rw [hu]; simp), hu]

/-- C10 (3): an entry whose table is unconstrained, and all of whose actions are known and unconstrained,
satisfies its constraints. -/
theorem C10_unconstrained {ci : ConstraintInfo} {entry : RtEntry} {ti : TableInfo} {as : List RtAction}
    (hf : lookup entry.tableId ci.tables = some ti) (hc : ti.constraint = none)
    (has : actionsOf entry.action = some as)
    (ha : ∀ a ∈ as, ∃ ai, lookup a.actionId ci.actions = some ai ∧ ai.constraint = none) :
    reasonEntryViolatesConstraint entry ci = .ok [] := by
  rw [reason_nil hf]
  refine ⟨by unfold tableReason; rw [hc], reasonTableAction_nil.2 ⟨as, has, fun a h => ?_⟩⟩
  obtain ⟨ai, hl, hn⟩ := ha a h
  unfold reasonAction getActionInfo
  rw [hl]; dsimp only; rw [hn]

/-- C10 (4): an entry referring to an action profile member or group is rejected unless the table
constraint is violated already. -/
theorem C10_unsupported_action {ci : ConstraintInfo} {entry : RtEntry} {ti : TableInfo}
    (hf : lookup entry.tableId ci.tables = some ti) (hc : ti.constraint = none)
    (has : actionsOf entry.action = none) :
    reasonEntryViolatesConstraint entry ci = .err .invalidArgument := by
  rw [reason_found hf, tableReason, hc]
  show reasonTableAction ci entry.action = _
  revert has
  cases entry.action with
  | none => simp [actionsOf]
  | some ta => cases ta <;> simp [actionsOf, reasonTableAction]

example : reasonEntryViolatesConstraint { tableId := 9, matches_ := [] } (Ex.ci Ex.tc1 Ex.ac1)
    = .err .invalidArgument := C10_unknown_table (lookup_none_iff.1 (by decide +kernel))

example : reasonEntryViolatesConstraint
    { tableId := 2, matches_ := [], action := some (.actionSet [⟨8, []⟩, ⟨8, []⟩]) } (Ex.ci Ex.tc1 Ex.ac1)
    = .ok [] :=
  C10_unconstrained (ti := Ex.get ⟨0, [], none, {}, [], []⟩ (parseTableInfo Ex.sys Ex.freeTable))
    (by decide +kernel) (by decide +kernel) rfl (by
      intro a ha
      have : a = ⟨8, []⟩ := by simpa using ha
      subst this
      exact ⟨Ex.get ⟨0, [], none, {}, [], []⟩ (parseActionInfo Ex.sys Ex.freeAction), by decide +kernel,
        by decide +kernel⟩)

/-! ### C11: every constraint attached to an entry is checked -/

/-- C11, componentwise: the verdict on an entry is 'satisfied' exactly if it is for the entry without its
action and for every action on its own, whether or not these carry constraints. -/
theorem C11_componentwise {ci : ConstraintInfo} {entry : RtEntry} {ti : TableInfo}
    (hf : lookup entry.tableId ci.tables = some ti) :
    reasonEntryViolatesConstraint entry ci = .ok [] ↔
      reasonEntryViolatesConstraint { entry with action := none } ci = .ok [] ∧
      ∃ as, actionsOf entry.action = some as ∧
        ∀ a ∈ as, reasonEntryViolatesConstraint { entry with action := some (.action a) } ci = .ok [] := by
  have h0 : reasonEntryViolatesConstraint { entry with action := none } ci = tableReason entry ti :=
    reason_noAction (entry := { entry with action := none }) hf rfl
  have ha : ∀ a, reasonEntryViolatesConstraint { entry with action := some (.action a) } ci = .ok [] ↔
      tableReason entry ti = .ok [] ∧ reasonAction a ci = .ok [] := by
    intro a
    rw [reason_nil (entry := { entry with action := some (.action a) }) (ti := ti) hf, reasonTableAction_nil]
    constructor
    · rintro ⟨h1, as, has, h2⟩
      cases has
      exact ⟨h1, h2 a (by simp)⟩
    · rintro ⟨h1, h2⟩
      exact ⟨h1, [a], rfl, by simpa using h2⟩
  rw [reason_nil hf, reasonTableAction_nil, h0]
  constructor
  · rintro ⟨h1, as, has, h2⟩
    exact ⟨h1, as, has, fun a m => (ha a).2 ⟨h1, h2 a m⟩⟩
  · rintro ⟨h1, as, has, h2⟩
    exact ⟨h1, as, has, fun a m => ((ha a).1 (h2 a m)).2⟩

/-- C11, verdict: the entry is reported as satisfying exactly if the table constraint holds and the
constraint of every action holds. Full statement: without `hn` and `AttrFree`, which fails as for C01 and
C02. -/
theorem C11_all_checked_partial {ci : ConstraintInfo} {entry : RtEntry} {ti : TableInfo} {s : SExpr}
    {ρ : Env} {as : List RtAction} (h : TableCase ci entry ti s ρ)
    (hn : NoOrderedExact (sigOf (.table ti.keysByName)) s) (has : actionsOf entry.action = some as)
    (ais : RtAction → ActionInfo) (ss : RtAction → SExpr) (ρs : RtAction → Env)
    (hacts : ∀ a ∈ as, ActionCase ci a (ais a) (ss a) (ρs a) ∧ AttrFree (ss a)) :
    reasonEntryViolatesConstraint entry ci = .ok [] ↔
      Holds (sigOf (.table ti.keysByName)) ρ s ∧
      ∀ a ∈ as, Holds (sigOf (.action (ais a).paramsByName)) (ρs a) (ss a) := by
  rw [reason_nil h.found, h.iff hn, reasonTableAction_nil]
  constructor
  · rintro ⟨h1, as', has', h2⟩
    rw [has] at has'; cases has'
    exact ⟨h1, fun a ha => ((hacts a ha).1.iff (hacts a ha).2).1 (h2 a ha)⟩
  · rintro ⟨h1, h2⟩
    exact ⟨h1, as, has, fun a ha => ((hacts a ha).1.iff (hacts a ha).2).2 (h2 a ha)⟩

example : reasonEntryViolatesConstraint { Ex.entry 5 with action := some (.actionSet [Ex.action 1 2, Ex.action 3 2]) }
      (Ex.ci Ex.tc1 Ex.ac1) = reasonAction (Ex.action 3 2) (Ex.ci Ex.tc1 Ex.ac1) ∧
    reasonAction (Ex.action 3 2) (Ex.ci Ex.tc1 Ex.ac1) ≠ .ok [] := by decide +kernel

end P4C
