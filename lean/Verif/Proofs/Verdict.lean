import Verif.Proofs.Check
import Verif.Proofs.Info
import Verif.Spec.Verdict

/-
From the evaluation of constraints to verdicts on entries.
-/

namespace P4C

open Spec

theorem holds_not_fails {Γ : Sig} {ρ : Env} {s : SExpr} (h : Holds Γ ρ s) : ¬ Fails Γ ρ s := fun h' => by
  have := (means_unique h h').2
  cases this

/-- What checking the table constraint amounts to. -/
theorem Spec.TableCase.check {ci : ConstraintInfo} {entry : RtEntry} {ti : TableInfo} {s : SExpr} {ρ : Env}
    (h : TableCase ci entry ti s ρ) :
    ∃ c ctx, ti.constraint = some c ∧ c.ty = .boolean ∧ parseTableEntry entry ti = .ok ctx ∧ envOf ctx = ρ ∧
      (evalBoolP ctx c = .ok true → Holds (sigOf (.table ti.keysByName)) ρ s) ∧
      (evalBoolP ctx c = .ok false → Fails (sigOf (.table ti.keysByName)) ρ s) ∧
      (NoOrderedExact (sigOf (.table ti.keysByName)) s → ∃ b, evalBoolP ctx c = .ok b) := by
  obtain ⟨c, hc, src, e, hi, ha⟩ := h.checked
  obtain ⟨ctx, hctx⟩ := (parseTableEntry_iff h.wf entry).2 h.ok
  obtain ⟨henv, _, _, hv, _⟩ := parseTableEntry_env h.wf hctx
  have hρ : envOf ctx = ρ := entryEnv_unique henv h.env
  have ht : c.ty = .boolean := hasTy_unique (infer_sound hi ha) h.boolean
  have hcons := entry_consistent h.wf h.ok henv
  have hp : (envOf ctx).priority ≠ none := by rw [henv.priority]; simp
  obtain ⟨h1, h2, h3⟩ := check_means hcons h.widths (.inr hp) hi ha
  rw [hρ] at h1 h2
  exact ⟨c, ctx, hc, ht, hctx, hρ, h1, h2, fun hn => h3 hn ht⟩

/-- What checking the action constraint amounts to. -/
theorem Spec.ActionCase.check {ci : ConstraintInfo} {a : RtAction} {ai : ActionInfo} {s : SExpr} {ρ : Env}
    (h : ActionCase ci a ai s ρ) (hs : AttrFree s) :
    ∃ c ctx, ai.constraint = some c ∧ c.ty = .boolean ∧ parseAction a ai = .ok ctx ∧ envOf ctx = ρ ∧
      (evalBoolP ctx c = .ok true → Holds (sigOf (.action ai.paramsByName)) ρ s) ∧
      (evalBoolP ctx c = .ok false → Fails (sigOf (.action ai.paramsByName)) ρ s) ∧
      (NoOrderedExact (sigOf (.action ai.paramsByName)) s → ∃ b, evalBoolP ctx c = .ok b) := by
  obtain ⟨c, hc, src, e, hi, ha⟩ := h.checked
  obtain ⟨ctx, hctx⟩ := (parseAction_iff h.wf a).2 h.ok
  obtain ⟨henv, _, _, hv, _⟩ := parseAction_env h.wf hctx
  have hρ : envOf ctx = ρ := actionEnv_unique henv h.env
  have ht : c.ty = .boolean := hasTy_unique (infer_sound hi ha) h.boolean
  have hcons := action_consistent h.wf h.complete henv h.bits
  obtain ⟨h1, h2, h3⟩ := check_means hcons h.widths (.inl hs) hi ha
  rw [hρ] at h1 h2
  exact ⟨c, ctx, hc, ht, hctx, hρ, h1, h2, fun hn => h3 hn ht⟩

/-- In an action there are no `exact` types. -/
theorem action_noOrderedExact {ai : ActionInfo}
    (hb : ∀ n pi, (n, pi) ∈ ai.paramsByName → Supported pi.ty → ∃ w, pi.ty = .fixedUnsigned w) (s : SExpr) :
    NoOrderedExact (sigOf (.action ai.paramsByName)) s := by
  have key : ∀ {s : SExpr} {t : Ty}, HasTy (sigOf (.action ai.paramsByName)) s t → ∀ w, t ≠ .exact w := by
    intro s t h
    cases h with
    | bool | int | priority | not | neg | conn | cmp => intro w hw; cases hw
    | key hk => simp [sigOf] at hk
    | param hp hs =>
      intro w hw
      simp only [sigOf, Option.map_eq_some_iff] at hp
      obtain ⟨pi, hl, rfl⟩ := hp
      obtain ⟨w', hw'⟩ := hb _ pi (lookup_some_mem hl) hs
      rw [hw] at hw'; cases hw'
    | field _ hf =>
      intro w hw
      subst hw
      cases hf
  induction s with
  | not e ih => exact ih
  | neg e ih => exact ih
  | field e f ih => exact ih
  | conn o l r ihl ihr => exact ⟨ihl, ihr⟩
  | cmp o l r ihl ihr => exact ⟨ihl, ihr, fun _ w => ⟨fun h => key h w rfl, fun h => key h w rfl⟩⟩
  | _ => trivial

theorem reasonActionSet_nil {ci : ConstraintInfo} {as : List RtAction} :
    reasonActionSet ci as = .ok [] ↔ ∀ a ∈ as, reasonAction a ci = .ok [] := by
  induction as with
  | nil => simp [reasonActionSet]
  | cons a as ih =>
    rw [reasonActionSet, Res.bind_eq_ok, List.forall_mem_cons, ← ih]
    constructor
    · rintro ⟨r, hr, h⟩
      by_cases hn : r = []
      · subst hn; exact ⟨hr, by simpa using h⟩
      · simp [hn] at h
    · rintro ⟨h1, h2⟩
      exact ⟨[], h1, by simpa using h2⟩

theorem reasonTableAction_nil {ci : ConstraintInfo} {ta : Option TableAction} :
    reasonTableAction ci ta = .ok [] ↔ ∃ as, actionsOf ta = some as ∧ ∀ a ∈ as, reasonAction a ci = .ok [] := by
  cases ta with
  | none => simp [reasonTableAction, actionsOf]
  | some ta => cases ta <;> simp [reasonTableAction, actionsOf, reasonActionSet_nil]

/-- The table part of the check. -/
def tableReason (entry : RtEntry) (ti : TableInfo) : Res Str :=
  match ti.constraint with
  | none => .ok []
  | some c => checkConstraint c (parseTableEntry entry ti)

theorem reason_found {entry : RtEntry} {ci : ConstraintInfo} {ti : TableInfo}
    (h : lookup entry.tableId ci.tables = some ti) :
    reasonEntryViolatesConstraint entry ci =
      (tableReason entry ti >>= fun r => if r ≠ [] then .ok r else reasonTableAction ci entry.action) := by
  unfold reasonEntryViolatesConstraint getTableInfo tableReason
  rw [h]
  dsimp only
  cases ti.constraint <;> rfl

theorem reason_nil {entry : RtEntry} {ci : ConstraintInfo} {ti : TableInfo}
    (h : lookup entry.tableId ci.tables = some ti) :
    reasonEntryViolatesConstraint entry ci = .ok [] ↔
      tableReason entry ti = .ok [] ∧ reasonTableAction ci entry.action = .ok [] := by
  rw [reason_found h, Res.bind_eq_ok]
  constructor
  · rintro ⟨r, hr, h⟩
    by_cases hn : r = []
    · subst hn; exact ⟨hr, by simpa using h⟩
    · simp [hn] at h
  · rintro ⟨h1, h2⟩
    exact ⟨[], h1, by simpa using h2⟩

theorem reason_noAction {entry : RtEntry} {ci : ConstraintInfo} {ti : TableInfo}
    (h : lookup entry.tableId ci.tables = some ti) (ha : entry.action = none) :
    reasonEntryViolatesConstraint entry ci = tableReason entry ti := by
  rw [reason_found h, ha]
  cases tableReason entry ti with
  | ok r =>
    show (if r ≠ [] then _ else _) = _
    by_cases hr : r = []
    · subst hr; rfl
    · simp [hr]
  | _ => rfl

theorem Spec.TableCase.satisfied {ci : ConstraintInfo} {entry : RtEntry} {ti : TableInfo} {s : SExpr}
    {ρ : Env} (h : TableCase ci entry ti s ρ) (hr : tableReason entry ti = .ok []) :
    Holds (sigOf (.table ti.keysByName)) ρ s := by
  obtain ⟨c, ctx, hc, ht, hp, _, h1, _, _⟩ := h.check
  rw [tableReason, hc] at hr
  obtain ⟨_, ctx', hp', he⟩ := checkConstraint_satisfied.1 hr
  rw [hp] at hp'; cases hp'
  exact h1 he

theorem Spec.TableCase.violated {ci : ConstraintInfo} {entry : RtEntry} {ti : TableInfo} {s : SExpr}
    {ρ : Env} {msg : Str} (h : TableCase ci entry ti s ρ) (hr : tableReason entry ti = .ok msg)
    (hne : msg ≠ []) : Fails (sigOf (.table ti.keysByName)) ρ s := by
  obtain ⟨c, ctx, hc, ht, hp, _, _, h2, _⟩ := h.check
  rw [tableReason, hc] at hr
  obtain ⟨_, ctx', m, hp', he, _⟩ := checkConstraint_violated hne hr
  rw [hp] at hp'; cases hp'
  exact h2 he

theorem Spec.TableCase.iff {ci : ConstraintInfo} {entry : RtEntry} {ti : TableInfo} {s : SExpr} {ρ : Env}
    (h : TableCase ci entry ti s ρ) (hn : NoOrderedExact (sigOf (.table ti.keysByName)) s) :
    tableReason entry ti = .ok [] ↔ Holds (sigOf (.table ti.keysByName)) ρ s := by
  refine ⟨h.satisfied, fun hh => ?_⟩
  obtain ⟨c, ctx, hc, ht, hp, _, _, h2, h3⟩ := h.check
  obtain ⟨b, hb⟩ := h3 hn
  cases b with
  | false => exact absurd (h2 hb) (holds_not_fails hh)
  | true => rw [tableReason, hc]; exact checkConstraint_satisfied.2 ⟨ht, ctx, hp, hb⟩

theorem reasonAction_found {ci : ConstraintInfo} {a : RtAction} {ai : ActionInfo} {c : Expr}
    (h : lookup a.actionId ci.actions = some ai) (hc : ai.constraint = some c) :
    reasonAction a ci = checkConstraint c (parseAction a ai) := by
  unfold reasonAction getActionInfo
  rw [h]; dsimp only; rw [hc]

theorem Spec.ActionCase.satisfied {ci : ConstraintInfo} {a : RtAction} {ai : ActionInfo} {s : SExpr}
    {ρ : Env} (h : ActionCase ci a ai s ρ) (hs : AttrFree s) (hr : reasonAction a ci = .ok []) :
    Holds (sigOf (.action ai.paramsByName)) ρ s := by
  obtain ⟨c, ctx, hc, ht, hp, _, h1, _, _⟩ := h.check hs
  rw [reasonAction_found h.found hc] at hr
  obtain ⟨_, ctx', hp', he⟩ := checkConstraint_satisfied.1 hr
  rw [hp] at hp'; cases hp'
  exact h1 he

theorem Spec.ActionCase.violated {ci : ConstraintInfo} {a : RtAction} {ai : ActionInfo} {s : SExpr}
    {ρ : Env} {msg : Str} (h : ActionCase ci a ai s ρ) (hs : AttrFree s)
    (hr : reasonAction a ci = .ok msg) (hne : msg ≠ []) :
    Fails (sigOf (.action ai.paramsByName)) ρ s := by
  obtain ⟨c, ctx, hc, ht, hp, _, _, h2, _⟩ := h.check hs
  rw [reasonAction_found h.found hc] at hr
  obtain ⟨_, ctx', m, hp', he, _⟩ := checkConstraint_violated hne hr
  rw [hp] at hp'; cases hp'
  exact h2 he

theorem Spec.ActionCase.iff {ci : ConstraintInfo} {a : RtAction} {ai : ActionInfo} {s : SExpr} {ρ : Env}
    (h : ActionCase ci a ai s ρ) (hs : AttrFree s) :
    reasonAction a ci = .ok [] ↔ Holds (sigOf (.action ai.paramsByName)) ρ s := by
  refine ⟨h.satisfied hs, fun hh => ?_⟩
  obtain ⟨c, ctx, hc, ht, hp, _, _, h2, h3⟩ := h.check hs
  obtain ⟨b, hb⟩ := h3 (action_noOrderedExact h.bits s)
  cases b with
  | false => exact absurd (h2 hb) (holds_not_fails hh)
  | true => rw [reasonAction_found h.found hc]; exact checkConstraint_satisfied.2 ⟨ht, ctx, hp, hb⟩

/-! ### Building cases -/

/-- Non-negative widths, decidably. -/
def nonNegB : Ty → Bool
  | .fixedUnsigned w | .exact w | .ternary w | .lpm w | .range w | .optionalMatch w => decide (0 ≤ w)
  | _ => true

theorem nonNegB_iff {t : Ty} : nonNegB t = true ↔ NonNeg t := by
  cases t <;> simp [nonNegB, NonNeg]

theorem widthsOk_table {ks : List (Str × VarInfo)} (h : ks.all (fun k => nonNegB k.2.ty) = true) :
    WidthsOk (sigOf (.table ks)) := by
  refine ⟨fun n t ht => ?_, fun n t ht => by simp [sigOf] at ht⟩
  simp only [sigOf, Option.map_eq_some_iff] at ht
  obtain ⟨ki, hl, rfl⟩ := ht
  exact nonNegB_iff.1 (List.all_eq_true.1 h _ (lookup_some_mem hl))

theorem widthsOk_action {ks : List (Str × VarInfo)} (h : ks.all (fun k => nonNegB k.2.ty) = true) :
    WidthsOk (sigOf (.action ks)) := by
  refine ⟨fun n t ht => by simp [sigOf] at ht, fun n t ht => ?_⟩
  simp only [sigOf, Option.map_eq_some_iff] at ht
  obtain ⟨ki, hl, rfl⟩ := ht
  exact nonNegB_iff.1 (List.all_eq_true.1 h _ (lookup_some_mem hl))

theorem tableCase_of {sys : Sys} {p : P4Info} {ci : ConstraintInfo} {entry : RtEntry} {ti : TableInfo}
    {src : ConstraintSource} {e c : Expr} {s : SExpr} {ctx : EvalCtx} (hci : p4ToConstraintInfo sys p = .ok ci)
    (hf : lookup entry.tableId ci.tables = some ti) (hc : ti.constraint = some c)
    (hi : inferAndCheck src (.table ti.keysByName) e = .ok c) (ha : abs e = some s) (hb : c.ty = .boolean)
    (hw : ti.keysByName.all (fun k => nonNegB k.2.ty) = true) (hp : parseTableEntry entry ti = .ok ctx) :
    TableCase ci entry ti s (envOf ctx) := by
  obtain ⟨d, _, _, hd⟩ := (table_of_info hci).1 hf
  have hwf := parseTableInfo_wf hd
  exact ⟨hf, hwf, widthsOk_table hw, ⟨c, hc, src, e, hi, ha⟩, hb ▸ infer_sound hi ha,
    (parseTableEntry_iff hwf entry).1 ⟨ctx, hp⟩, (parseTableEntry_env hwf hp).1⟩

theorem actionComplete_of {ai : ActionInfo} {a : RtAction}
    (h : ai.paramsById.all (fun p => hasKey p.1 a.params) = true) : ActionComplete ai a := by
  intro id pi hm
  exact hasKey_iff.1 (List.all_eq_true.1 h _ hm)

theorem actionCase_of {sys : Sys} {p : P4Info} {ci : ConstraintInfo} {a : RtAction} {ai : ActionInfo}
    {src : ConstraintSource} {e c : Expr} {s : SExpr} {ctx : EvalCtx} (hci : p4ToConstraintInfo sys p = .ok ci)
    (hf : lookup a.actionId ci.actions = some ai) (hc : ai.constraint = some c)
    (hi : inferAndCheck src (.action ai.paramsByName) e = .ok c) (ha : abs e = some s) (hb : c.ty = .boolean)
    (hw : ai.paramsByName.all (fun k => nonNegB k.2.ty) = true) (hp : parseAction a ai = .ok ctx)
    (hcomp : ai.paramsById.all (fun p => hasKey p.1 a.params) = true) :
    ActionCase ci a ai s (envOf ctx) := by
  obtain ⟨d, _, _, hd⟩ := (action_of_info hci).1 hf
  have hwf := parseActionInfo_wf hd
  exact ⟨hf, hwf, widthsOk_action hw, parseActionInfo_bits hd, ⟨c, hc, src, e, hi, ha⟩, hb ▸ infer_sound hi ha,
    (parseAction_iff hwf a).1 ⟨ctx, hp⟩, actionComplete_of hcomp, (parseAction_env hwf hp).1⟩

end P4C
