import Verif.Proofs.Verdict
import Verif.Proofs.Explained

/-!
Constraints of actions may mention the priority, which actions do not have. Where the value of such a constraint is found
all the same, it is the value for every priority.
-/

namespace P4C
open Spec

/-- Where all names have values, all expressions have. -/
theorem hasTy_means {Γ : Sig} {ρ : Env} (hc : Consistent Γ ρ) {p : Int} (hp : ρ.priority = some p) {s : SExpr} {t : Ty}
    (h : HasTy Γ s t) : ∃ v, Means Γ ρ s t v ∧ HasShape t v := by
  induction h with
  | bool b => exact ⟨_, .bool b, .bool b⟩
  | int z => exact ⟨_, .int z, .int z⟩
  | key h1 h2 =>
    obtain ⟨v, hv, hs⟩ := hc.key _ _ h1 h2
    exact ⟨v, .key h1 hv, hs⟩
  | param h1 h2 =>
    obtain ⟨z, hz, hs⟩ := hc.param _ _ h1 h2
    exact ⟨_, .param h1 hz, hs⟩
  | priority => exact ⟨_, .priority hp, .int p⟩
  | not _ ih =>
    obtain ⟨v, hm, hs⟩ := ih
    cases hs with | bool b => exact ⟨_, .not hm, .bool _⟩
  | neg _ ih =>
    obtain ⟨v, hm, hs⟩ := ih
    cases hs with | int b => exact ⟨_, .neg hm, .int _⟩
  | conn _ _ ih1 ih2 =>
    obtain ⟨v, hm, hs⟩ := ih1
    obtain ⟨w, hm', hs'⟩ := ih2
    cases hs with | bool a =>
    cases hs' with | bool b => exact ⟨_, .conn hm hm', .bool _⟩
  | cmp _ _ hj ho ih1 ih2 =>
    obtain ⟨v, hm, hs⟩ := ih1
    obtain ⟨w, hm', hs'⟩ := ih2
    obtain ⟨c, hcmp⟩ := compare_exists ho (convert_shape hj.1 hs) (convert_shape hj.2.1 hs')
    exact ⟨_, .cmp hm hm' hj hcmp, .bool _⟩
  | field _ hf ih =>
    obtain ⟨v, hm, hs⟩ := ih
    obtain ⟨z, hz, _, hzs⟩ := fieldVal_exists hf hs
    exact ⟨_, .field hm hf hz, hzs⟩

/-- A value that did not need the priority is the value whatever the priority. -/
theorem evaluates_priority {Γ : Sig} {ρ : Env} (h0 : ρ.priority = none) (p : Int) {s : SExpr} {t : Ty} {v : Value}
    (h : Evaluates Γ ρ s t v) : Evaluates Γ { ρ with priority := some p } s t v := by
  induction h with
  | bool b => exact .bool b
  | int z => exact .int z
  | key h1 h2 => exact .key h1 h2
  | param h1 h2 => exact .param h1 h2
  | priority h1 => rw [h0] at h1; cases h1
  | not _ ih => exact .not ih
  | neg _ ih => exact .neg ih
  | decided _ h1 ih => exact .decided ih h1
  | conn _ _ ih1 ih2 => exact .conn ih1 ih2
  | cmp _ _ h1 h2 h3 ih1 ih2 => exact .cmp ih1 ih2 h1 h2 h3
  | field _ h1 h2 ih => exact .field ih h1 h2

theorem evaluates_anyPriority {Γ : Sig} {ρ : Env} (hc : Consistent Γ ρ) (h0 : ρ.priority = none) (p : Int) {s : SExpr} {b : Bool}
    (ht : HasTy Γ s .boolean) (h : Evaluates Γ ρ s .boolean (.bool b)) :
    Means Γ { ρ with priority := some p } s .boolean (.bool b) := by
  obtain ⟨v, hm, _⟩ := hasTy_means (ρ := { ρ with priority := some p }) ⟨hc.key, hc.param⟩ rfl ht
  rw [(evaluates_means (evaluates_priority h0 p h) hm).2]
  exact hm

theorem Spec.ActionCase.anyPriority {ci : ConstraintInfo} {a : RtAction} {ai : ActionInfo} {s : SExpr} {ρ : Env}
    (h : ActionCase ci a ai s ρ) (p : Int) :
    ∃ c ctx, ai.constraint = some c ∧ parseAction a ai = .ok ctx ∧
      ∀ b, evalBoolP ctx c = .ok b →
        Means (sigOf (.action ai.paramsByName)) { ρ with priority := some p } s .boolean (.bool b) := by
  obtain ⟨c, hc, src, e, hi, ha⟩ := h.checked
  obtain ⟨ctx, hctx⟩ := (parseAction_iff h.wf a).2 h.ok
  obtain ⟨henv, _, ps, hv, _⟩ := parseAction_env h.wf hctx
  have hρ : envOf ctx = ρ := actionEnv_unique henv h.env
  have hcons := action_consistent h.wf h.complete h.env h.bits
  have ht : c.ty = .boolean := hasTy_unique (infer_sound hi ha) h.boolean
  refine ⟨c, ctx, hc, hctx, fun b hb => evaluates_anyPriority hcons h.env.priority p h.boolean ?_⟩
  subst hρ
  refine (evalBoolP_evaluates (name := ai.name) (sc := .action ai.paramsByName) ⟨hcons.key, fun n t z h1 h2 h3 => ?_⟩ h.widths (.inl ?_) hi ha ht b).1 hb
  · obtain ⟨z', h4, h5⟩ := hcons.param n t h1 h2
    rw [h3] at h4; cases h4; exact h5
  · exact ⟨_, hv, rfl⟩

end P4C
