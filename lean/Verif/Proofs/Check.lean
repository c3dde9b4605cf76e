import Verif.Proofs.Entry2

/-
The checking procedure in terms of evaluation without cache.
-/

namespace P4C

open Spec

theorem cacheOk_empty (ctx : EvalCtx) (root : Expr) : CacheOk ctx root (some []) := by
  intro m hm p b hl
  cases hm
  simp [lookup] at hl

theorem evalToBoolC_root (ctx : EvalCtx) (e : Expr) :
    (∀ b, evalBoolP ctx e = .ok b →
      ∃ m', evalToBoolC ctx e [] [] = .ok (b, m') ∧ CacheOk ctx e (some m')) ∧
    (∀ x, evalBoolP ctx e = .err x → evalToBoolC ctx e [] [] = .err x) ∧
    (evalBoolP ctx e = .crash → evalToBoolC ctx e [] [] = .crash) ∧
    (evalBoolP ctx e = .oof → evalToBoolC ctx e [] [] = .oof) :=
  evalToBoolC_agrees .root (cacheOk_empty ctx e)

theorem violationText_ne_nil (vals : CtxVals) (b : Bool) (r : Str) (vs : List Str) :
    violationText vals b r vs ≠ [] := by
  unfold violationText; split <;> simp

theorem explainViolation_ne_nil {ctx : EvalCtx} {e : Expr} {ec : EvalCache} {msg : Str}
    (h : explainViolation ctx e ec = .ok msg) : msg ≠ [] := by
  unfold explainViolation at h
  simp only [Res.bind_eq_ok] at h
  obtain ⟨_, _, _, _, _, _, h⟩ := h
  cases h
  exact violationText_ne_nil _ _ _ _

theorem checkConstraint_satisfied {c : Expr} {parse : Res EvalCtx} :
    checkConstraint c parse = .ok [] ↔
      c.ty = .boolean ∧ ∃ ctx, parse = .ok ctx ∧ evalBoolP ctx c = .ok true := by
  unfold checkConstraint
  split
  · rename_i h; simp [h]
  · rename_i h
    simp only [ne_eq, Decidable.not_not] at h
    simp only [h, true_and, Res.bind_eq_ok]
    constructor
    · rintro ⟨ctx, hp, ⟨b, ec⟩, hev, hk⟩
      refine ⟨ctx, hp, ?_⟩
      obtain ⟨h1, h2, h3, h4⟩ := evalToBoolC_root ctx c
      cases hb : evalBoolP ctx c with
      | ok b' =>
        obtain ⟨m, hm, _⟩ := h1 _ hb
        rw [hm] at hev
        cases hev
        cases b with
        | true => rfl
        | false => exact absurd rfl (explainViolation_ne_nil hk)
      | err x => rw [h2 _ hb] at hev; cases hev
      | crash => rw [h3 hb] at hev; cases hev
      | oof => rw [h4 hb] at hev; cases hev
    · rintro ⟨ctx, hp, hb⟩
      obtain ⟨m, hm, _⟩ := (evalToBoolC_root ctx c).1 _ hb
      exact ⟨ctx, hp, (true, m), hm, rfl⟩

theorem checkConstraint_violated {c : Expr} {parse : Res EvalCtx} {msg : Str} (hne : msg ≠ []) :
    checkConstraint c parse = .ok msg →
      c.ty = .boolean ∧ ∃ ctx m, parse = .ok ctx ∧ evalBoolP ctx c = .ok false ∧
        CacheOk ctx c (some m) ∧ explainViolation ctx c m = .ok msg := by
  unfold checkConstraint
  split
  · intro h; cases h
  · rename_i h
    simp only [ne_eq, Decidable.not_not] at h
    simp only [h, true_and, Res.bind_eq_ok]
    rintro ⟨ctx, hp, ⟨b, ec⟩, hev, hk⟩
    obtain ⟨h1, h2, h3, h4⟩ := evalToBoolC_root ctx c
    cases hb : evalBoolP ctx c with
    | ok b' =>
      obtain ⟨m, hm, hc⟩ := h1 _ hb
      rw [hm] at hev
      cases hev
      cases b with
      | true => cases hk; exact absurd rfl hne
      | false => exact ⟨ctx, _, hp, hb, hc, hk⟩
    | err x => rw [h2 _ hb] at hev; cases hev
    | crash => rw [h3 hb] at hev; cases hev
    | oof => rw [h4 hb] at hev; cases hev

/-- Conversely, a false constraint is reported as violated, provided that the explanation succeeds. -/
theorem checkConstraint_false {c : Expr} {ctx : EvalCtx} (ht : c.ty = .boolean)
    (hb : evalBoolP ctx c = .ok false) :
    ∃ m, CacheOk ctx c (some m) ∧ checkConstraint c (.ok ctx) = explainViolation ctx c m := by
  obtain ⟨m, hm, hc⟩ := (evalToBoolC_root ctx c).1 _ hb
  refine ⟨m, hc, ?_⟩
  unfold checkConstraint
  simp [ht, hm]

theorem evalBoolP_ok {ctx : EvalCtx} {e : Expr} {b : Bool} :
    evalBoolP ctx e = .ok b ↔ evalP ctx e = .ok (.bool b) := toBoolP_ok

/-- The checking procedure against the meaning of the constraint. -/
theorem check_means {src : ConstraintSource} {sc : Scope} {ctx : EvalCtx} {e e' : Expr} {s : SExpr}
    (hc : Consistent (sigOf sc) (envOf ctx)) (hw : WidthsOk (sigOf sc))
    (hp : AttrFree s ∨ (envOf ctx).priority ≠ none)
    (h : inferAndCheck src sc e = .ok e') (ha : abs e = some s) :
    (evalBoolP ctx e' = .ok true → Holds (sigOf sc) (envOf ctx) s) ∧
    (evalBoolP ctx e' = .ok false → Fails (sigOf sc) (envOf ctx) s) ∧
    (NoOrderedExact (sigOf sc) s → e'.ty = .boolean → ∃ b, evalBoolP ctx e' = .ok b) := by
  obtain ⟨v, hm, hsh, hs, hg⟩ := eval_means hc hw hp h ha
  refine ⟨?_, ?_, ?_⟩
  · intro hb
    rw [evalBoolP_ok] at hb
    have := evalP_shape hb
    cases hs _ hb
    generalize e'.ty = t at *
    cases this
    exact hm
  · intro hb
    rw [evalBoolP_ok] at hb
    have := evalP_shape hb
    cases hs _ hb
    generalize e'.ty = t at *
    cases this
    exact hm
  · intro hno ht
    rw [ht] at hsh
    have := hg hno
    cases hsh with | bool b => exact ⟨b, evalBoolP_ok.2 this⟩

end P4C
