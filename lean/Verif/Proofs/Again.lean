import Verif.Proofs.Elab
import Verif.Spec.Quote

/-
Checking checked expressions again.
-/

namespace P4C

open Spec

theorem cast_shape (e : Expr) (t : Ty) : castTransitivelyTo e t = e ∨ ∃ i x, castTransitivelyTo e t = .typeCast i x := by
  unfold castTransitivelyTo
  dsimp only
  split
  · exact .inr ⟨_, _, rfl⟩
  · unfold castIntStep
    split
    · exact .inr ⟨_, _, rfl⟩
    · exact .inl rfl

/-- Where checking a checked expression fails: at a cast. -/
theorem infer_again_cast {src src' : ConstraintSource} {sc : Scope} {e e' : Expr}
    (h : inferAndCheck src sc e = .ok e') (hc : ¬ CastFree e') :
    ∃ i x, NodeOf (.typeCast i x) e' ∧ inferAndCheck src' sc e' = quotingError src' i.start i.stop := by
  have bind : ∀ {a b : Loc} {f : Expr → Res Expr} {r : Res Expr}, r = quotingError src' a b → r >>= f = quotingError src' a b := by
    intro a b f r hr
    subst hr
    unfold quotingError
    cases quoteSub src' a b <;> rfl
  induction e generalizing e' with
  | notSet i => exact (quotingError_ne_ok.1 h).elim
  | boolConst i b => cases h; exact (hc trivial).elim
  | intConst i s => cases h; exact (hc trivial).elim
  | key i n =>
    obtain ⟨t, ht, hs, rfl⟩ := infer_key h
    exact (hc trivial).elim
  | actionParam i n =>
    obtain ⟨t, ht, hs, rfl⟩ := infer_param h
    exact (hc trivial).elim
  | boolNeg i e ih =>
    obtain ⟨x, hx, ht, rfl⟩ := infer_boolNeg.1 h
    obtain ⟨j, y, h1, h2⟩ := ih hx hc
    exact ⟨j, y, .boolNeg h1, by rw [inferAndCheck]; exact bind h2⟩
  | arithNeg i e ih =>
    obtain ⟨x, hx, ht, rfl⟩ := infer_arithNeg.1 h
    obtain ⟨j, y, h1, h2⟩ := ih hx hc
    exact ⟨j, y, .arithNeg h1, by rw [inferAndCheck]; exact bind h2⟩
  | typeCast i e => exact (quotingError_ne_ok.1 h).elim
  | bin i op l r ihl ihr =>
    -- Both operands, as they are in the result.
    have step : ∀ {k : Info} {l' r' : Expr}, ¬ (CastFree l' ∧ CastFree r') →
        (¬ CastFree l' → ∃ i x, NodeOf (.typeCast i x) l' ∧ inferAndCheck src' sc l' = quotingError src' i.start i.stop) →
        (CastFree l' → inferAndCheck src' sc l' = .ok l') →
        (¬ CastFree r' → ∃ i x, NodeOf (.typeCast i x) r' ∧ inferAndCheck src' sc r' = quotingError src' i.start i.stop) →
        ∃ i x, NodeOf (.typeCast i x) (.bin k op l' r') ∧ inferAndCheck src' sc (.bin k op l' r') = quotingError src' i.start i.stop := by
      intro k l' r' hn hl hl' hr
      by_cases hcl : CastFree l'
      · obtain ⟨j, y, h1, h2⟩ := hr (fun hcr => hn ⟨hcl, hcr⟩)
        refine ⟨j, y, .right h1, ?_⟩
        rw [inferAndCheck, hl' hcl]
        show (inferAndCheck src' sc r' >>= _) = _
        exact bind h2
      · obtain ⟨j, y, h1, h2⟩ := hl hcl
        refine ⟨j, y, .left h1, ?_⟩
        rw [inferAndCheck]
        exact bind h2
    have operand : ∀ {l l' : Expr} (t : Ty), inferAndCheck src sc l = .ok l' →
        (¬ CastFree l' → ∃ i x, NodeOf (.typeCast i x) l' ∧ inferAndCheck src' sc l' = quotingError src' i.start i.stop) →
        (¬ CastFree (castTransitivelyTo l' t) → ∃ i x, NodeOf (.typeCast i x) (castTransitivelyTo l' t) ∧
          inferAndCheck src' sc (castTransitivelyTo l' t) = quotingError src' i.start i.stop) ∧
        (CastFree (castTransitivelyTo l' t) → inferAndCheck src' sc (castTransitivelyTo l' t) = .ok (castTransitivelyTo l' t)) := by
      intro l l' t hl ih
      rcases cast_shape l' t with e | ⟨j, y, e⟩ <;> rw [e]
      · exact ⟨ih, infer_again hl⟩
      · exact ⟨fun _ => ⟨j, y, .self _, rfl⟩, nofun⟩
    obtain ⟨l', r', hl, hr, ⟨h1, h2, h3, rfl⟩ | ⟨h1, t, h2, h3, rfl⟩⟩ := infer_bin.1 h
    · exact step hc (ihl hl) (infer_again hl) (ihr hr)
    · obtain ⟨a, b⟩ := operand t hl (ihl hl)
      obtain ⟨c, d⟩ := operand t hr (ihr hr)
      exact step hc a b c
  | field i e f ih =>
    obtain ⟨x, t, hx, hf, rfl⟩ := infer_field.1 h
    obtain ⟨j, y, h1, h2⟩ := ih hx hc
    exact ⟨j, y, .field h1, by rw [inferAndCheck]; exact bind h2⟩
  | attr i n => obtain ⟨rfl, rfl⟩ := infer_attr h; exact (hc trivial).elim

end P4C
