import Verif.Proofs.Typing
import Verif.Proofs.Check
import Verif.Spec.Elab

/-
Type checking annotates and inserts casts.
-/

namespace P4C

open Spec

theorem strip_wrap (e : Expr) (t : Ty) : strip (wrapWithCast e t) = strip e := rfl

theorem strip_castIntStep (e : Expr) (t : Ty) : strip (castIntStep e t) = strip e := by
  unfold castIntStep; split <;> rfl

theorem strip_cast (e : Expr) (t : Ty) : strip (castTransitivelyTo e t) = strip e := by
  unfold castTransitivelyTo
  dsimp only
  split
  · rw [strip_wrap, strip_castIntStep]
  · rw [strip_castIntStep]

theorem supported_bit (w : Int) : Supported (.fixedUnsigned w) := ⟨nofun, nofun⟩

theorem castStep_of_above {a b : Ty} (h : strictlyAbove b a = true) (ha : isFixedUnsigned a = true) :
    CastStep a b := by
  cases a <;> simp [isFixedUnsigned] at ha
  rename_i w
  cases b <;> simp [strictlyAbove, typeBitwidth] at h <;> subst h <;> constructor

theorem supported_above {a b : Ty} (h : strictlyAbove b a = true) : Supported b := by
  refine ⟨?_, fun n => ?_⟩ <;> rintro rfl <;> cases h

theorem wrap_elab {e : Expr} {t : Ty} (h : WellElab e) (hs : Supported t) (hc : CastStep e.ty t) :
    WellElab (wrapWithCast e t) := ⟨hs, h, hc, rfl, rfl⟩

theorem castIntStep_elab {e : Expr} {t : Ty} (h : WellElab e) : WellElab (castIntStep e t) := by
  unfold castIntStep
  split
  · rename_i hc
    refine wrap_elab h (supported_bit _) ?_
    rw [hc.2]; constructor
  · exact h

theorem cast_elab {e : Expr} {t : Ty} (h : WellElab e) : WellElab (castTransitivelyTo e t) := by
  unfold castTransitivelyTo
  dsimp only
  split
  · rename_i hc
    exact wrap_elab (castIntStep_elab h) (supported_above hc.1) (castStep_of_above hc.1 hc.2)
  · exact castIntStep_elab h

theorem cast_castFree {e : Expr} {t : Ty} (hc : CastsTo e.ty t) (h : CastFree (castTransitivelyTo e t)) :
    e.ty = t ∧ castTransitivelyTo e t = e := by
  rcases castsTo_iff.1 hc with rfl | ha
  · refine ⟨rfl, ?_⟩
    unfold castTransitivelyTo castIntStep
    simp [strictlyAbove_irrefl]
  · exfalso
    unfold castTransitivelyTo at h
    dsimp only at h
    split at h
    · exact h
    · unfold castIntStep at h
      split at h
      · exact h
      · rename_i h1 h2
        have h2' : castIntStep e t = e := by unfold castIntStep; rw [if_neg h2]
        rw [h2'] at h1
        have : e.ty = .arbitraryInt ∨ isFixedUnsigned e.ty = true := by
          revert ha
          generalize e.ty = a
          intro ha
          cases t <;> simp [strictlyAbove] at ha <;> cases a <;> simp_all [isFixedUnsigned]
        rcases this with h3 | h3
        · exact h2 ⟨ha, h3⟩
        · exact h1 ⟨ha, h3⟩

theorem cast_refl (e : Expr) : castTransitivelyTo e e.ty = e := by
  unfold castTransitivelyTo castIntStep
  simp [strictlyAbove_irrefl]

/-- Case analysis of successful type checking of the remaining forms. -/
theorem infer_key {src : ConstraintSource} {sc : Scope} {i : Info} {n : Str} {e' : Expr}
    (h : inferAndCheck src sc (.key i n) = .ok e') :
    ∃ t, (sigOf sc).key n = some t ∧ Supported t ∧ e' = .key (i.withTy t) n := by
  unfold inferAndCheck at h
  cases sc with
  | action ps => exact (quotingError_ne_ok.1 h).elim
  | table ks =>
    dsimp only at h
    cases hl : lookup n ks with
    | none => rw [hl] at h; exact (quotingError_ne_ok.1 h).elim
    | some ki =>
      rw [hl] at h
      dsimp only at h
      split at h
      · exact (quotingError_ne_ok.1 h).elim
      · rename_i hi
        cases h
        exact ⟨ki.ty, by simp [sigOf, hl], illegalType_iff.1 (by simpa using hi), rfl⟩

theorem infer_param {src : ConstraintSource} {sc : Scope} {i : Info} {n : Str} {e' : Expr}
    (h : inferAndCheck src sc (.actionParam i n) = .ok e') :
    ∃ t, (sigOf sc).param n = some t ∧ Supported t ∧ e' = .actionParam (i.withTy t) n := by
  unfold inferAndCheck at h
  cases sc with
  | table ps => exact (quotingError_ne_ok.1 h).elim
  | action ks =>
    dsimp only at h
    cases hl : lookup n ks with
    | none => rw [hl] at h; exact (quotingError_ne_ok.1 h).elim
    | some ki =>
      rw [hl] at h
      dsimp only at h
      split at h
      · exact (quotingError_ne_ok.1 h).elim
      · rename_i hi
        cases h
        exact ⟨ki.ty, by simp [sigOf, hl], illegalType_iff.1 (by simpa using hi), rfl⟩

theorem infer_boolNeg {src : ConstraintSource} {sc : Scope} {i : Info} {e e' : Expr} :
    inferAndCheck src sc (.boolNeg i e) = .ok e' ↔
      ∃ x, inferAndCheck src sc e = .ok x ∧ x.ty = .boolean ∧ e' = .boolNeg (i.withTy .boolean) x := by
  rw [inferAndCheck, Res.bind_eq_ok]
  constructor
  · rintro ⟨x, hx, h⟩
    split at h
    · exact (quotingError_ne_ok.1 h).elim
    · rename_i ht
      cases h
      exact ⟨x, hx, Classical.not_not.1 ht, rfl⟩
  · rintro ⟨x, hx, ht, rfl⟩
    exact ⟨x, hx, by simp [ht]⟩

theorem infer_arithNeg {src : ConstraintSource} {sc : Scope} {i : Info} {e e' : Expr} :
    inferAndCheck src sc (.arithNeg i e) = .ok e' ↔
      ∃ x, inferAndCheck src sc e = .ok x ∧ x.ty = .arbitraryInt ∧ e' = .arithNeg (i.withTy .arbitraryInt) x := by
  rw [inferAndCheck, Res.bind_eq_ok]
  constructor
  · rintro ⟨x, hx, h⟩
    split at h
    · exact (quotingError_ne_ok.1 h).elim
    · rename_i ht
      cases h
      exact ⟨x, hx, Classical.not_not.1 ht, rfl⟩
  · rintro ⟨x, hx, ht, rfl⟩
    exact ⟨x, hx, by simp [ht]⟩

theorem infer_field {src : ConstraintSource} {sc : Scope} {i : Info} {e e' : Expr} {f : Str} :
    inferAndCheck src sc (.field i e f) = .ok e' ↔
      ∃ x t, inferAndCheck src sc e = .ok x ∧ FieldTy x.ty f t ∧ e' = .field (i.withTy t) x f := by
  rw [inferAndCheck, Res.bind_eq_ok]
  constructor
  · rintro ⟨x, hx, h⟩
    cases hf : fieldTypeOfCompositeType x.ty f with
    | none => rw [hf] at h; exact (quotingError_ne_ok.1 h).elim
    | some t =>
      rw [hf] at h
      cases h
      exact ⟨x, t, hx, fieldTy_iff.1 hf, rfl⟩
  · rintro ⟨x, t, hx, hf, rfl⟩
    exact ⟨x, hx, by rw [fieldTy_iff.2 hf]⟩

theorem infer_attr {src : ConstraintSource} {sc : Scope} {i : Info} {n : Str} {e' : Expr}
    (h : inferAndCheck src sc (.attr i n) = .ok e') :
    n = c!"priority" ∧ e' = .attr (i.withTy .arbitraryInt) n := by
  unfold inferAndCheck getAttributeInfo at h
  by_cases hn : n = c!"priority"
  · rw [if_pos hn] at h
    refine ⟨hn, ?_⟩
    simpa [illegalType] using h.symm
  · rw [if_neg hn] at h
    exact (quotingError_ne_ok.1 h).elim

theorem infer_strip {src : ConstraintSource} {sc : Scope} {e e' : Expr} (h : inferAndCheck src sc e = .ok e') :
    strip e' = strip e ∧ WellElab e' := by
  induction e generalizing e' with
  | notSet i => exact (quotingError_ne_ok.1 h).elim
  | boolConst i b => cases h; exact ⟨rfl, nofun, nofun⟩
  | intConst i s => cases h; exact ⟨rfl, nofun, nofun⟩
  | key i n => obtain ⟨t, _, hs, rfl⟩ := infer_key h; exact ⟨rfl, hs⟩
  | actionParam i n => obtain ⟨t, _, hs, rfl⟩ := infer_param h; exact ⟨rfl, hs⟩
  | boolNeg i e ih =>
    obtain ⟨x, hx, _, rfl⟩ := infer_boolNeg.1 h
    obtain ⟨h1, h2⟩ := ih hx
    exact ⟨by simp only [strip, h1]; rfl, ⟨nofun, nofun⟩, h2⟩
  | arithNeg i e ih =>
    obtain ⟨x, hx, _, rfl⟩ := infer_arithNeg.1 h
    obtain ⟨h1, h2⟩ := ih hx
    exact ⟨by simp only [strip, h1]; rfl, ⟨nofun, nofun⟩, h2⟩
  | typeCast i e => exact (quotingError_ne_ok.1 h).elim
  | bin i op l r ihl ihr =>
    obtain ⟨l', r', hl, hr, ⟨_, _, _, rfl⟩ | ⟨_, t, _, _, rfl⟩⟩ := infer_bin.1 h
    · obtain ⟨a, b⟩ := ihl hl
      obtain ⟨c, d⟩ := ihr hr
      exact ⟨by simp only [strip, a, c]; rfl, ⟨nofun, nofun⟩, b, d⟩
    · obtain ⟨a, b⟩ := ihl hl
      obtain ⟨c, d⟩ := ihr hr
      exact ⟨by simp only [strip, strip_cast, a, c]; rfl, ⟨nofun, nofun⟩, cast_elab b, cast_elab d⟩
  | field i e f ih =>
    obtain ⟨x, t, hx, hf, rfl⟩ := infer_field.1 h
    obtain ⟨h1, h2⟩ := ih hx
    refine ⟨by simp only [strip, h1]; rfl, ?_, h2⟩
    show Supported t
    generalize x.ty = u at hf
    cases hf <;> exact ⟨nofun, nofun⟩
  | attr i n => obtain ⟨_, rfl⟩ := infer_attr h; exact ⟨rfl, nofun, nofun⟩

theorem infer_castFree {src : ConstraintSource} {sc : Scope} {e e' : Expr}
    (h : inferAndCheck src sc e = .ok e') : CastFree e := by
  induction e generalizing e' with
  | boolNeg i e ih => obtain ⟨x, hx, _⟩ := infer_boolNeg.1 h; exact ih hx
  | arithNeg i e ih => obtain ⟨x, hx, _⟩ := infer_arithNeg.1 h; exact ih hx
  | field i e f ih => obtain ⟨x, _, hx, _⟩ := infer_field.1 h; exact ih hx
  | typeCast i e => exact (quotingError_ne_ok.1 h).elim
  | bin i op l r ihl ihr => obtain ⟨l', r', hl, hr, _⟩ := infer_bin.1 h; exact ⟨ihl hl, ihr hr⟩
  | _ => trivial

/-- Checking again what was checked without inserting casts changes nothing. -/
theorem infer_again {src src' : ConstraintSource} {sc : Scope} {e e' : Expr}
    (h : inferAndCheck src sc e = .ok e') (hc : CastFree e') : inferAndCheck src' sc e' = .ok e' := by
  induction e generalizing e' with
  | notSet i => exact (quotingError_ne_ok.1 h).elim
  | boolConst i b => cases h; rfl
  | intConst i s => cases h; rfl
  | key i n =>
    obtain ⟨t, ht, hs, rfl⟩ := infer_key h
    cases sc with
    | action ps => simp [sigOf] at ht
    | table ks =>
      simp only [sigOf, Option.map_eq_some_iff] at ht
      obtain ⟨ki, hl, rfl⟩ := ht
      simp [inferAndCheck, hl, illegalType_iff.2 hs, Info.withTy]
  | actionParam i n =>
    obtain ⟨t, ht, hs, rfl⟩ := infer_param h
    cases sc with
    | table ps => simp [sigOf] at ht
    | action ks =>
      simp only [sigOf, Option.map_eq_some_iff] at ht
      obtain ⟨ki, hl, rfl⟩ := ht
      simp [inferAndCheck, hl, illegalType_iff.2 hs, Info.withTy]
  | boolNeg i e ih =>
    obtain ⟨x, hx, ht, rfl⟩ := infer_boolNeg.1 h
    exact infer_boolNeg.2 ⟨x, ih hx hc, ht, rfl⟩
  | arithNeg i e ih =>
    obtain ⟨x, hx, ht, rfl⟩ := infer_arithNeg.1 h
    exact infer_arithNeg.2 ⟨x, ih hx hc, ht, rfl⟩
  | typeCast i e => exact (quotingError_ne_ok.1 h).elim
  | bin i op l r ihl ihr =>
    obtain ⟨l', r', hl, hr, ⟨h1, h2, h3, rfl⟩ | ⟨h1, t, h2, h3, rfl⟩⟩ := infer_bin.1 h
    · exact infer_bin.2 ⟨l', r', ihl hl hc.1, ihr hr hc.2, .inl ⟨h1, h2, h3, rfl⟩⟩
    · obtain ⟨a, b⟩ := cast_castFree h2.1 hc.1
      obtain ⟨c, d⟩ := cast_castFree h2.2.1 hc.2
      have hc' : CastFree l' ∧ CastFree r' := ⟨b ▸ hc.1, d ▸ hc.2⟩
      refine infer_bin.2 ⟨l', r', ?_, ?_, .inr ⟨h1, t, h2, h3, rfl⟩⟩
      · rw [b]; exact ihl hl hc'.1
      · rw [d]; exact ihr hr hc'.2
  | field i e f ih =>
    obtain ⟨x, t, hx, hf, rfl⟩ := infer_field.1 h
    exact infer_field.2 ⟨x, t, ih hx hc, hf, rfl⟩
  | attr i n => obtain ⟨rfl, rfl⟩ := infer_attr h; rfl

/-! ### Evaluation without a cache -/

theorem eval_none {ctx : EvalCtx} {e : Expr} {v : Value} :
    eval ctx e [] none = .ok (v, none) ↔ evalP ctx e = .ok v := by
  have := eval_agrees none ctx e e [] none .root ⟨fun m hm => (Option.some_ne_none m hm.symm).elim, rfl⟩
  cases h : evalP ctx e with
  | ok w =>
    rw [h] at this
    obtain ⟨c', hc', _, hk⟩ := this
    cases c' with
    | some m => cases hk
    | none => rw [hc']; simp
  | err x => rw [h] at this; simp only [Agrees] at this; rw [this]; simp
  | crash => rw [h] at this; simp only [Agrees] at this; rw [this]; simp
  | oof => rw [h] at this; simp only [Agrees] at this; rw [this]; simp

theorem evalToBool_none {ctx : EvalCtx} {e : Expr} {b : Bool} :
    evalToBool ctx e [] none = .ok (b, none) ↔ evalP ctx e = .ok (.bool b) := by
  have := evalToBool_agrees (c₀ := none) (ctx := ctx) (root := e) (e := e) (p := []) (c := none) .root
    ⟨fun m hm => (Option.some_ne_none m hm.symm).elim, rfl⟩
  rw [← evalBoolP_ok]
  cases h : evalBoolP ctx e with
  | ok w =>
    rw [h] at this
    obtain ⟨c', hc', _, hk⟩ := this
    cases c' with
    | some m => cases hk
    | none => rw [hc']; simp
  | err x => rw [h] at this; simp only [Agrees] at this; rw [this]; simp
  | crash => rw [h] at this; simp only [Agrees] at this; rw [this]; simp
  | oof => rw [h] at this; simp only [Agrees] at this; rw [this]; simp

end P4C
