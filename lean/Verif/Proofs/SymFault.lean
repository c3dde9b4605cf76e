import Verif.Proofs.SymMessage
import Verif.Proofs.Solver3
import Verif.Proofs.Explain4
import Verif.Spec.SymFault

/-
What the constraint solver reports when it cannot be created, or cannot take a constraint.
-/

namespace P4C

open Spec MRes

/-! ### Evaluation -/

theorem evalSymM_ok {x : SymTexts} {src : ConstraintSource} {env : SymEnv} {e : Expr} {r : SymResult} :
    evalSymM x src env e = .ok r ↔ evalSym src env e = .ok r := by
  rw [← erase_evalSym x]
  cases evalSymM x src env e <;> simp

theorem evalSymM_typeCast (x : SymTexts) (src : ConstraintSource) (env : SymEnv) (i : Info) (e : Expr) :
    evalSymM x src env (.typeCast i e) = symToExprM x src e (evalSymM x src env e) >>= fun z => symCastM x z i.ty := rfl

theorem evalSymM_cast_err {x : SymTexts} {src : ConstraintSource} {env : SymEnv} {e : Expr} {t : Ty} {c : Code}
    {m : Str} (h : evalSymM x src env e = .err c m) : evalSymM x src env (castTransitivelyTo e t) = .err c m := by
  have hw : ∀ {e : Expr} {t : Ty}, evalSymM x src env e = .err c m → evalSymM x src env (wrapWithCast e t) = .err c m := by
    intro e t h
    unfold wrapWithCast
    rw [evalSymM_typeCast, h]
    rfl
  have h1 : evalSymM x src env (castIntStep e t) = .err c m := by
    unfold castIntStep
    split
    · exact hw h
    · exact h
  unfold castTransitivelyTo
  dsimp only
  split
  · exact hw h1
  · exact h1

/-- The only status with this code among the errors of a cast is the one about ranges. -/
theorem symCastM_unimplemented {x : SymTexts} {z : Z3Expr} {t : Ty} (h : symCast z t = .err .unimplemented) :
    symCastM x z t = .err .unimplemented rangesText := by
  cases t with
  | range w => rfl
  | fixedUnsigned w =>
    exfalso
    obtain ⟨s, e⟩ := z
    simp only [symCast, typeBitwidthOrStatus, typeBitwidth, Res.ok_bind] at h
    cases s with
    | int =>
      simp only [Z3Expr.int2bv] at h
      by_cases hw : w ≤ 0
      · rw [if_pos hw] at h; cases h
      · rw [if_neg hw] at h; cases h
    | _ => cases h
  | exact w => cases h
  | lpm w => cases h
  | ternary w =>
    exfalso
    simp only [symCast, typeBitwidthOrStatus, typeBitwidth, Res.ok_bind, bvAllOnes] at h
    by_cases hw : w ≤ 0
    · rw [if_pos hw] at h; cases h
    · rw [if_neg hw] at h; cases h
  | optionalMatch w =>
    exfalso
    simp only [symCast, typeBitwidthOrStatus, typeBitwidth, Res.ok_bind, bvAllOnes] at h
    by_cases hw : w ≤ 0
    · rw [if_pos hw] at h; cases h
    · rw [if_neg hw] at h; cases h
  | _ => cases h

theorem symToExprM_unimplemented {src : ConstraintSource} {e : Expr} {r : MRes SymResult}
    (h : symToExpr src e r.erase = .err .unimplemented) (hr : ∀ m, r ≠ .err .unimplemented m) : False := by
  cases r with
  | ok r =>
    cases r with
    | expr z => cases h
    | key k =>
      simp only [symToExpr, erase_ok, Res.ok_bind, runtimeTypeError] at h
      cases hq : quoteSub src e.start e.stop <;> rw [hq] at h <;> cases h
  | err c m =>
    simp only [symToExpr, erase_err, Res.err_bind] at h
    cases h
    exact hr m rfl
  | crash => cases h
  | oof => cases h

/-- If the operand evaluates, and the cast reports an unimplemented feature, it is the one about ranges. -/
theorem evalSymM_cast_range {x : SymTexts} {src : ConstraintSource} {env : SymEnv} {e : Expr} {t : Ty} {r : SymResult}
    (hr : evalSym src env e = .ok r) (h : evalSym src env (castTransitivelyTo e t) = .err .unimplemented) :
    evalSymM x src env (castTransitivelyTo e t) = .err .unimplemented rangesText := by
  have hw : ∀ {e : Expr} {t : Ty}, (∀ m, evalSymM x src env e = .err .unimplemented m → m = rangesText) →
      ∀ m, evalSymM x src env (wrapWithCast e t) = .err .unimplemented m → m = rangesText := by
    intro e t h m hm
    unfold wrapWithCast at hm
    rw [evalSymM_typeCast] at hm
    cases hs : symToExprM x src e (evalSymM x src env e) with
    | ok z =>
      rw [hs] at hm
      have : symCast z t = .err .unimplemented := by
        rw [← erase_symCast x]
        simp only [ok_bind] at hm
        rw [hm]
        rfl
      have h2 := symCastM_unimplemented (x := x) this
      simp only [ok_bind] at hm
      rw [h2] at hm
      cases hm
      rfl
    | err c m' =>
      rw [hs] at hm
      simp only [err_bind] at hm
      cases hm
      have h3 : (evalSymM x src env e).erase = .err .unimplemented → m = rangesText := by
        intro h4
        cases h5 : evalSymM x src env e <;> rw [h5] at h4 <;> try cases h4
        rw [h5] at hs
        simp only [symToExprM, err_bind] at hs
        cases hs
        exact h _ h5
      cases h5 : evalSymM x src env e with
      | ok r =>
        exfalso
        refine symToExprM_unimplemented (src := src) (e := e) (r := evalSymM x src env e) ?_ ?_
        · rw [← erase_symToExpr x, hs]
          rfl
        · intro m'; rw [h5]; nofun
      | err c m'' =>
        rw [h5] at hs
        simp only [symToExprM, err_bind] at hs
        cases hs
        exact h3 (by rw [h5]; rfl)
      | crash => rw [h5] at hs; cases hs
      | oof => rw [h5] at hs; cases hs
    | crash => rw [hs] at hm; cases hm
    | oof => rw [hs] at hm; cases hm
  have h0 : ∀ m, evalSymM x src env e = .err .unimplemented m → m = rangesText := by
    intro m hm
    rw [evalSymM_ok.2 hr] at hm
    cases hm
  have h1 : ∀ m, evalSymM x src env (castIntStep e t) = .err .unimplemented m → m = rangesText := by
    unfold castIntStep
    split
    · exact hw h0
    · exact h0
  have h2 : ∀ m, evalSymM x src env (castTransitivelyTo e t) = .err .unimplemented m → m = rangesText := by
    unfold castTransitivelyTo
    dsimp only
    split
    · exact hw h1
    · exact h1
  rw [← erase_evalSym x] at h
  cases h3 : evalSymM x src env (castTransitivelyTo e t) <;> rw [h3] at h <;> try cases h
  rw [h2 _ h3]

/-! ### Obstacles -/

section

variable {Γ : Sig} {K A : Str → Prop}

theorem untranslatable_names (hK : ∀ n w, K n → Γ.key n ≠ some (.range w)) (hP : ∀ n w, Γ.param n ≠ some (.range w))
    {s : SExpr} {c : Code} {m : Str} (h : Untranslatable Γ K A s c m) : ¬ NamesIn K A s := by
  induction h with
  | key h => exact h
  | attr h => exact h
  | field _ ih => exact ih
  | not _ ih => exact ih
  | neg _ ih => exact ih
  | connLeft _ ih => exact fun h => ih h.1
  | connRight _ _ ih => exact fun h => ih h.2
  | cmpLeft _ ih => exact fun h => ih h.1
  | cmpRight _ _ _ _ ih => exact fun h => ih h.2
  | cmpRange _ _ ht =>
    intro h
    have h := h.2
    generalize hu : Ty.range _ = u at ht
    cases ht with
    | key hk _ => subst hu; exact hK _ _ h hk
    | param hk _ => subst hu; exact hP _ _ hk
    | field _ hf => subst hu; cases hf
    | _ => cases hu

theorem untranslatable_unique (hK : ∀ n w, K n → Γ.key n ≠ some (.range w)) (hP : ∀ n w, Γ.param n ≠ some (.range w))
    {s : SExpr} {c c' : Code} {m m' : Str} (h : Untranslatable Γ K A s c m) (h' : Untranslatable Γ K A s c' m') :
    c = c' ∧ m = m' := by
  induction h with
  | key _ => cases h'; exact ⟨rfl, rfl⟩
  | attr _ => cases h'; exact ⟨rfl, rfl⟩
  | field _ ih => cases h' with | field h' => exact ih h'
  | not _ ih => cases h' with | not h' => exact ih h'
  | neg _ ih => cases h' with | neg h' => exact ih h'
  | connLeft h ih =>
    cases h' with
    | connLeft h' => exact ih h'
    | connRight hn _ => exact (untranslatable_names hK hP h hn).elim
  | connRight hn _ ih =>
    cases h' with
    | connLeft h' => exact (untranslatable_names hK hP h' hn).elim
    | connRight _ h' => exact ih h'
  | cmpLeft h ih =>
    cases h' with
    | cmpLeft h' => exact ih h'
    | cmpRight hn _ _ _ => exact (untranslatable_names hK hP h hn).elim
    | cmpRange hn _ _ => exact (untranslatable_names hK hP h hn).elim
  | cmpRange hn _ ht =>
    cases h' with
    | cmpLeft h' => exact (untranslatable_names hK hP h' hn).elim
    | cmpRight _ _ h0 _ => exact (h0 _ ht).elim
    | cmpRange _ _ _ => exact ⟨rfl, rfl⟩
  | cmpRight hn _ h0 _ ih =>
    cases h' with
    | cmpLeft h' => exact (untranslatable_names hK hP h' hn).elim
    | cmpRight _ _ _ h' => exact ih h'
    | cmpRange _ _ ht => exact (h0 _ ht).elim

/-- The represented keys have bits. -/
def HasBits (Γ : Sig) (K : Str → Prop) : Prop := ∀ n, K n → ∀ t, Γ.key n = some t → PosWidth t

theorem posWidth_zero {t : Ty} (h : PosWidth t) : ¬ HasWidth t 0 := by
  intro hw
  cases hw <;> exact absurd h (by simp [PosWidth])

theorem noBits_names (hB : HasBits Γ K) (hP : ∀ n, Γ.param n = none) {l r : SExpr} (h : NoBits Γ l r) : ¬ NamesIn K A r := by
  obtain ⟨_, t, ht, hw⟩ := h
  intro hn
  cases ht with
  | key hk _ => exact posWidth_zero (hB _ hn _ hk) hw
  | param hk _ => rw [hP] at hk; cases hk
  | field h1 hf =>
    rcases hasTy_composite h1 hf with ⟨n, rfl⟩ | ⟨n, rfl⟩
    · cases h1 with
      | key hk _ =>
        have := hB _ hn _ hk
        cases hf <;> cases hw <;> exact absurd this (by simp [PosWidth])
    · cases h1 with
      | param hk _ => rw [hP] at hk; cases hk
  | _ => cases hw

theorem bitless_names (hB : HasBits Γ K) (hP : ∀ n, Γ.param n = none) {s : SExpr} (h : Bitless Γ K A s) : ¬ NamesIn K A s := by
  induction h with
  | not _ ih => exact ih
  | connLeft _ ih => exact fun h => ih h.1
  | connRight _ _ ih => exact fun h => ih h.2
  | cmpLeft _ ih => exact fun h => ih h.1
  | cmpRight _ _ ih => exact fun h => ih h.2
  | cmp _ hb => exact fun h => noBits_names hB hP hb h.2

theorem bitless_bool {s : SExpr} {t : Ty} (h : Bitless Γ K A s) (ht : HasTy Γ s t) : t = .boolean := by
  cases h <;> cases ht <;> rfl

/-- A constraint is refused or stops the process, not both. -/
theorem bitless_untranslatable (hB : HasBits Γ K) (hK : ∀ n w, K n → Γ.key n ≠ some (.range w)) (hP : ∀ n, Γ.param n = none)
    {s : SExpr} {c : Code} {m : Str} (h : Bitless Γ K A s) : ¬ Untranslatable Γ K A s c m := by
  have hn := fun {s c m} => untranslatable_names (Γ := Γ) (K := K) (A := A) (s := s) (c := c) (m := m) hK
    (by intro n w hw; rw [hP] at hw; cases hw)
  have hb := fun {s} => bitless_names (Γ := Γ) (K := K) (A := A) (s := s) hB hP
  intro h'
  induction h with
  | not _ ih => cases h' with | not h' => exact ih h'
  | connLeft h ih =>
    cases h' with
    | connLeft h' => exact ih h'
    | connRight h1 _ => exact hb h h1
  | connRight h1 _ ih =>
    cases h' with
    | connLeft h' => exact hn h' h1
    | connRight _ h' => exact ih h'
  | cmpLeft h ih =>
    cases h' with
    | cmpLeft h' => exact ih h'
    | cmpRight h1 _ _ _ => exact hb h h1
    | cmpRange h1 _ _ => exact hb h h1
  | cmpRight h1 h ih =>
    cases h' with
    | cmpLeft h' => exact hn h' h1
    | cmpRight _ _ _ h' => exact ih h'
    | cmpRange _ _ ht => cases bitless_bool h ht
  | cmp h1 hz =>
    cases h' with
    | cmpLeft h' => exact hn h' h1
    | cmpRight _ h0 _ _ => exact h0 hz
    | cmpRange _ h0 _ => exact h0 hz

theorem untranslatable_congr {K' A' : Str → Prop} (hK : ∀ n, K n ↔ K' n) (hA : ∀ n, A n ↔ A' n) {s : SExpr} {c : Code}
    {m : Str} (h : Untranslatable Γ K A s c m) : Untranslatable Γ K' A' s c m := by
  obtain rfl : K = K' := funext fun n => propext (hK n)
  obtain rfl : A = A' := funext fun n => propext (hA n)
  exact h

theorem bitless_congr {K' A' : Str → Prop} (hK : ∀ n, K n ↔ K' n) (hA : ∀ n, A n ↔ A' n) {s : SExpr}
    (h : Bitless Γ K A s) : Bitless Γ K' A' s := by
  obtain rfl : K = K' := funext fun n => propext (hK n)
  obtain rfl : A = A' := funext fun n => propext (hA n)
  exact h

end

theorem evalSymM_cast_crash {x : SymTexts} {src : ConstraintSource} {env : SymEnv} {e : Expr} {t : Ty}
    (h : evalSymM x src env e = .crash) : evalSymM x src env (castTransitivelyTo e t) = .crash := by
  have hw : ∀ {e : Expr} {t : Ty}, evalSymM x src env e = .crash → evalSymM x src env (wrapWithCast e t) = .crash := by
    intro e t h
    unfold wrapWithCast
    rw [evalSymM_typeCast, h]
    rfl
  have h1 : evalSymM x src env (castIntStep e t) = .crash := by
    unfold castIntStep
    split
    · exact hw h
    · exact h
  unfold castTransitivelyTo
  dsimp only
  split
  · exact hw h1
  · exact h1

/-- An integer is not converted to a bit string without bits. -/
theorem evalSymM_cast_bitless {m : Interp} {x : SymTexts} {src : ConstraintSource} {env : SymEnv} {e : Expr} {t : Ty}
    {r : SymResult} {v : Value} (h : evalSymM x src env e = .ok r) (hv : SymVal m e.ty r v) (he : e.ty = .arbitraryInt)
    (ha : strictlyAbove t .arbitraryInt = true) (hw : HasWidth t 0) :
    evalSymM x src env (castTransitivelyTo e t) = .crash := by
  have hb : typeBitwidth t = some 0 := by cases hw <;> rfl
  have h1 : evalSymM x src env (castIntStep e t) = .crash := by
    unfold castIntStep
    rw [if_pos ⟨by rw [he]; exact ha, he⟩, hb]
    unfold wrapWithCast
    rw [evalSymM_typeCast, h]
    rw [he] at hv
    cases hv
    rfl
  unfold castTransitivelyTo
  dsimp only
  split
  · unfold wrapWithCast
    rw [evalSymM_typeCast, h1]
    rfl
  · exact h1

theorem width_nonneg {ks : List (Str × VarInfo)} (hnn : ∀ n t w, (sigOf (.table ks)).key n = some t → HasWidth t w → 0 ≤ w)
    {s : SExpr} {t : Ty} {w : Int} (h : HasTy (sigOf (.table ks)) s t) (hw : HasWidth t w) : 0 ≤ w := by
  cases h with
  | key hk _ => exact hnn _ _ _ hk hw
  | param hk _ => simp [sigOf] at hk
  | field h1 hf =>
    rcases hasTy_composite h1 hf with ⟨n, rfl⟩ | ⟨n, rfl⟩
    · cases h1 with
      | key hk _ => cases hf <;> cases hw <;> exact hnn _ _ _ hk (by constructor)
    · cases h1 with
      | param hk _ => simp [sigOf] at hk
  | _ => cases hw

/-- A constraint with names that are not represented is not translated, and the status says why; or there is a conversion to a
bit string without bits. -/
theorem evalSymM_untranslatable {m : Interp} (x : SymTexts) {src src' : ConstraintSource} {ks : List (Str × VarInfo)}
    {env : SymEnv} {ρ : Env} {e e' : Expr} {s : SExpr} (hE : EnvCorr m (sigOf (.table ks)) env ρ)
    (hnn : ∀ n t w, (sigOf (.table ks)).key n = some t → HasWidth t w → 0 ≤ w)
    (h : inferAndCheck src (.table ks) e = .ok e') (ha : abs e = some s) (hk : ¬ Known env s) :
    (∃ c msg, Untranslatable (sigOf (.table ks)) (fun n => hasKey n env.keys = true) (fun n => hasKey n env.attrs = true)
      s c msg ∧ evalSymM x src' env e' = .err c msg) ∨
    Bitless (sigOf (.table ks)) (fun n => hasKey n env.keys = true) (fun n => hasKey n env.attrs = true) s ∧
      evalSymM x src' env e' = .crash := by
  induction e generalizing e' s with
  | notSet i => simp [abs] at ha
  | typeCast i e => simp [abs] at ha
  | boolConst i b => simp [abs] at ha; subst ha; exact (hk trivial).elim
  | intConst i n => simp [abs] at ha; obtain ⟨z, hz, rfl⟩ := ha; exact (hk trivial).elim
  | key i n =>
    simp [abs] at ha; subst ha
    obtain ⟨t, _, _, rfl⟩ := infer_key h
    refine .inl ⟨_, _, .key hk, ?_⟩
    have : lookup n env.keys = none := by simpa [Known, NamesIn, hasKey] using hk
    simp only [evalSymM, findPtrOrStatusM, this, err_bind, notFoundText]
  | actionParam i n => simp [inferAndCheck, quotingError_ne_ok] at h
  | attr i n =>
    have hty := infer_sound h ha
    simp [abs] at ha; subst ha
    generalize e'.ty = t at hty
    cases hty with
    | priority =>
    simp [inferAndCheck, getAttributeInfo, illegalType] at h
    subst h
    refine .inl ⟨_, _, .attr hk, ?_⟩
    have : lookup c!"priority" env.attrs = none := by simpa [Known, NamesIn, hasKey] using hk
    simp only [evalSymM, findPtrOrStatusM, this, err_bind, notFoundText]
  | boolNeg i e ih =>
    simp [abs] at ha; obtain ⟨s', ha, rfl⟩ := ha
    simp only [inferAndCheck, Res.bind_eq_ok] at h
    obtain ⟨e1, h1, h⟩ := h
    split at h
    · simp [quotingError_ne_ok] at h
    cases h
    rcases ih h1 ha hk with ⟨c, msg, hu, hev⟩ | ⟨hu, hev⟩
    · exact .inl ⟨c, msg, .not hu, by simp only [evalSymM, hev, symToExprM, err_bind]⟩
    · exact .inr ⟨.not hu, by simp only [evalSymM, hev, symToExprM]; rfl⟩
  | arithNeg i e ih =>
    simp [abs] at ha; obtain ⟨s', ha, rfl⟩ := ha
    simp only [inferAndCheck, Res.bind_eq_ok] at h
    obtain ⟨e1, h1, h⟩ := h
    split at h
    · simp [quotingError_ne_ok] at h
    rename_i hint
    cases h
    rcases ih h1 ha hk with ⟨c, msg, hu, hev⟩ | ⟨hu, hev⟩
    · exact .inl ⟨c, msg, .neg hu, by simp only [evalSymM, hev, symToExprM, err_bind]⟩
    · have := bitless_bool hu (infer_sound h1 ha)
      rw [this] at hint
      exact absurd hint (by simp)
  | field i e f ih =>
    simp [abs] at ha; obtain ⟨s', ha, rfl⟩ := ha
    simp only [inferAndCheck, Res.bind_eq_ok] at h
    obtain ⟨e1, h1, h⟩ := h
    split at h
    · simp [quotingError_ne_ok] at h
    rename_i t ht
    cases h
    have hft := fieldTy_iff.1 ht
    have hty := infer_sound h1 ha
    have hkey : ∃ i' n, e = .key i' n := by
      cases e with
      | key i' n => exact ⟨i', n, rfl⟩
      | actionParam i' n => simp [inferAndCheck, quotingError_ne_ok] at h1
      | bin i' op l r =>
        simp only [abs, Option.bind_eq_some_iff] at ha
        obtain ⟨sl, _, sr, _, ha⟩ := ha
        rcases binop_cases ha with ⟨_, _, o, rfl, _⟩ | ⟨_, _, o, rfl, _, _⟩ <;>
          rcases hasTy_composite hty hft with ⟨n, h⟩ | ⟨n, h⟩ <;> cases h
      | _ =>
        simp [abs] at ha
        all_goals first | obtain ⟨_, _, rfl⟩ := ha | subst ha
        all_goals rcases hasTy_composite hty hft with ⟨n, h⟩ | ⟨n, h⟩ <;> cases h
    obtain ⟨i', n, rfl⟩ := hkey
    have hih := (ih h1 ha hk).resolve_right (by
      rintro ⟨hu, _⟩
      simp only [abs, Option.some.injEq] at ha
      subst ha
      cases hu)
    obtain ⟨c, msg, hu, hev⟩ := hih
    refine .inl ⟨c, msg, .field hu, ?_⟩
    obtain ⟨t', _, _, rfl⟩ := infer_key h1
    simp only [evalSymM, findPtrOrStatusM, protoKey] at hev ⊢
    cases hl : lookup n env.keys with
    | none => simp only [hl, err_bind] at hev ⊢; exact hev
    | some k => simp only [hl, ok_bind] at hev; cases hev
  | bin i op l r ihl ihr =>
    simp only [abs, Option.bind_eq_some_iff] at ha
    obtain ⟨sl, hsl, sr, hsr, ha⟩ := ha
    rw [infer_bin] at h
    obtain ⟨l', r', hl, hr, h⟩ := h
    have htl := infer_sound hl hsl
    have htr := infer_sound hr hsr
    have hbinl : ∀ {i op l r c m}, evalSymM x src' env l = .err c m → evalSymM x src' env (.bin i op l r) = .err c m := by
      intro i op l r c m h1
      simp only [evalSymM, h1, err_bind]
    have hbinr : ∀ {i op l r a c m}, evalSymM x src' env l = .ok a → evalSymM x src' env r = .err c m →
        evalSymM x src' env (.bin i op l r) = .err c m := by
      intro i op l r a c m h1 h2
      simp only [evalSymM, h1, h2, ok_bind, err_bind]
    have cbinl : ∀ {i op l r}, evalSymM x src' env l = .crash → evalSymM x src' env (.bin i op l r) = .crash := by
      intro i op l r h1
      simp only [evalSymM, h1]
      rfl
    have cbinr : ∀ {i op l r a}, evalSymM x src' env l = .ok a → evalSymM x src' env r = .crash →
        evalSymM x src' env (.bin i op l r) = .crash := by
      intro i op l r a h1 h2
      simp only [evalSymM, h1, h2, ok_bind]
      rfl
    rcases binop_cases ha with ⟨h1, h2, o, rfl, hop⟩ | ⟨h1, h2, o, rfl, ho, hop⟩
    · simp [h1, h2] at h
      obtain ⟨tl, tr, rfl⟩ := h
      by_cases hnl : Known env sl
      · obtain ⟨a, _, hea, _⟩ := (evalSym_means (src' := src') hE hl hsl).1 hnl
        have hnr : ¬ Known env sr := fun h => hk ⟨hnl, h⟩
        rcases ihr hr hsr hnr with ⟨c, msg, hu, hev⟩ | ⟨hu, hev⟩
        · exact .inl ⟨c, msg, .connRight hnl hu, hbinr (evalSymM_ok.2 hea) hev⟩
        · exact .inr ⟨.connRight hnl hu, cbinr (evalSymM_ok.2 hea) hev⟩
      · rcases ihl hl hsl hnl with ⟨c, msg, hu, hev⟩ | ⟨hu, hev⟩
        · exact .inl ⟨c, msg, .connLeft hu, hbinl hev⟩
        · exact .inr ⟨.connLeft hu, cbinl hev⟩
    · simp [h1, h2] at h
      obtain ⟨t, hj, hord, rfl⟩ := h
      by_cases hnl : Known env sl
      · obtain ⟨a, va, hea, hva, hpa, hma⟩ := (evalSym_means (src' := src') hE hl hsl).1 hnl
        have hnr : ¬ Known env sr := fun h => hk ⟨hnl, h⟩
        by_cases hpt : PosWidth t
        · have hnb : ¬ NoBits (sigOf (.table ks)) sl sr := by
            rintro ⟨hil, tr, htr', hw0⟩
            obtain rfl := hasTy_unique htr htr'
            have hli := hasTy_unique htl hil
            have htr0 : t = r'.ty := by
              rcases isJoin_cases hj with h | h
              · rw [hli] at h
                rw [h] at hj
                rcases castsTo_iff.1 hj.2.1 with h3 | h3
                · exact h.trans h3.symm
                · generalize r'.ty = u at h3
                  cases u <;> simp [strictlyAbove] at h3
              · exact h
            rw [htr0] at hpt
            exact posWidth_zero hpt hw0
          rcases evalSym_cast hj.1 hpt hea hva with ⟨w, hw, hne, he⟩ | ⟨a', ha', hva'⟩
          · subst hw
            have hrt : r'.ty = .range w := by
              rcases isJoin_cases hj with h | h
              · exact (hne h.symm).elim
              · exact h.symm
            exact .inl ⟨_, _, .cmpRange hnl hnb (hrt ▸ htr), hbinl (evalSymM_cast_range hea he)⟩
          · have hnr' : ∀ w, ¬ HasTy (sigOf (.table ks)) sr (.range w) := by
              intro w hw
              have hrt := hasTy_unique htr hw
              have := symVal_not_range hva' w
              rw [hrt] at hj
              have h3 := castsTo_iff.1 hj.2.1
              rcases h3 with h3 | h3
              · exact this h3.symm
              · cases t <;> simp [strictlyAbove] at h3
            rcases ihr hr hsr hnr with ⟨c, msg, hu, hev⟩ | ⟨hu, hev⟩
            · exact .inl ⟨c, msg, .cmpRight hnl hnb hnr' hu, hbinr (evalSymM_ok.2 ha') (evalSymM_cast_err hev)⟩
            · exact .inr ⟨.cmpRight hnl hu, cbinr (evalSymM_ok.2 ha') (evalSymM_cast_crash hev)⟩
        · -- the width of the right hand side is 0
          have hne : l'.ty ≠ t := fun e => hpt (e ▸ hpa)
          have htr0 : t = r'.ty := by
            rcases isJoin_cases hj with h | h
            · exact (hne h.symm).elim
            · exact h
          have hw0 : HasWidth t 0 := by
            obtain ⟨w, hw⟩ : ∃ w, HasWidth t w := by
              cases t <;> first | exact ⟨_, by constructor⟩ | exact absurd trivial hpt
            have h0 : 0 ≤ w := width_nonneg hnn (htr0 ▸ htr) hw
            have : w = 0 := by
              cases hw <;> simp only [PosWidth] at hpt <;> omega
            exact this ▸ hw
          have hab : strictlyAbove t l'.ty = true := (castsTo_iff.1 hj.1).resolve_left hne
          have hli : l'.ty = .arbitraryInt := by
            generalize l'.ty = u at hab hpa hne
            cases u with
            | arbitraryInt => rfl
            | fixedUnsigned v =>
              exfalso
              cases hw0 <;> simp [strictlyAbove, typeBitwidth] at hab <;> simp only [PosWidth] at hpa <;> omega
            | _ => exfalso; cases hw0 <;> simp [strictlyAbove] at hab
          refine .inr ⟨.cmp hnl ⟨hli ▸ htl, t, htr0 ▸ htr, hw0⟩, cbinl ?_⟩
          exact evalSymM_cast_bitless (evalSymM_ok.2 hea) hva hli (hli ▸ hab) hw0
      · rcases ihl hl hsl hnl with ⟨c, msg, hu, hev⟩ | ⟨hu, hev⟩
        · exact .inl ⟨c, msg, .cmpLeft hu, hbinl (evalSymM_cast_err hev)⟩
        · exact .inr ⟨.cmpLeft hu, cbinl (evalSymM_cast_crash hev)⟩

/-! ### Keys -/

theorem hasWidth_iff {t : Ty} {w : Int} : HasWidth t w ↔ typeBitwidth t = some w := by
  constructor
  · intro h; cases h <;> rfl
  · intro h; cases t <;> cases h <;> constructor

theorem keyText_eq (x : SymTexts) (ki : VarInfo) : keyText x ki = keyInfoText x ki := rfl

/-- A key that is not skipped. -/
theorem addSymbolicKeyM_cases (x : SymTexts) {skip : Str → MRes Bool} {n : Str} {ki : VarInfo}
    (hnn : ∀ w, HasWidth ki.ty w → 0 ≤ w) (hs : skip n = .ok false) :
    (SymSupported ki.ty ∧ ∃ k a, addSymbolicKeyM x ki = .ok (k, a)) ∨
    ∃ c m, KeyFault x skip n ki c m ∧ addSymbolicKeyM x ki = .err c m := by
  cases hw : typeBitwidth ki.ty with
  | none =>
    refine .inr ⟨_, _, .noWidth hs ?_, ?_⟩
    · intro w h; rw [hasWidth_iff, hw] at h; cases h
    · simp only [addSymbolicKeyM, typeBitwidthOrStatusM, hw, err_bind]
  | some w =>
    have h0 := hnn w (hasWidth_iff.2 hw)
    by_cases hz : w = 0
    · subst hz
      refine .inr ⟨_, _, .zero hs (hasWidth_iff.2 hw), ?_⟩
      simp only [addSymbolicKeyM, typeBitwidthOrStatusM, hw, ok_bind, if_true, keyText_eq]
    · have hp : 0 < w := by omega
      have hsup : SymSupported ki.ty → (SymSupported ki.ty ∧ ∃ k a, addSymbolicKeyM x ki = .ok (k, a)) := by
        intro h
        refine ⟨h, ?_⟩
        obtain ⟨k, a, hk⟩ := (symSupported_iff (n := ki.name)).1 h
        have h1 := addSymbolicKey_iff.2 hk
        rw [← erase_addSymbolicKey x] at h1
        cases h2 : addSymbolicKeyM x ki <;> rw [h2] at h1 <;> cases h1
        exact ⟨k, a, rfl⟩
      cases ht : ki.ty with
      | range v =>
        rw [ht] at hw; cases hw
        refine .inr ⟨_, _, .range hs ht hz, ?_⟩
        simp only [addSymbolicKeyM, typeBitwidthOrStatusM, ht, typeBitwidth, ok_bind, if_neg hz, rangeText, rangesText]
      | fixedUnsigned v =>
        rw [ht] at hw; cases hw
        refine .inr ⟨_, _, .bits hs ht hz, ?_⟩
        simp only [addSymbolicKeyM, typeBitwidthOrStatusM, ht, typeBitwidth, ok_bind, if_neg hz, keyText_eq]
      | exact v => rw [ht] at hw hsup; cases hw; exact .inl (hsup (.exact hp))
      | ternary v => rw [ht] at hw hsup; cases hw; exact .inl (hsup (.ternary hp))
      | lpm v => rw [ht] at hw hsup; cases hw; exact .inl (hsup (.lpm hp))
      | optionalMatch v => rw [ht] at hw hsup; cases hw; exact .inl (hsup (.optional hp))
      | _ => rw [ht] at hw; cases hw

theorem keyFault_fine {x : SymTexts} {skip : Str → MRes Bool} {n : Str} {ki : VarInfo} {c : Code} {m : Str}
    (h : KeyFault x skip n ki c m) : ¬ KeyFine skip n ki := by
  have hsup : SymSupported ki.ty → ∃ w, HasWidth ki.ty w ∧ 0 < w ∧ (∀ v, ki.ty ≠ .range v) ∧
      ∀ v, ki.ty ≠ .fixedUnsigned v := by
    intro h
    cases h' : ki.ty <;> rw [h'] at h <;> cases h <;> exact ⟨_, by constructor, by assumption, nofun, nofun⟩
  intro hf
  cases h with
  | callback h =>
    rcases hf with hf | ⟨hf, _⟩ <;> rw [h] at hf <;> cases hf
  | noWidth h h1 =>
    rcases hf with hf | ⟨_, hf⟩
    · rw [h] at hf; cases hf
    · obtain ⟨w, hw, _⟩ := hsup hf
      exact h1 w hw
  | zero h h1 =>
    rcases hf with hf | ⟨_, hf⟩
    · rw [h] at hf; cases hf
    · obtain ⟨w, hw, hp, _⟩ := hsup hf
      rw [hasWidth_iff] at hw h1
      rw [hw] at h1
      cases h1
      omega
  | range h h1 =>
    rcases hf with hf | ⟨_, hf⟩
    · rw [h] at hf; cases hf
    · obtain ⟨w, _, _, hr, _⟩ := hsup hf
      exact hr _ h1
  | bits h h1 =>
    rcases hf with hf | ⟨_, hf⟩
    · rw [h] at hf; cases hf
    · obtain ⟨w, _, _, _, hr⟩ := hsup hf
      exact hr _ h1

/-- What the loop over the keys does with a key. -/
theorem keyFault_iff {x : SymTexts} {skip : Str → MRes Bool} {n : Str} {ki : VarInfo} (hret : Returns skip)
    (hnn : ∀ w, HasWidth ki.ty w → 0 ≤ w) {c : Code} {m : Str} :
    KeyFault x skip n ki c m ↔ skip n = .err c m ∨ skip n = .ok false ∧ addSymbolicKeyM x ki = .err c m := by
  constructor
  · intro h
    rcases hret n with ⟨b, hb⟩ | ⟨c', m', hc⟩
    · cases b with
      | true => exact (keyFault_fine h (.inl hb)).elim
      | false =>
        refine .inr ⟨hb, ?_⟩
        rcases addSymbolicKeyM_cases x hnn hb with ⟨hs, _⟩ | ⟨c', m', hf, he⟩
        · exact (keyFault_fine h (.inr ⟨hb, hs⟩)).elim
        · rw [he]
          cases h with
          | callback h => rw [hb] at h; cases h
          | noWidth _ h =>
            cases hf with
            | callback h => rw [hb] at h; cases h
            | noWidth _ _ => rfl
            | zero _ h' => exact (h _ h').elim
            | range _ h' _ => exact (h _ (by rw [h']; exact .range _)).elim
            | bits _ h' _ => exact (h _ (by rw [h']; exact .bit _)).elim
          | zero _ h =>
            cases hf with
            | callback h => rw [hb] at h; cases h
            | noWidth _ h' => exact (h' _ h).elim
            | zero _ h' => rfl
            | range _ h' h0 => rw [h'] at h; cases h; exact (h0 rfl).elim
            | bits _ h' h0 => rw [h'] at h; cases h; exact (h0 rfl).elim
          | range _ h h0 =>
            cases hf with
            | callback h => rw [hb] at h; cases h
            | noWidth _ h' => exact (h' _ (by rw [h]; exact .range _)).elim
            | zero _ h' => rw [h] at h'; cases h'; exact (h0 rfl).elim
            | range _ h' h0 => rfl
            | bits _ h' h0 => rw [h] at h'; cases h'
          | bits _ h h0 =>
            cases hf with
            | callback h => rw [hb] at h; cases h
            | noWidth _ h' => exact (h' _ (by rw [h]; exact .bit _)).elim
            | zero _ h' => rw [h] at h'; cases h'; exact (h0 rfl).elim
            | range _ h' h0 => rw [h] at h'; cases h'
            | bits _ h' h0 => rfl
    · cases h with
      | callback h => exact .inl h
      | noWidth h => rw [hc] at h; cases h
      | zero h => rw [hc] at h; cases h
      | range h => rw [hc] at h; cases h
      | bits h => rw [hc] at h; cases h
  · rintro (h | ⟨h, h1⟩)
    · exact .callback h
    · rcases addSymbolicKeyM_cases x hnn h with ⟨hs, k, a, hk⟩ | ⟨c', m', hf, he⟩
      · rw [hk] at h1; cases h1
      · rw [he] at h1; cases h1; exact hf

theorem key_fine_or {x : SymTexts} {skip : Str → MRes Bool} {n : Str} {ki : VarInfo} (hret : Returns skip)
    (hnn : ∀ w, HasWidth ki.ty w → 0 ≤ w) : KeyFine skip n ki ∨ ∃ c m, KeyFault x skip n ki c m := by
  rcases hret n with ⟨b, hb⟩ | ⟨c, m, h⟩
  · cases b with
    | true => exact .inl (.inl hb)
    | false =>
      rcases addSymbolicKeyM_cases x hnn hb with ⟨hs, _⟩ | ⟨c', m', hf, he⟩
      · exact .inl (.inr ⟨hb, hs⟩)
      · exact .inr ⟨c', m', hf⟩
  · exact .inr ⟨c, m, .callback h⟩

/-- The loop over the keys fails at the first key with which something is wrong. -/
theorem createKeysM_err {x : SymTexts} {skip : Str → MRes Bool} (hret : Returns skip) : ∀ (l : List (Str × VarInfo))
    (ks : List (Str × SymKey)) (as : List (Term .bool)), (∀ p ∈ l, ∀ w, HasWidth p.2.ty w → 0 ≤ w) → ∀ {c m},
    (createKeysM x skip ks as l = .err c m ↔ ∃ pre n ki post, l = pre ++ (n, ki) :: post ∧
      (∀ p ∈ pre, KeyFine skip p.1 p.2) ∧ KeyFault x skip n ki c m)
  | [], ks, as, _, c, m => by
    constructor
    · intro h; cases h
    · rintro ⟨pre, n, ki, post, h, _⟩; simp at h
  | (n, ki) :: rest, ks, as, hl, c, m => by
    have hnn := hl (n, ki) (by simp)
    have ih := fun ks as => createKeysM_err hret rest ks as (fun p hp => hl p (by simp [hp])) (c := c) (m := m) (x := x)
    have step : ∀ ks' as', KeyFine skip n ki →
        (createKeysM x skip ks' as' rest = .err c m ↔ ∃ pre n' ki' post, (n, ki) :: rest = pre ++ (n', ki') :: post ∧
          (∀ p ∈ pre, KeyFine skip p.1 p.2) ∧ KeyFault x skip n' ki' c m) := by
      intro ks' as' hf
      rw [ih]
      constructor
      · rintro ⟨pre, n', ki', post, h1, h2, h3⟩
        refine ⟨(n, ki) :: pre, n', ki', post, by rw [h1]; rfl, ?_, h3⟩
        intro p hp
        rcases List.mem_cons.1 hp with rfl | hp
        · exact hf
        · exact h2 p hp
      · rintro ⟨pre, n', ki', post, h1, h2, h3⟩
        cases pre with
        | nil =>
          simp only [List.nil_append, List.cons.injEq, Prod.mk.injEq] at h1
          obtain ⟨⟨rfl, rfl⟩, _⟩ := h1
          exact (keyFault_fine h3 hf).elim
        | cons p pre =>
          simp only [List.cons_append, List.cons.injEq] at h1
          exact ⟨pre, n', ki', post, h1.2, fun q hq => h2 q (by simp [hq]), h3⟩
    have stop : ∀ c' m', KeyFault x skip n ki c' m' → ((c' = c ∧ m' = m) ↔ ∃ pre n' ki' post,
        (n, ki) :: rest = pre ++ (n', ki') :: post ∧
          (∀ p ∈ pre, KeyFine skip p.1 p.2) ∧ KeyFault x skip n' ki' c m) := by
      intro c' m' hf
      constructor
      · rintro ⟨rfl, rfl⟩
        exact ⟨[], n, ki, rest, rfl, nofun, hf⟩
      · rintro ⟨pre, n', ki', post, h1, h2, h3⟩
        cases pre with
        | nil =>
          simp only [List.nil_append, List.cons.injEq, Prod.mk.injEq] at h1
          obtain ⟨⟨rfl, rfl⟩, _⟩ := h1
          rw [keyFault_iff hret hnn] at hf h3
          rcases hf with hf | ⟨hf, hf'⟩ <;> rcases h3 with h3 | ⟨h3, h3'⟩
          · rw [hf] at h3; cases h3; exact ⟨rfl, rfl⟩
          · rw [hf] at h3; cases h3
          · rw [hf] at h3; cases h3
          · rw [hf'] at h3'; cases h3'; exact ⟨rfl, rfl⟩
        | cons p pre =>
          simp only [List.cons_append, List.cons.injEq] at h1
          obtain ⟨rfl, _⟩ := h1
          exact (keyFault_fine hf (h2 (n, ki) (by simp))).elim
    unfold createKeysM
    rcases hret n with ⟨b, hb⟩ | ⟨c', m', hc⟩
    · rw [hb]
      cases b with
      | true =>
        simp only [ok_bind, if_true]
        exact step ks as (.inl hb)
      | false =>
        simp only [ok_bind, Bool.false_eq_true, if_false]
        rcases addSymbolicKeyM_cases x hnn hb with ⟨hs, k, a, hk⟩ | ⟨c', m', hf, he⟩
        · rw [hk]
          exact step _ _ (.inr ⟨hb, hs⟩)
        · rw [he]
          simp only [err_bind]
          rw [← stop c' m' hf]
          simp
    · rw [hc]
      simp only [err_bind]
      rw [← stop c' m' (.callback hc)]
      simp

theorem createKeysM_ok {x : SymTexts} {skip : Str → MRes Bool} : ∀ (l : List (Str × VarInfo))
    (ks : List (Str × SymKey)) (as : List (Term .bool)), (∀ p ∈ l, KeyFine skip p.1 p.2) →
    ∃ q, createKeysM x skip ks as l = .ok q := by
  intro l ks as h
  obtain ⟨ks', as', h1⟩ := createKeys_total (skip := fun n => (skip n).erase) l ks as (by
    intro n ki hm
    rcases h (n, ki) hm with h | ⟨h, hs⟩
    · exact .inl (by simp only at h; rw [h]; rfl)
    · exact .inr ⟨by simp only at h; rw [h]; rfl, symSupported_iff.1 hs⟩)
  rw [← erase_createKeys x] at h1
  cases h2 : createKeysM x skip ks as l <;> rw [h2] at h1 <;> cases h1
  exact ⟨_, rfl⟩

/-- The loop of `Create` over the keys of the table. -/
theorem createKeysM_table {x : SymTexts} {skip : Str → MRes Bool} {ti : TableInfo} (hret : Returns skip)
    (hwf : TableWF ti) (hnn : ∀ n ki w, (n, ki) ∈ ti.keysByName → HasWidth ki.ty w → 0 ≤ w) :
    (∀ n ki, (n, ki) ∈ ti.keysByName → KeyFine skip n ki) ∨
    ∃ c m n ki, createKeysM x skip [] [] (ordered ti.keysByName) = .err c m ∧ (n, ki) ∈ ti.keysByName ∧
      KeyFault x skip n ki c m ∧ ∀ n' ki', (n', ki') ∈ ti.keysByName → Before n' n → KeyFine skip n' ki' := by
  have hnn' : ∀ p ∈ ordered ti.keysByName, ∀ w, HasWidth p.2.ty w → 0 ≤ w :=
    fun p hp w h => hnn p.1 p.2 w (ordered_mem.1 hp) h
  have hsort := ordered_sorted hwf.nodupName
  have main : ∀ l : List (Str × VarInfo), (∀ p ∈ l, ∀ w, HasWidth p.2.ty w → 0 ≤ w) →
      (∀ p ∈ l, KeyFine skip p.1 p.2) ∨ ∃ pre n ki post c m, l = pre ++ (n, ki) :: post ∧
      (∀ p ∈ pre, KeyFine skip p.1 p.2) ∧ KeyFault x skip n ki c m := by
    intro l
    induction l with
    | nil => intro _; exact .inl nofun
    | cons p l ih =>
      intro h
      obtain ⟨n, ki⟩ := p
      rcases key_fine_or (x := x) hret (h (n, ki) (by simp)) (n := n) with hf | ⟨c, m, hf⟩
      · rcases ih fun p hp => h p (by simp [hp]) with h1 | ⟨pre, n', ki', post, c, m, h1, h2, h3⟩
        · left
          intro p hp
          rcases List.mem_cons.1 hp with rfl | hp
          · exact hf
          · exact h1 p hp
        · right
          refine ⟨(n, ki) :: pre, n', ki', post, c, m, by rw [h1]; rfl, ?_, h3⟩
          intro p hp
          rcases List.mem_cons.1 hp with rfl | hp
          · exact hf
          · exact h2 p hp
      · exact .inr ⟨[], n, ki, l, c, m, rfl, nofun, hf⟩
  rcases main _ hnn' with h | ⟨pre, n, ki, post, c, m, h1, h2, h3⟩
  · exact .inl fun n ki hm => h (n, ki) (ordered_mem.2 hm)
  · right
    refine ⟨c, m, n, ki, (createKeysM_err hret _ _ _ hnn').2 ⟨pre, n, ki, post, h1, h2, h3⟩, ?_, h3, ?_⟩
    · exact ordered_mem.1 (by rw [h1]; simp)
    · intro n' ki' hm hb
      have hm' := ordered_mem.2 hm
      rw [h1] at hm' hsort
      rcases List.mem_append.1 hm' with hp | hp
      · exact h2 _ hp
      · exfalso
        have hlt := strLt_iff.2 hb
        rcases List.mem_cons.1 hp with he | hp
        · cases he
          rw [strLt_irrefl] at hlt
          cases hlt
        · have hs := (List.pairwise_append.1 hsort).2.1
          have h5 := (List.pairwise_cons.1 hs).1 _ hp
          have h6 := strLt_trans h5 hlt
          rw [strLt_irrefl] at h6
          cases h6

/-! ### The solver -/

/-- Some environment is described by the solver. -/
theorem corr_exists {ti : TableInfo} {skip : Str → Res Bool} {ks : List (Str × SymKey)} {as : List (Term .bool)}
    {s : Solver} {cs : List Expr} (h : SolverInv ti skip ks as s cs) (hwf : TableWF ti) (m : Interp) :
    ∃ ρ, EnvCorr m (sigOf (.table ti.keysByName)) s.env ρ := by
  classical
  obtain ⟨hk1, hk2, _⟩ := h.key hwf
  have hval : ∀ n k, lookup n ks = some k → ∃ t v, (sigOf (.table ti.keysByName)).key n = some t ∧ PosWidth t ∧
      SymVal m t (.key k) v := by
    intro n k hn
    obtain ⟨ki, hm⟩ := hk2 n k hn
    rcases hk1 n ki hm with ⟨_, h0⟩ | ⟨_, k', a, hs, hn', _⟩
    · rw [hn] at h0; cases h0
    · rw [hn] at hn'
      cases hn'
      obtain ⟨v, hv, hp⟩ := symKeyFor_val hs m
      refine ⟨ki.ty, v, ?_, hp, hv⟩
      have hl := (lookup_iff_mem hwf.nodupName).2 hm
      simp [sigOf, hl]
  refine ⟨⟨fun n => if hx : ∃ v, ∃ k t, lookup n ks = some k ∧ (sigOf (.table ti.keysByName)).key n = some t ∧
      SymVal m t (.key k) v then some hx.choose else none, fun _ => none, some (priorityTerm.den m)⟩, ?_, ?_⟩
  · intro n k hn
    rw [h.env] at hn
    have hn' : lookup n ks = some k := hn
    obtain ⟨t, v, ht, hp, hv⟩ := hval n k hn'
    have hx : ∃ v, ∃ k t, lookup n ks = some k ∧ (sigOf (.table ti.keysByName)).key n = some t ∧
      SymVal m t (.key k) v := ⟨v, k, t, hn', ht, hv⟩
    obtain ⟨k', t', h1, h2, h3⟩ := hx.choose_spec
    rw [hn'] at h1
    cases h1
    exact ⟨t', hx.choose, h2, by simp only [dif_pos hx], by rw [ht] at h2; cases h2; exact hp, h3⟩
  · intro n z hn
    rw [h.env] at hn
    simp only [solverEnv] at hn
    split at hn
    · simp only [lookup] at hn
      split at hn
      · rename_i he
        cases hn
        exact ⟨he.symm, _, rfl, rfl⟩
      · cases hn
    · cases hn

section

variable {ti : TableInfo} {skip : Str → MRes Bool} {ks : List (Str × SymKey)} {as : List (Term .bool)}
  {s : Solver} {cs : List Expr}

theorem fine_of_inv (h : SolverInv ti (fun n => (skip n).erase) ks as s cs) (hwf : TableWF ti) :
    ∀ n ki, (n, ki) ∈ ti.keysByName → KeyFine skip n ki := by
  have erase_inv : ∀ {r : MRes Bool} {b}, r.erase = .ok b → r = .ok b := by
    intro r b h; cases r <;> cases h; rfl
  intro n ki hm
  rcases (h.key hwf).1 n ki hm with ⟨h1, _⟩ | ⟨h1, k, a, h2, _⟩
  · exact .inl (erase_inv h1)
  · exact .inr ⟨erase_inv h1, symSupported_iff.2 ⟨k, a, h2⟩⟩

theorem names_of_inv (h : SolverInv ti (fun n => (skip n).erase) ks as s cs) (hwf : TableWF ti) :
    (∀ n, hasKey n s.env.keys = true ↔ Represented ti skip n) ∧
    (∀ n, hasKey n s.env.attrs = true ↔ RepresentedAttr ti n) := by
  have hf := fine_of_inv h hwf
  constructor
  · intro n
    have := known_iff h hwf (.key n)
    simp only [Known, Expressible, NamesIn] at this
    rw [this]
    constructor
    · rintro ⟨ki, hm, hs⟩
      refine ⟨ki, hm, ?_⟩
      rcases hf n ki hm with h1 | ⟨h1, _⟩
      · exact (hs (by rw [h1]; rfl)).elim
      · exact h1
    · rintro ⟨ki, hm, hs⟩
      exact ⟨ki, hm, by rw [hs]; nofun⟩
  · intro n
    have := known_iff h hwf (.attr n)
    simpa only [Known, Expressible, NamesIn, RepresentedAttr] using this

/-- What becomes of a constraint. -/
theorem evaluateM_cases (x : SymTexts) (h : SolverInv ti (fun n => (skip n).erase) ks as s cs) (hwf : TableWF ti)
    (hw : NonNegWidths ti) {e : Expr} {se : SExpr} (hch : Checked (.table ti.keysByName) e se) (src : ConstraintSource) :
    (∃ c m, SolverFault x ti skip e se c m ∧ evaluateConstraintSymbolicallyM x e src s.env = .err c m) ∨
    (SolverCrash ti skip e se ∧ evaluateConstraintSymbolicallyM x e src s.env = .crash) ∨
    (e.ty = .boolean ∧ Expressible ti (fun n => (skip n).erase = .ok true) se ∧
      ∃ t, evaluateConstraintSymbolicallyM x e src s.env = .ok ⟨.bool, t⟩) := by
  obtain ⟨hK, hA⟩ := names_of_inv h hwf
  by_cases hb : e.ty = .boolean
  · by_cases hk : Known s.env se
    · right; right
      refine ⟨hb, (known_iff h hwf se).1 hk, ?_⟩
      obtain ⟨ρ, hE⟩ := corr_exists h hwf zeroInterp
      obtain ⟨t, ht, _⟩ := formula_means (src := src) hE hch hb hk
      rw [← erase_evaluate x] at ht
      cases h2 : evaluateConstraintSymbolicallyM x e src s.env <;> rw [h2] at ht <;> cases ht
      exact ⟨t, rfl⟩
    · obtain ⟨ρ, hE⟩ := corr_exists h hwf zeroInterp
      obtain ⟨src0, e0, hi, ha⟩ := hch
      have hnn : ∀ n t w, (sigOf (.table ti.keysByName)).key n = some t → HasWidth t w → 0 ≤ w := by
        intro n t w ht hw'
        simp only [sigOf, Option.map_eq_some_iff] at ht
        obtain ⟨ki, hl, rfl⟩ := ht
        exact hw n ki w (lookup_some_mem hl) hw'
      rcases evalSymM_untranslatable x (src' := src) hE hnn hi ha hk with ⟨c, m, hu, hev⟩ | ⟨hu, hev⟩
      · left
        refine ⟨c, m, .untranslatable hb (untranslatable_congr hK hA hu), ?_⟩
        unfold evaluateConstraintSymbolicallyM
        rw [if_neg (by simp [hb]), hev]
        rfl
      · right; left
        refine ⟨⟨hb, bitless_congr hK hA hu⟩, ?_⟩
        unfold evaluateConstraintSymbolicallyM
        rw [if_neg (by simp [hb]), hev]
        rfl
  · left
    refine ⟨_, _, .type hb, ?_⟩
    unfold evaluateConstraintSymbolicallyM
    rw [if_pos hb]

theorem represented_not_range (h : ∀ n ki, (n, ki) ∈ ti.keysByName → KeyFine skip n ki) (hwf : TableWF ti) :
    ∀ n w, Represented ti skip n → (sigOf (.table ti.keysByName)).key n ≠ some (.range w) := by
  rintro n w ⟨ki, hm, hs⟩ hk
  have hl := (lookup_iff_mem hwf.nodupName).2 hm
  simp only [sigOf, hl, Option.map_some, Option.some.injEq] at hk
  rcases h n ki hm with h1 | ⟨_, h1⟩
  · rw [hs] at h1; cases h1
  · rw [hk] at h1; cases h1

theorem represented_bits (h : ∀ n ki, (n, ki) ∈ ti.keysByName → KeyFine skip n ki) (hwf : TableWF ti) :
    HasBits (sigOf (.table ti.keysByName)) (Represented ti skip) := by
  rintro n ⟨ki, hm, hs⟩ t hk
  have hl := (lookup_iff_mem hwf.nodupName).2 hm
  simp only [sigOf, hl, Option.map_some, Option.some.injEq] at hk
  subst hk
  rcases h n ki hm with h1 | ⟨_, h1⟩
  · rw [hs] at h1; cases h1
  · generalize ki.ty = t at h1
    cases h1 <;> assumption

theorem solverCrash_fault {x : SymTexts} (h : ∀ n ki, (n, ki) ∈ ti.keysByName → KeyFine skip n ki)
    (hwf : TableWF ti) {e : Expr} {se : SExpr} {c : Code} {m : Str} (h1 : SolverCrash ti skip e se) :
    ¬ SolverFault x ti skip e se c m := by
  intro h2
  cases h2 with
  | type h2 => exact h2 h1.1
  | untranslatable _ h2 => exact bitless_untranslatable (represented_bits h hwf) (represented_not_range h hwf) (fun _ => rfl) h1.2 h2

theorem represented_of_expressible (h : ∀ n ki, (n, ki) ∈ ti.keysByName → KeyFine skip n ki) {se : SExpr}
    (hx : Expressible ti (fun n => (skip n).erase = .ok true) se) : NamesIn (Represented ti skip) (RepresentedAttr ti) se := by
  refine namesIn_imp ?_ (fun _ h => h) _ hx
  rintro n ⟨ki, hm, hs⟩
  refine ⟨ki, hm, ?_⟩
  rcases h n ki hm with h1 | ⟨h1, _⟩
  · exact (hs (by show (skip n).erase = _; rw [h1]; rfl)).elim
  · exact h1

theorem solverCrash_expressible (h : ∀ n ki, (n, ki) ∈ ti.keysByName → KeyFine skip n ki)
    (hwf : TableWF ti) {e : Expr} {se : SExpr} (h1 : SolverCrash ti skip e se)
    (hx : Expressible ti (fun n => (skip n).erase = .ok true) se) : False :=
  bitless_names (represented_bits h hwf) (fun _ => rfl) h1.2 (represented_of_expressible h hx)

theorem solverFault_unique {x : SymTexts} (h : ∀ n ki, (n, ki) ∈ ti.keysByName → KeyFine skip n ki)
    (hwf : TableWF ti) {e : Expr} {se : SExpr} {c c' : Code} {m m' : Str} (h1 : SolverFault x ti skip e se c m)
    (h2 : SolverFault x ti skip e se c' m') : c = c' ∧ m = m' := by
  cases h1 with
  | type h1 =>
    cases h2 with
    | type _ => exact ⟨rfl, rfl⟩
    | untranslatable h2 _ => exact (h1 h2).elim
  | untranslatable hb h1 =>
    cases h2 with
    | type h2 => exact (h2 hb).elim
    | untranslatable _ h2 => exact untranslatable_unique (represented_not_range h hwf) (by intro n w hw; simp [sigOf] at hw) h1 h2

theorem solverFault_expressible {x : SymTexts} (h : ∀ n ki, (n, ki) ∈ ti.keysByName → KeyFine skip n ki)
    (hwf : TableWF ti) {e : Expr} {se : SExpr} {c : Code} {m : Str} (h1 : SolverFault x ti skip e se c m)
    (hb : e.ty = .boolean) (hx : Expressible ti (fun n => (skip n).erase = .ok true) se) : False := by
  cases h1 with
  | type h1 => exact h1 hb
  | untranslatable _ h1 =>
    exact untranslatable_names (represented_not_range h hwf) (by intro n w hw; simp [sigOf] at hw) h1
      (represented_of_expressible h hx)

end

end P4C
