import Verif.Proofs.Debug
import Verif.Proofs.Maps
import Verif.Proofs.Typing

/-
Lemmas for C103: the `DCHECK`s of the type checker and the interpreter hold.
-/

namespace P4C

open Spec

/-! ### The type checker -/

theorem widthNot_iff {t : Ty} : WidthNotMinusOne t ↔ typeBitwidth t ≠ some (-1) := by
  cases t <;> simp [WidthNotMinusOne, typeBitwidth]

theorem sized_iff {t : Ty} : Sized t ↔ (typeBitwidth t).getD (-1) ≠ -1 := by
  constructor
  · rintro ⟨w, hw, rfl | rfl | rfl | rfl | rfl | rfl⟩ <;> simpa [typeBitwidth] using hw
  · intro h
    cases t <;> first
      | (simp [typeBitwidth] at h; done)
      | (rename_i w; exact ⟨w, by simpa [typeBitwidth] using h, by simp⟩)

theorem strictlyAbove_self (t : Ty) : strictlyAbove t t = false := by cases t <;> rfl

theorem castTransitively_ty {e : Expr} {t : Ty} (h : e.ty = t ∨ strictlyAbove t e.ty = true) :
    (castTransitivelyTo e t).ty = t := by
  rcases h with h | h
  · have h1 : castIntStep e t = e := by simp [castIntStep, h, strictlyAbove_self]
    simp [castTransitivelyTo, h1, h, strictlyAbove_self]
  · by_cases hi : e.ty = .arbitraryInt
    · have h1 : castIntStep e t = wrapWithCast e (.fixedUnsigned ((typeBitwidth t).getD (-1))) := by
        unfold castIntStep; rw [if_pos ⟨h, hi⟩]
      have h2 : ∀ t, (wrapWithCast e t).ty = t := fun _ => rfl
      have h3 : ∀ e' t, (wrapWithCast e' t).ty = t := fun _ _ => rfl
      rw [hi] at h
      simp only [castTransitivelyTo, h1, h2]
      split
      · exact h3 _ _
      · rename_i hn
        rw [h2]
        revert h hn
        cases t <;> simp [strictlyAbove, typeBitwidth, isFixedUnsigned]
    · have h1 : castIntStep e t = e := by unfold castIntStep; rw [if_neg (fun x => hi x.2)]
      have hf : isFixedUnsigned e.ty = true := by
        revert h hi
        cases t <;> cases e.ty <;> simp [strictlyAbove, isFixedUnsigned]
      simp only [castTransitivelyTo, h1, h, hf, and_self, if_true]
      rfl

theorem castD_dbg (m : Checks) {e : Expr} {t : Ty} (h : e.ty = t ∨ strictlyAbove t e.ty = true) :
    Dbg m (WidthNotMinusOne t) (castTransitivelyToD m e t) (.ok (castTransitivelyTo e t)) := by
  unfold castTransitivelyToD
  refine Dbg.bind_ok (a := castIntStep e t) ?_ ?_
  · unfold castIntStepD castIntStep
    split
    · rename_i hi
      refine Dbg.bind_ok (dcheck_dbg m fun hw => ?_) (.refl _)
      rw [widthNot_iff] at hw
      have := hi.1
      rw [hi.2] at this
      apply decide_eq_true
      revert this hw
      cases t <;> simp [strictlyAbove, typeBitwidth]
    · exact .refl _
  · refine Dbg.bind_ok (.inl (dcheck_ok m ?_)) (.refl _)
    have := castTransitively_ty h
    unfold castTransitivelyTo at this
    simpa using this

theorem lub_cases {l r t : Ty} (h : leastUpperBound l r = some t) :
    (t = l ∨ t = r) ∧ (l = t ∨ strictlyAbove t l = true) ∧ (r = t ∨ strictlyAbove t r = true) := by
  unfold leastUpperBound at h
  split at h
  · rename_i he; cases h; exact ⟨.inl rfl, .inl rfl, .inl he.symm⟩
  split at h
  · rename_i ha; cases h; exact ⟨.inl rfl, .inl rfl, .inr ha⟩
  split at h
  · rename_i ha; cases h; exact ⟨.inr rfl, .inr ha, .inl rfl⟩
  · cases h

theorem unifyD_dbg (m : Checks) (src : ConstraintSource) (l r : Expr) :
    Dbg m (WidthNotMinusOne l.ty ∧ WidthNotMinusOne r.ty) (unifyD m src l r) (unify src l r) := by
  unfold unifyD unify
  cases h : leastUpperBound l.ty r.ty with
  | none => exact .refl _
  | some t =>
    obtain ⟨ht, hl, hr⟩ := lub_cases h
    have hw : WidthNotMinusOne l.ty ∧ WidthNotMinusOne r.ty → WidthNotMinusOne t := by
      rintro ⟨h1, h2⟩
      rcases ht with rfl | rfl <;> assumption
    exact Dbg.bind_ok ((castD_dbg m hl).mono hw) (Dbg.bind_ok ((castD_dbg m hr).mono hw) (.refl _))

theorem fieldType_sized {t t' : Ty} {f : Str} (h : fieldTypeOfCompositeType t f = some t') :
    (typeBitwidth t).isSome = true ∧ (t' = .arbitraryInt ∨ ∃ w, typeBitwidth t = some w ∧ t' = .fixedUnsigned w) := by
  unfold fieldTypeOfCompositeType at h
  cases hk : kFieldTypes t.case f with
  | none => simp [hk] at h
  | some c =>
    rw [hk] at h
    simp only [Option.some.injEq] at h
    subst h
    have hm := lookup_some_mem hk
    cases t <;> simp [Ty.case] at hm <;> simp only [typeBitwidth, Option.isSome_some, true_and]
    all_goals
      have hc : c = .fixedUnsigned ∨ c = .arbitraryInt := by grind
      rcases hc with rfl | rfl <;> simp [typeCaseToType, setTypeBitwidth]

theorem fieldTypeD_ok (m : Checks) (t : Ty) (f : Str) :
    fieldTypeOfCompositeTypeD m t f = .ok (fieldTypeOfCompositeType t f) := by
  cases hf : fieldTypeOfCompositeType t f with
  | none =>
    unfold fieldTypeOfCompositeTypeD
    unfold fieldTypeOfCompositeType at hf
    cases hk : kFieldTypes t.case f with
    | none => rfl
    | some c => simp [hk] at hf
  | some t' =>
    have := (fieldType_sized hf).1
    unfold fieldTypeOfCompositeTypeD
    unfold fieldTypeOfCompositeType at hf
    cases hk : kFieldTypes t.case f with
    | none => simp [hk] at hf
    | some c =>
      rw [hk] at hf
      simp only [log_ok m this, ← hf]
      rfl

/-- No width in scope is -1. -/
def ScopeSized (sc : Scope) : Prop := ∀ x ∈ scopeVars sc, WidthNotMinusOne x.2.ty

theorem everywhere_root {P : Expr → Prop} {e : Expr} (h : Everywhere P e) : P e := by
  cases e <;> simp only [Everywhere] at h <;> first | exact h | exact h.1

theorem castTransitively_sized {e : Expr} {t : Ty} (he : Everywhere SizedCast e) (ht : WidthNotMinusOne t) :
    Everywhere SizedCast (castTransitivelyTo e t) := by
  rw [widthNot_iff] at ht
  have hwrap : ∀ {e : Expr} {t : Ty}, Everywhere SizedCast e → Sized t → Everywhere SizedCast (wrapWithCast e t) := by
    intro e t he ht
    refine ⟨?_, he⟩
    intro i e' h
    cases h
    exact ht
  have hstep : Everywhere SizedCast (castIntStep e t) := by
    unfold castIntStep
    split
    · rename_i h
      refine hwrap he (sized_iff.2 ?_)
      revert ht
      have := h.1
      revert this
      rw [h.2]
      cases t <;> simp [strictlyAbove, typeBitwidth]
    · exact he
  unfold castTransitivelyTo
  simp only
  split
  · rename_i h
    refine hwrap hstep (sized_iff.2 ?_)
    revert ht
    have := h.1
    revert this
    cases t <;> simp [strictlyAbove, typeBitwidth]
  · exact hstep

theorem infer_sized {src : ConstraintSource} {sc : Scope} (hsc : ScopeSized sc) {e e' : Expr}
    (h : inferAndCheck src sc e = .ok e') : WidthNotMinusOne e'.ty ∧ Everywhere SizedCast e' := by
  have hb : WidthNotMinusOne .boolean := by simp [WidthNotMinusOne]
  have hi : WidthNotMinusOne .arbitraryInt := by simp [WidthNotMinusOne]
  induction e generalizing e' with
  | boolConst i b => cases h; exact ⟨hb, by intro i e h; cases h⟩
  | intConst i s => cases h; exact ⟨hi, by intro i e h; cases h⟩
  | key i n =>
    unfold inferAndCheck at h
    cases sc with
    | action ps => exact (quotingError_ne_ok.1 h).elim
    | table ks =>
      simp only at h
      cases hl : lookup n ks with
      | none => rw [hl] at h; exact (quotingError_ne_ok.1 h).elim
      | some v =>
        rw [hl] at h
        simp only at h
        split at h
        · exact (quotingError_ne_ok.1 h).elim
        · cases h
          exact ⟨hsc _ (lookup_some_mem hl), by intro i e h; cases h⟩
  | actionParam i n =>
    unfold inferAndCheck at h
    cases sc with
    | table ps => exact (quotingError_ne_ok.1 h).elim
    | action ks =>
      simp only at h
      cases hl : lookup n ks with
      | none => rw [hl] at h; exact (quotingError_ne_ok.1 h).elim
      | some v =>
        rw [hl] at h
        simp only at h
        split at h
        · exact (quotingError_ne_ok.1 h).elim
        · cases h
          exact ⟨hsc _ (lookup_some_mem hl), by intro i e h; cases h⟩
  | boolNeg i e ih =>
    simp only [inferAndCheck, Res.bind_eq_ok] at h
    obtain ⟨e1, h1, h⟩ := h
    split at h
    · exact (quotingError_ne_ok.1 h).elim
    · cases h
      exact ⟨hb, And.intro (by intro i e h; cases h) (ih h1).2⟩
  | arithNeg i e ih =>
    simp only [inferAndCheck, Res.bind_eq_ok] at h
    obtain ⟨e1, h1, h⟩ := h
    split at h
    · exact (quotingError_ne_ok.1 h).elim
    · cases h
      exact ⟨hi, And.intro (by intro i e h; cases h) (ih h1).2⟩
  | typeCast i e _ => exact (quotingError_ne_ok.1 h).elim
  | bin i op l r ihl ihr =>
    simp only [inferAndCheck, Res.bind_eq_ok] at h
    obtain ⟨l1, hl, r1, hr, h⟩ := h
    have h1 := ihl hl
    have h2 := ihr hr
    have hunify : ∀ {op : BinOp}, (do
        let (t, l, r) ← unify src l1 r1
        if op ≠ .eq ∧ op ≠ .ne ∧ !typeHasOrdering t then quotingError src i.start i.stop
        else .ok (.bin (i.withTy .boolean) op l r) : Res Expr) = .ok e' →
        WidthNotMinusOne e'.ty ∧ Everywhere SizedCast e' := by
      intro op h
      simp only [Res.bind_eq_ok] at h
      obtain ⟨⟨t, l2, r2⟩, hu, h⟩ := h
      unfold unify at hu
      cases hlub : leastUpperBound l1.ty r1.ty with
      | none => rw [hlub] at hu; exact (quotingError_ne_ok.1 hu).elim
      | some t' =>
        rw [hlub] at hu
        cases hu
        have hw : WidthNotMinusOne t := by
          rcases (lub_cases hlub).1 with rfl | rfl
          · exact h1.1
          · exact h2.1
        simp only at h
        split at h
        · exact (quotingError_ne_ok.1 h).elim
        · cases h
          exact ⟨hb, And.intro (by intro i e h; cases h) (And.intro (castTransitively_sized h1.2 hw) (castTransitively_sized h2.2 hw))⟩
    cases op with
    | unknown => cases h
    | eq | ne | gt | ge | lt | le => exact hunify h
    | and | or | implies =>
      simp only at h
      split at h
      · exact (quotingError_ne_ok.1 h).elim
      split at h
      · exact (quotingError_ne_ok.1 h).elim
      · cases h
        exact ⟨hb, And.intro (by intro i e h; cases h) (And.intro h1.2 h2.2)⟩
  | field i e f ih =>
    simp only [inferAndCheck, Res.bind_eq_ok] at h
    obtain ⟨e1, h1, h⟩ := h
    cases hf : fieldTypeOfCompositeType e1.ty f with
    | none => rw [hf] at h; exact (quotingError_ne_ok.1 h).elim
    | some t =>
      rw [hf] at h
      cases h
      refine ⟨?_, And.intro (by intro i e h; cases h) (ih h1).2⟩
      rcases (fieldType_sized hf).2 with rfl | ⟨w, hw, rfl⟩
      · exact hi
      · have := widthNot_iff.1 (ih h1).1
        rw [hw] at this
        rw [widthNot_iff]
        exact this
  | attr i n =>
    unfold inferAndCheck at h
    cases ha : getAttributeInfo n with
    | none => rw [ha] at h; exact (quotingError_ne_ok.1 h).elim
    | some t =>
      rw [ha] at h
      simp only at h
      split at h
      · exact (runtimeTypeError_ne_ok.1 h).elim
      · cases h
        unfold getAttributeInfo at ha
        split at ha
        · cases ha; exact ⟨hi, by intro i e h; cases h⟩
        · cases ha
  | notSet i => exact (quotingError_ne_ok.1 h).elim

theorem inferD_dbg (m : Checks) (src : ConstraintSource) (sc : Scope) (e : Expr) :
    Dbg m (ScopeSized sc) (inferAndCheckD m src sc e) (inferAndCheck src sc e) := by
  induction e with
  | boolConst i b => exact .refl _
  | intConst i s => exact .refl _
  | key i n => exact .refl _
  | actionParam i n => exact .refl _
  | boolNeg i e ih => exact Dbg.bind ih fun _ _ => .refl _
  | arithNeg i e ih => exact Dbg.bind ih fun _ _ => .refl _
  | typeCast i e _ => exact .refl _
  | bin i op l r ihl ihr =>
    unfold inferAndCheckD inferAndCheck
    refine Dbg.bind ihl fun l1 hl => Dbg.bind ihr fun r1 hr => ?_
    have hw : ScopeSized sc → WidthNotMinusOne l1.ty ∧ WidthNotMinusOne r1.ty :=
      fun h => ⟨(infer_sized h hl).1, (infer_sized h hr).1⟩
    cases op with
    | unknown | and | or | implies => exact .refl _
    | eq | ne | gt | ge | lt | le => exact Dbg.bind ((unifyD_dbg m src l1 r1).mono hw) fun _ _ => .refl _
  | field i e f ih =>
    unfold inferAndCheckD inferAndCheck
    refine Dbg.bind ih fun e1 _ => ?_
    rw [fieldTypeD_ok]
    exact .refl _
  | attr i n => exact .refl _
  | notSet i => exact .refl _

/-! ### The interpreter -/

theorem castValueD_dbg (m : Checks) (ctx : EvalCtx) (e : Expr) (t : Ty) (v : Value) :
    Dbg m (Sized t) (castValueD m ctx e t v) (castValue ctx e t v) := by
  cases v with
  | int z => exact Dbg.bind_ok (dcheck_dbg m fun h => by simpa using sized_iff.1 h) (.refl _)
  | _ => exact .refl _

theorem toBoolWith_dbg {m : Checks} {P : Prop} {ctx : EvalCtx} {e : Expr} {p : Path} {d r : Cache → Res (Value × Cache)} {c : Cache}
    (h : ∀ c, Dbg m P (d c) (r c)) : Dbg m P (evalToBoolWith ctx e p d c) (evalToBoolWith ctx e p r c) := by
  unfold evalToBoolWith
  split
  · exact .refl _
  · exact Dbg.bind (h c) fun _ _ => .refl _

theorem toIntWith_dbg {m : Checks} {P : Prop} {ctx : EvalCtx} {e : Expr} {d r : Cache → Res (Value × Cache)} {c : Cache}
    (h : ∀ c, Dbg m P (d c) (r c)) : Dbg m P (evalToIntWith ctx e d c) (evalToIntWith ctx e r c) :=
  Dbg.bind (h c) fun _ _ => .refl _

theorem dynCheck_dbg {m : Checks} {P : Prop} {ctx : EvalCtx} {e : Expr} {d r : Res (Value × Cache)} (h : Dbg m P d r) :
    Dbg m P (dynCheck ctx e d) (dynCheck ctx e r) := Dbg.bind h fun _ _ => .refl _

theorem evalD_dbg (m : Checks) (ctx : EvalCtx) (e : Expr) (p : Path) (c : Cache) :
    Dbg m (Everywhere SizedCast e) (evalD m ctx e p c) (eval ctx e p c) := by
  induction e generalizing p c with
  | boolConst i b => exact .refl _
  | intConst i s => exact .refl _
  | key i n => exact .refl _
  | actionParam i n => exact .refl _
  | attr i n => exact .refl _
  | notSet i => exact .refl _
  | boolNeg i e ih =>
    unfold evalD eval
    exact dynCheck_dbg (Dbg.bind (toBoolWith_dbg fun c => (ih _ c).mono fun h => h.2) fun _ _ => .refl _)
  | arithNeg i e ih =>
    unfold evalD eval
    exact dynCheck_dbg (Dbg.bind (toIntWith_dbg fun c => (ih _ c).mono fun h => h.2) fun _ _ => .refl _)
  | typeCast i e ih =>
    unfold evalD eval
    exact dynCheck_dbg (Dbg.bind ((ih _ c).mono fun h => h.2) fun _ _ =>
      Dbg.bind ((castValueD_dbg m ctx e i.ty _).mono fun h => h.1 _ _ rfl) fun _ _ => .refl _)
  | field i e f ih =>
    unfold evalD eval
    exact dynCheck_dbg (Dbg.bind ((ih _ c).mono fun h => h.2) fun _ _ => .refl _)
  | bin i op l r ihl ihr =>
    unfold evalD eval
    have hl : ∀ p c, Dbg m (Everywhere SizedCast (.bin i op l r)) (evalD m ctx l p c) (eval ctx l p c) :=
      fun p c => (ihl p c).mono fun h => h.2.1
    have hr : ∀ p c, Dbg m (Everywhere SizedCast (.bin i op l r)) (evalD m ctx r p c) (eval ctx r p c) :=
      fun p c => (ihr p c).mono fun h => h.2.2
    refine dynCheck_dbg ?_
    cases op with
    | unknown => exact .refl _
    | eq | ne => exact Dbg.bind (hl _ _) fun _ _ => Dbg.bind (hr _ _) fun _ _ => .refl _
    | gt | ge | lt | le =>
      exact Dbg.bind (toIntWith_dbg (hl _)) fun _ _ => Dbg.bind (toIntWith_dbg (hr _)) fun _ _ => .refl _
    | and =>
      refine Dbg.bind (toBoolWith_dbg (hl _)) fun b _ => ?_
      simp only
      split
      · exact Dbg.bind (toBoolWith_dbg (hr _)) fun _ _ => .refl _
      · exact .refl _
    | or =>
      refine Dbg.bind (toBoolWith_dbg (hl _)) fun b _ => ?_
      simp only
      split
      · exact .refl _
      · exact Dbg.bind (toBoolWith_dbg (hr _)) fun _ _ => .refl _
    | implies =>
      refine Dbg.bind (toBoolWith_dbg (hl _)) fun b _ => ?_
      simp only
      split
      · exact Dbg.bind (toBoolWith_dbg (hr _)) fun _ _ => .refl _
      · exact .refl _

theorem evalToBoolD_dbg (m : Checks) (ctx : EvalCtx) (e : Expr) (p : Path) (c : EvalCache) :
    Dbg m (Everywhere SizedCast e) (evalToBoolD m ctx e p c) (evalToBoolC ctx e p c) :=
  Dbg.bind (toBoolWith_dbg fun c => evalD_dbg m ctx e p c) fun _ _ => .refl _

theorem minimalSub_everywhere {P : Expr → Prop} {ctx : EvalCtx} {e : Expr} {p : Path} {cs cs' : Caches} {n : Node}
    (he : Everywhere P e) (h : minimalSub ctx e p cs = .ok (n, cs')) : Everywhere P n.1 := by
  induction e generalizing p cs cs' n with
  | boolConst i b => cases h; exact he
  | boolNeg i e ih => exact ih he.2 h
  | bin i op l r ihl ihr =>
    unfold minimalSub at h
    have hcon : ∀ op : BinOp, (do
      let (lb, ec) ← evalToBoolC ctx l (0 :: p) cs.1
      let (rb, ec) ← evalToBoolC ctx r (1 :: p) ec
      let cs := (ec, cs.2)
      let lc := if op = .or then lb else !lb
      let rc := if op = .and then !rb else rb
      match lc, rc with
      | false, false => .ok ((.bin i op l r, p), cs)
      | true, false => minimalSub ctx l (0 :: p) cs
      | false, true => minimalSub ctx r (1 :: p) cs
      | true, true => do
        let (n0, cs) ← minimalSub ctx l (0 :: p) cs
        let (n1, cs) ← minimalSub ctx r (1 :: p) cs
        let (s0, sc) ← sizeC n0.1 n0.2 cs.2
        let (s1, sc) ← sizeC n1.1 n1.2 sc
        .ok (if s0 ≤ s1 then n0 else n1, (cs.1, sc)) : Res (Node × Caches)) = .ok (n, cs') →
        Everywhere P (.bin i op l r) → Everywhere P n.1 := by
      intro op h he
      simp only [Res.bind_eq_ok] at h
      obtain ⟨⟨lb, ec⟩, _, ⟨rb, ec'⟩, _, h⟩ := h
      simp only at h
      split at h
      · cases h; exact he
      · exact ihl he.2.1 h
      · exact ihr he.2.2 h
      · simp only [Res.bind_eq_ok] at h
        obtain ⟨⟨n0, c0⟩, h0, ⟨n1, c1⟩, h1, ⟨s0, sc⟩, _, ⟨s1, sc'⟩, _, h⟩ := h
        cases h
        split
        · exact ihl he.2.1 h0
        · exact ihr he.2.2 h1
    cases op with
    | unknown => cases h
    | eq | ne | gt | ge | lt | le => cases h; exact he
    | and => exact hcon .and h he
    | or => exact hcon .or h he
    | implies => exact hcon .implies h he
  | _ => cases h

theorem minimalSubD_dbg (m : Checks) (ctx : EvalCtx) (e : Expr) (p : Path) (cs : Caches) :
    Dbg m (Everywhere SizedCast e) (minimalSubD m ctx e p cs) (minimalSub ctx e p cs) := by
  induction e generalizing p cs with
  | boolNeg i e ih => exact (ih _ _).mono fun h => h.2
  | bin i op l r ihl ihr =>
    unfold minimalSubD minimalSub
    have hl : ∀ p cs, Dbg m (Everywhere SizedCast (.bin i op l r)) (minimalSubD m ctx l p cs) (minimalSub ctx l p cs) :=
      fun p c => (ihl p c).mono fun h => h.2.1
    have hr : ∀ p cs, Dbg m (Everywhere SizedCast (.bin i op l r)) (minimalSubD m ctx r p cs) (minimalSub ctx r p cs) :=
      fun p c => (ihr p c).mono fun h => h.2.2
    cases op with
    | unknown | eq | ne | gt | ge | lt | le => exact .refl _
    | and | or | implies =>
      refine Dbg.bind ((evalToBoolD_dbg m ctx l _ _).mono fun h => h.2.1) fun lb _ =>
        Dbg.bind ((evalToBoolD_dbg m ctx r _ _).mono fun h => h.2.2) fun rb _ => ?_
      rcases lb with ⟨_ | _, ec⟩ <;> rcases rb with ⟨_ | _, ec'⟩ <;> first
        | exact .refl _
        | exact hl _ _
        | exact hr _ _
        | exact Dbg.bind (hl _ _) fun _ _ => Dbg.bind (hr _ _) fun _ _ => .refl _
  | _ => exact .refl _

theorem checkConstraintD_dbg (m : Checks) (e : Expr) (parse : Res EvalCtx) :
    Dbg m (Everywhere SizedCast e) (checkConstraintD m e parse) (checkConstraint e parse) := by
  unfold checkConstraintD checkConstraint
  split
  · exact .refl _
  refine Dbg.bind (.refl _) fun ctx _ => Dbg.bind (evalToBoolD_dbg m ctx e [] []) fun b _ => ?_
  simp only
  split
  · exact .refl _
  refine Dbg.bind (minimalSubD_dbg m ctx e [] _) fun n hn => ?_
  exact Dbg.bind ((evalToBoolD_dbg m ctx n.1.1 n.1.2 _).mono fun h => minimalSub_everywhere h hn) fun _ _ => .refl _

/-- All type casts in the constraints are to types with a width. -/
def InfoSized (ci : ConstraintInfo) : Prop :=
  (∀ x ∈ ci.tables, ∀ c, x.2.constraint = some c → Everywhere SizedCast c) ∧
  (∀ x ∈ ci.actions, ∀ c, x.2.constraint = some c → Everywhere SizedCast c)

theorem reasonActionD_dbg (m : Checks) (a : RtAction) (ci : ConstraintInfo) :
    Dbg m (InfoSized ci) (reasonActionD m a ci) (reasonAction a ci) := by
  unfold reasonActionD reasonAction getActionInfo
  cases ha : lookup a.actionId ci.actions with
  | none => exact .refl _
  | some ai =>
    simp only
    cases hc : ai.constraint with
    | none => exact .refl _
    | some c => exact (checkConstraintD_dbg m c _).mono fun h => h.2 _ (lookup_some_mem ha) c hc

theorem reasonActionSetD_dbg (m : Checks) (ci : ConstraintInfo) (as : List RtAction) :
    Dbg m (InfoSized ci) (reasonActionSetD m ci as) (reasonActionSet ci as) := by
  induction as with
  | nil => exact .refl _
  | cons a as ih =>
    refine Dbg.bind (reasonActionD_dbg m a ci) fun r _ => ?_
    split
    · exact .refl _
    · exact ih

theorem reasonTableActionD_dbg (m : Checks) (ci : ConstraintInfo) (a : Option TableAction) :
    Dbg m (InfoSized ci) (reasonTableActionD m ci a) (reasonTableAction ci a) := by
  rcases a with _ | _ | a | _ | _ | as
  · exact .refl _
  · exact .refl _
  · exact reasonActionD_dbg m a ci
  · exact .refl _
  · exact .refl _
  · exact reasonActionSetD_dbg m ci as

theorem reasonEntryD_dbg (m : Checks) (entry : RtEntry) (ci : ConstraintInfo) :
    Dbg m (InfoSized ci) (reasonEntryViolatesConstraintD m entry ci) (reasonEntryViolatesConstraint entry ci) := by
  unfold reasonEntryViolatesConstraintD reasonEntryViolatesConstraint getTableInfo
  cases ht : lookup entry.tableId ci.tables with
  | none => exact .refl _
  | some ti =>
    simp only
    cases hc : ti.constraint with
    | none =>
      refine Dbg.bind (.refl _) fun r _ => ?_
      split
      · exact .refl _
      · exact reasonTableActionD_dbg m ci _
    | some c =>
      refine Dbg.bind ((checkConstraintD_dbg m c _).mono fun h => h.1 _ (lookup_some_mem ht) c hc) fun r _ => ?_
      split
      · exact .refl _
      · exact reasonTableActionD_dbg m ci _

end P4C
