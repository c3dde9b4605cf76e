import Verif.Spec.Repr
import Verif.Proofs.Types

/-
The type checker against the typing rules.
-/

namespace P4C

open Spec

@[simp] theorem Info.withTy_ty (i : Info) (t : Ty) : (i.withTy t).ty = t := rfl

theorem quotingError_ne_ok {α : Type} {src : ConstraintSource} {a b : Loc} {x : α} :
    quotingError src a b = .ok x ↔ False := by
  unfold quotingError; split <;> simp

theorem runtimeTypeError_ne_ok {α : Type} {src : ConstraintSource} {a b : Loc} {x : α} :
    runtimeTypeError src a b = .ok x ↔ False := by
  unfold runtimeTypeError; split <;> simp

/-- Is it a boolean connective? -/
def BinOp.isConn : BinOp → Bool
  | .and | .or | .implies => true
  | _ => false

/-- Is it a comparison? -/
def BinOp.isCmp : BinOp → Bool
  | .eq | .ne | .gt | .ge | .lt | .le => true
  | _ => false

/-- Is it an ordered comparison? -/
def BinOp.isOrd : BinOp → Bool
  | .gt | .ge | .lt | .le => true
  | _ => false

theorem infer_bin {src : ConstraintSource} {sc : Scope} {i : Info} {op : BinOp} {l r e' : Expr} :
    inferAndCheck src sc (.bin i op l r) = .ok e' ↔
    ∃ l' r', inferAndCheck src sc l = .ok l' ∧ inferAndCheck src sc r = .ok r' ∧
      ((op.isConn = true ∧ l'.ty = .boolean ∧ r'.ty = .boolean ∧
          e' = .bin (i.withTy .boolean) op l' r') ∨
       (op.isCmp = true ∧ ∃ t, IsJoin l'.ty r'.ty t ∧ (op.isOrd = true → Ordered t) ∧
          e' = .bin (i.withTy .boolean) op (castTransitivelyTo l' t) (castTransitivelyTo r' t))) := by
  simp only [inferAndCheck, Res.bind_eq_ok]
  constructor
  · rintro ⟨l', hl, r', hr, h⟩
    refine ⟨l', r', hl, hr, ?_⟩
    cases op <;> simp only [BinOp.isConn, BinOp.isCmp, BinOp.isOrd, reduceCtorEq, false_and, true_and,
      or_false, false_or, Bool.false_eq_true, false_implies, true_implies] at h ⊢
    case and | or | implies =>
      split at h
      · simp [quotingError_ne_ok] at h
      · rename_i h1
        split at h
        · simp [quotingError_ne_ok] at h
        · rename_i h2
          cases h
          exact ⟨by simpa using h1, by simpa using h2, rfl⟩
    all_goals
      rw [Res.bind_eq_ok] at h
      obtain ⟨⟨t, l2, r2⟩, hu, h⟩ := h
      unfold unify at hu
      split at hu
      · simp [quotingError_ne_ok] at hu
      · rename_i t' ht
        cases hu
        refine ⟨t, lub_iff.1 ht, ?_⟩
        simp at h
        first
        | (split at h
           · simp [quotingError_ne_ok] at h
           · rename_i ho
             cases h
             exact ⟨isOrder_ordered.1 (by simpa using ho), rfl⟩)
        | (cases h; exact rfl)
  · rintro ⟨l', r', hl, hr, h⟩
    refine ⟨l', hl, r', hr, ?_⟩
    rcases h with ⟨ho, h1, h2, rfl⟩ | ⟨ho, t, ht, hord, rfl⟩
    · cases op <;> simp [BinOp.isConn] at ho <;> simp [h1, h2]
    · cases op <;> simp [BinOp.isCmp] at ho
      all_goals
        simp only [unify, lub_iff.2 ht, Res.ok_bind]
        first
        | (have := isOrder_ordered.2 (hord rfl); simp [this])
        | simp

/-- What the abstract syntax of a binary expression can be. -/
theorem binop_cases {op : BinOp} {l r s : SExpr} (h : binop op l r = some s) :
    (op.isConn = true ∧ op.isCmp = false ∧ ∃ o, s = .conn o l r ∧ op = (match o with
        | .and => .and | .or => .or | .implies => .implies)) ∨
    (op.isCmp = true ∧ op.isConn = false ∧ ∃ o, s = .cmp o l r ∧ op.isOrd = o.isOrder ∧ op = (match o with
        | .eq => .eq | .ne => .ne | .lt => .lt | .le => .le | .gt => .gt | .ge => .ge)) := by
  cases op <;> simp [binop] at h <;> subst h <;>
    simp [BinOp.isConn, BinOp.isCmp, BinOp.isOrd, Cmp.isOrder]

theorem infer_sound {src : ConstraintSource} {sc : Scope} {e e' : Expr} {s : SExpr}
    (h : inferAndCheck src sc e = .ok e') (ha : abs e = some s) : HasTy (sigOf sc) s e'.ty := by
  induction e generalizing e' s with
  | notSet i => simp [abs] at ha
  | typeCast i e => simp [abs] at ha
  | boolConst i b =>
    simp [abs] at ha; subst ha; simp [inferAndCheck] at h; subst h; exact .bool _
  | intConst i n =>
    simp [abs] at ha; obtain ⟨z, _, rfl⟩ := ha; simp [inferAndCheck] at h; subst h; exact .int _
  | key i n =>
    simp [abs] at ha; subst ha
    cases sc with
    | action ps => simp [inferAndCheck, quotingError_ne_ok] at h
    | table ks =>
      simp only [inferAndCheck] at h
      split at h
      · simp [quotingError_ne_ok] at h
      · rename_i ki hk
        split at h
        · simp [quotingError_ne_ok] at h
        · rename_i hi
          cases h
          exact .key (by simp [sigOf, hk]; rfl) (illegalType_iff.1 (by simpa [Expr.ty, Expr.info] using hi))
  | actionParam i n =>
    simp [abs] at ha; subst ha
    cases sc with
    | table ps => simp [inferAndCheck, quotingError_ne_ok] at h
    | action ks =>
      simp only [inferAndCheck] at h
      split at h
      · simp [quotingError_ne_ok] at h
      · rename_i ki hk
        split at h
        · simp [quotingError_ne_ok] at h
        · rename_i hi
          cases h
          exact .param (by simp [sigOf, hk]; rfl) (illegalType_iff.1 (by simpa [Expr.ty, Expr.info] using hi))
  | boolNeg i e ih =>
    simp [abs] at ha; obtain ⟨s', ha, rfl⟩ := ha
    simp only [inferAndCheck, Res.bind_eq_ok] at h
    obtain ⟨e1, h1, h⟩ := h
    split at h
    · simp [quotingError_ne_ok] at h
    · rename_i ht
      cases h
      have := ih h1 ha
      simp at ht
      rw [ht] at this
      exact .not this
  | arithNeg i e ih =>
    simp [abs] at ha; obtain ⟨s', ha, rfl⟩ := ha
    simp only [inferAndCheck, Res.bind_eq_ok] at h
    obtain ⟨e1, h1, h⟩ := h
    split at h
    · simp [quotingError_ne_ok] at h
    · rename_i ht
      cases h
      have := ih h1 ha
      simp at ht
      rw [ht] at this
      exact .neg this
  | bin i op l r ihl ihr =>
    simp only [abs, Option.bind_eq_some_iff] at ha
    obtain ⟨sl, hsl, sr, hsr, ha⟩ := ha
    rw [infer_bin] at h
    obtain ⟨l', r', hl, hr, h⟩ := h
    have hl := ihl hl hsl
    have hr := ihr hr hsr
    rcases binop_cases ha with ⟨h1, h2, o, rfl, _⟩ | ⟨h1, h2, o, rfl, ho, _⟩
    · simp [h1, h2] at h
      obtain ⟨tl, tr, rfl⟩ := h
      rw [tl] at hl; rw [tr] at hr
      exact .conn hl hr
    · simp [h1, h2] at h
      obtain ⟨t, hj, hord, rfl⟩ := h
      exact .cmp hl hr hj (ho ▸ hord)
  | field i e f ih =>
    simp [abs] at ha; obtain ⟨s', ha, rfl⟩ := ha
    simp only [inferAndCheck, Res.bind_eq_ok] at h
    obtain ⟨e1, h1, h⟩ := h
    split at h
    · simp [quotingError_ne_ok] at h
    · rename_i t ht
      cases h
      exact .field (ih h1 ha) (fieldTy_iff.1 ht)
  | attr i n =>
    simp [abs] at ha; subst ha
    simp only [inferAndCheck, getAttributeInfo] at h
    split at h
    · simp [quotingError_ne_ok] at h
    · rename_i t ht
      split at ht
      · rename_i hn
        subst hn
        cases ht
        simp [illegalType] at h
        subst h
        exact .priority
      · cases ht

theorem hasTy_unique {Γ : Sig} {s : SExpr} {t u : Ty} (h : HasTy Γ s t) (h' : HasTy Γ s u) : t = u := by
  induction h generalizing u with
  | bool b => cases h'; rfl
  | int z => cases h'; rfl
  | key hk _ => cases h' with | key hk' _ => rw [hk] at hk'; exact Option.some.inj hk'
  | param hk _ => cases h' with | param hk' _ => rw [hk] at hk'; exact Option.some.inj hk'
  | priority => cases h'; rfl
  | not _ _ => cases h'; rfl
  | neg _ _ => cases h'; rfl
  | conn => cases h'; rfl
  | cmp => cases h'; rfl
  | field _ hf ih =>
    cases h' with
    | field he' hf' => rw [ih he'] at hf; exact fieldTy_unique hf hf'

theorem infer_complete {src : ConstraintSource} {sc : Scope} {e : Expr} {s : SExpr} {t : Ty}
    (ha : abs e = some s) (h : HasTy (sigOf sc) s t) :
    ∃ e', inferAndCheck src sc e = .ok e' ∧ e'.ty = t := by
  induction e generalizing s t with
  | notSet i => simp [abs] at ha
  | typeCast i e => simp [abs] at ha
  | boolConst i b =>
    simp [abs] at ha; subst ha; cases h; exact ⟨_, rfl, rfl⟩
  | intConst i n =>
    simp [abs] at ha; obtain ⟨z, _, rfl⟩ := ha; cases h; exact ⟨_, rfl, rfl⟩
  | key i n =>
    simp [abs] at ha; subst ha
    cases h with
    | key hk hs =>
      cases sc with
      | action => simp [sigOf] at hk
      | table ks =>
        simp only [sigOf, Option.map_eq_some_iff] at hk
        obtain ⟨ki, hki, rfl⟩ := hk
        refine ⟨.key (i.withTy ki.ty) n, ?_, rfl⟩
        simp [inferAndCheck, hki, illegalType_iff.2 hs]
  | actionParam i n =>
    simp [abs] at ha; subst ha
    cases h with
    | param hk hs =>
      cases sc with
      | table => simp [sigOf] at hk
      | action ks =>
        simp only [sigOf, Option.map_eq_some_iff] at hk
        obtain ⟨ki, hki, rfl⟩ := hk
        refine ⟨.actionParam (i.withTy ki.ty) n, ?_, rfl⟩
        simp [inferAndCheck, hki, illegalType_iff.2 hs]
  | boolNeg i e ih =>
    simp [abs] at ha; obtain ⟨s', ha, rfl⟩ := ha
    cases h with
    | not h =>
      obtain ⟨e1, h1, h2⟩ := ih ha h
      refine ⟨.boolNeg (i.withTy .boolean) e1, ?_, rfl⟩
      simp [inferAndCheck, h1, h2]
  | arithNeg i e ih =>
    simp [abs] at ha; obtain ⟨s', ha, rfl⟩ := ha
    cases h with
    | neg h =>
      obtain ⟨e1, h1, h2⟩ := ih ha h
      refine ⟨.arithNeg (i.withTy .arbitraryInt) e1, ?_, rfl⟩
      simp [inferAndCheck, h1, h2]
  | bin i op l r ihl ihr =>
    simp only [abs, Option.bind_eq_some_iff] at ha
    obtain ⟨sl, hsl, sr, hsr, ha⟩ := ha
    rcases binop_cases ha with ⟨h1, h2, o, rfl, _⟩ | ⟨h1, h2, o, rfl, ho, _⟩
    · cases h with
      | conn hl hr =>
        obtain ⟨l', hl1, hl2⟩ := ihl hsl hl
        obtain ⟨r', hr1, hr2⟩ := ihr hsr hr
        exact ⟨.bin (i.withTy .boolean) op l' r',
          infer_bin.2 ⟨l', r', hl1, hr1, .inl ⟨h1, hl2, hr2, rfl⟩⟩, rfl⟩
    · cases h with
      | cmp hl hr hj hord =>
        obtain ⟨l', hl1, rfl⟩ := ihl hsl hl
        obtain ⟨r', hr1, rfl⟩ := ihr hsr hr
        exact ⟨_, infer_bin.2 ⟨l', r', hl1, hr1, .inr ⟨h1, _, hj, ho ▸ hord, rfl⟩⟩, rfl⟩
  | field i e f ih =>
    simp [abs] at ha; obtain ⟨s', ha, rfl⟩ := ha
    cases h with
    | field h hf =>
      obtain ⟨e1, h1, rfl⟩ := ih ha h
      refine ⟨.field (i.withTy t) e1 f, ?_, rfl⟩
      simp [inferAndCheck, h1, fieldTy_iff.2 hf]
  | attr i n =>
    simp [abs] at ha; subst ha
    cases h with
    | priority => exact ⟨.attr (i.withTy .arbitraryInt) c!"priority", by simp [inferAndCheck, getAttributeInfo, illegalType], rfl⟩

end P4C
