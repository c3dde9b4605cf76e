import Verif.Proofs.Laws
import Verif.Proofs.Transitive
import Verif.Props.Types
import Verif.Props.Examples

/-
Laws of evaluation: properties C18 and C44.
-/

namespace P4C

open Spec

/-- The (parsed) constraint is accepted by the type checker and evaluates to `b`. -/
def Evaluates (src : ConstraintSource) (sc : Scope) (ctx : EvalCtx) (e : Expr) (b : Bool) : Prop :=
  ∃ c, inferAndCheck src sc e = .ok c ∧ evalToBool ctx c [] none = .ok (b, none)

/-! ### C18: comparison operators are coherent -/

/-- C18 (1): negations, non-strict as strict or equal, swapping of operands, symmetry and reflexivity of
equality. Each equivalence includes that the two sides are accepted and evaluated together. -/
theorem C18_coherent (src : ConstraintSource) (sc : Scope) (ctx : EvalCtx) (i : Info) (l r : Expr) :
    (∀ b, Evaluates src sc ctx (.bin i .ne l r) b ↔ Evaluates src sc ctx (.bin i .eq l r) (!b)) ∧
    (∀ b, Evaluates src sc ctx (.bin i .ge l r) b ↔ Evaluates src sc ctx (.bin i .lt l r) (!b)) ∧
    (∀ b, Evaluates src sc ctx (.bin i .le l r) b ↔ Evaluates src sc ctx (.bin i .gt l r) (!b)) ∧
    (∀ a, Evaluates src sc ctx (.bin i .lt l r) a →
      ∃ b, Evaluates src sc ctx (.bin i .eq l r) b ∧ Evaluates src sc ctx (.bin i .le l r) (a || b)) ∧
    (∀ b, Evaluates src sc ctx (.bin i .lt l r) b ↔ Evaluates src sc ctx (.bin i .gt r l) b) ∧
    (∀ b, Evaluates src sc ctx (.bin i .le l r) b ↔ Evaluates src sc ctx (.bin i .ge r l) b) ∧
    (∀ b, Evaluates src sc ctx (.bin i .eq l r) b ↔ Evaluates src sc ctx (.bin i .eq r l) b) ∧
    (∀ l' v, inferAndCheck src sc l = .ok l' → eval ctx l' [] none = .ok (v, none) →
      Evaluates src sc ctx (.bin i .eq l l) true) := by
  have inv : ∀ {op : BinOp} {l r : Expr} {b : Bool}, op.isCmp = true →
      (Evaluates src sc ctx (.bin i op l r) b ↔
      ∃ l' r' t, inferAndCheck src sc l = .ok l' ∧ inferAndCheck src sc r = .ok r' ∧ IsJoin l'.ty r'.ty t ∧
        (op.isOrd = true → Ordered t) ∧ evalP ctx (.bin (i.withTy .boolean) op (castTransitivelyTo l' t)
          (castTransitivelyTo r' t)) = .ok (.bool b)) := by
    intro op l r b ho
    constructor
    · rintro ⟨e', h, he⟩
      rw [evalToBool_none] at he
      obtain ⟨l', r', hl, hr, ⟨hc, _⟩ | ⟨_, t, hj, hord, rfl⟩⟩ := infer_bin.1 h
      · cases op <;> simp [BinOp.isCmp, BinOp.isConn] at ho hc
      · exact ⟨l', r', t, hl, hr, hj, hord, he⟩
    · rintro ⟨l', r', t, hl, hr, hj, hord, he⟩
      exact ⟨_, infer_bin.2 ⟨l', r', hl, hr, .inr ⟨ho, t, hj, hord, rfl⟩⟩, evalToBool_none.2 he⟩
  have same : ∀ {op op' : BinOp} {b b' : Bool}, op.isCmp = true → op'.isCmp = true →
      op.isOrd = op'.isOrd → (∀ L R, evalP ctx (.bin (i.withTy .boolean) op L R) = .ok (.bool b) ↔
        evalP ctx (.bin (i.withTy .boolean) op' L R) = .ok (.bool b')) →
      (Evaluates src sc ctx (.bin i op l r) b ↔ Evaluates src sc ctx (.bin i op' l r) b') := by
    intro op op' b b' h1 h2 h3 h4
    rw [inv h1, inv h2, h3]
    simp only [h4]
  have swap : ∀ {op op' : BinOp} {b : Bool}, op.isCmp = true → op'.isCmp = true →
      op.isOrd = op'.isOrd → (∀ L R, evalP ctx (.bin (i.withTy .boolean) op L R) = .ok (.bool b) ↔
        evalP ctx (.bin (i.withTy .boolean) op' R L) = .ok (.bool b)) →
      (Evaluates src sc ctx (.bin i op l r) b ↔ Evaluates src sc ctx (.bin i op' r l) b) := by
    intro op op' b h1 h2 h3 h4
    rw [inv h1, inv h2, h3]
    simp only [h4]
    have hj : ∀ {a b t : Ty}, IsJoin a b t ↔ IsJoin b a t := by
      intro a b t; rw [← lub_iff, ← lub_iff, lub_comm]
    constructor
    · rintro ⟨l', r', t, a, b, c, d, e⟩; exact ⟨r', l', t, b, a, hj.1 c, d, e⟩
    · rintro ⟨l', r', t, a, b, c, d, e⟩; exact ⟨r', l', t, b, a, hj.1 c, d, e⟩
  refine ⟨fun b => same rfl rfl rfl fun L R => ?_, fun b => same rfl rfl rfl fun L R => ?_,
    fun b => same rfl rfl rfl fun L R => ?_, ?_, fun b => swap rfl rfl rfl fun L R => ?_,
    fun b => swap rfl rfl rfl fun L R => ?_, fun b => swap rfl rfl rfl fun L R => ?_, ?_⟩
  · rw [evalP_eq_iff (.inr rfl), evalP_eq_iff (.inl rfl)]
    constructor
    · rintro ⟨v, w, h1, h2, rfl⟩; exact ⟨v, w, h1, h2, by simp⟩
    · rintro ⟨v, w, h1, h2, h3⟩
      refine ⟨v, w, h1, h2, ?_⟩
      rw [← Bool.not_not b, h3]; simp
  · rw [evalP_ord_iff rfl, evalP_ord_iff rfl]
    simp only [ordHolds]
    constructor
    · rintro ⟨x, y, h1, h2, rfl⟩; exact ⟨x, y, h1, h2, by simp [← decide_not, Int.not_le]⟩
    · rintro ⟨x, y, h1, h2, h3⟩
      refine ⟨x, y, h1, h2, ?_⟩
      rw [← Bool.not_not b, h3, ← decide_not]; simp [Int.not_lt]
  · rw [evalP_ord_iff rfl, evalP_ord_iff rfl]
    simp only [ordHolds]
    constructor
    · rintro ⟨x, y, h1, h2, rfl⟩; exact ⟨x, y, h1, h2, by simp [← decide_not, Int.not_le]⟩
    · rintro ⟨x, y, h1, h2, h3⟩
      refine ⟨x, y, h1, h2, ?_⟩
      rw [← Bool.not_not b, h3, ← decide_not]; simp [Int.not_lt]
  · intro a h
    obtain ⟨l', r', t, hl, hr, hj, hord, he⟩ := (inv rfl).1 h
    obtain ⟨x, y, hx, hy, rfl⟩ := (evalP_ord_iff rfl).1 he
    refine ⟨decide (x = y), (inv rfl).2 ⟨l', r', t, hl, hr, hj, (fun h => by cases h), ?_⟩,
      (inv rfl).2 ⟨l', r', t, hl, hr, hj, hord, ?_⟩⟩
    · exact (evalP_eq_iff (.inl rfl)).2 ⟨_, _, hx, hy, by simp⟩
    · refine (evalP_ord_iff rfl).2 ⟨x, y, hx, hy, ?_⟩
      simp only [ordHolds]
      rw [← Bool.decide_or, decide_eq_decide]
      omega
  · rw [evalP_ord_iff rfl, evalP_ord_iff rfl]
    simp only [ordHolds]
    constructor <;> rintro ⟨x, y, h1, h2, h3⟩ <;> exact ⟨y, x, h2, h1, h3⟩
  · rw [evalP_ord_iff rfl, evalP_ord_iff rfl]
    simp only [ordHolds]
    constructor <;> rintro ⟨x, y, h1, h2, h3⟩ <;> exact ⟨y, x, h2, h1, h3⟩
  · rw [evalP_eq_iff (.inl rfl), evalP_eq_iff (.inl rfl)]
    simp only [if_true]
    constructor <;> rintro ⟨x, y, h1, h2, h3⟩ <;> exact ⟨y, x, h2, h1, by rw [h3, decide_eq_decide, eq_comm]⟩
  · intro l' v hl hv
    rw [eval_none] at hv
    refine (inv rfl).2 ⟨l', l', l'.ty, hl, hl, lub_iff.1 (by simp [leastUpperBound]), (fun h => by cases h), ?_⟩
    rw [cast_refl]
    exact (evalP_eq_iff (.inl rfl)).2 ⟨v, v, hv, hv, by simp⟩

/-- C18 (2): equality is transitive between operands of the same type. Full statement: without the type
hypotheses `hlm` and `hmr`; it is false then (`C18_eq_not_transitive`). -/
theorem C18_eq_transitive_partial {src : ConstraintSource} {sc : Scope} {ctx : EvalCtx} {i : Info}
    {l m r l' m' r' : Expr} (hl : inferAndCheck src sc l = .ok l') (hm : inferAndCheck src sc m = .ok m')
    (hr : inferAndCheck src sc r = .ok r') (hlm : l'.ty = m'.ty) (hmr : m'.ty = r'.ty)
    (h1 : Evaluates src sc ctx (.bin i .eq l m) true) (h2 : Evaluates src sc ctx (.bin i .eq m r) true) :
    Evaluates src sc ctx (.bin i .eq l r) true := by
  have inv : ∀ {l r l' r' : Expr}, inferAndCheck src sc l = .ok l' → inferAndCheck src sc r = .ok r' →
      l'.ty = r'.ty → (Evaluates src sc ctx (.bin i .eq l r) true ↔
        ∃ v, evalP ctx l' = .ok v ∧ evalP ctx r' = .ok v) := by
    intro l r l' r' hl hr ht
    have hj : IsJoin l'.ty r'.ty l'.ty := lub_iff.1 (by rw [← ht]; simp [leastUpperBound])
    have e : castTransitivelyTo r' l'.ty = r' := by rw [ht, cast_refl]
    constructor
    · rintro ⟨e', h, he⟩
      rw [evalToBool_none] at he
      obtain ⟨l2, r2, hl2, hr2, ⟨hc, _⟩ | ⟨_, t, hj', _, rfl⟩⟩ := infer_bin.1 h
      · cases hc
      · rw [hl] at hl2; rw [hr] at hr2; cases hl2; cases hr2
        cases isJoin_unique hj hj'
        rw [cast_refl, e] at he
        obtain ⟨v, w, hv, hw, hb⟩ := (evalP_eq_iff (.inl rfl)).1 he
        have : v = w := by simpa using hb
        exact ⟨v, hv, this ▸ hw⟩
    · rintro ⟨v, hv, hw⟩
      refine ⟨_, infer_bin.2 ⟨l', r', hl, hr, .inr ⟨rfl, _, hj, fun h => (by cases h), rfl⟩⟩, evalToBool_none.2 ?_⟩
      rw [cast_refl, e]
      exact (evalP_eq_iff (.inl rfl)).2 ⟨v, v, hv, hw, by simp⟩
  obtain ⟨v, a, b⟩ := (inv hl hm hlm).1 h1
  obtain ⟨w, c, d⟩ := (inv hm hr hmr).1 h2
  rw [b] at c; cases c
  exact (inv hl hr (hlm.trans hmr)).2 ⟨v, a, d⟩

/-- Equality is not transitive across types: for an 8-bit field with value 0, `256 == f` and `f == 0` are
true, but `256 == 0` is false (`256` is truncated when converted to 8 bits). -/
theorem C18_eq_not_transitive :
    ∃ src sc ctx i l m r, Evaluates src sc ctx (.bin i .eq l m) true ∧
      Evaluates src sc ctx (.bin i .eq m r) true ∧ Evaluates src sc ctx (.bin i .eq l r) false :=
  ⟨{}, .table (Ex.ti Ex.tc1).keysByName, Ex.ctx Ex.tc1 (Ex.entry 5), {}, .intConst {} c!"256",
    .field {} (.key {} c!"tern") c!"value", .intConst {} c!"0",
    ⟨_, Ex.get_of_isOk (d := .notSet {}) (by decide +kernel), by decide +kernel⟩,
    ⟨_, Ex.get_of_isOk (d := .notSet {}) (by decide +kernel), by decide +kernel⟩,
    ⟨_, Ex.get_of_isOk (d := .notSet {}) (by decide +kernel), by decide +kernel⟩⟩

/-- The value of an equality. -/
theorem evaluates_eq {src : ConstraintSource} {sc : Scope} {ctx : EvalCtx} {i : Info} {l r l' r' : Expr} {b : Bool}
    (hl : inferAndCheck src sc l = .ok l') (hr : inferAndCheck src sc r = .ok r') (nl : NonNeg l'.ty)
    (nr : NonNeg r'.ty) :
    Evaluates src sc ctx (.bin i .eq l r) b ↔ ∃ t v w, leastUpperBound l'.ty r'.ty = some t ∧
      evalP ctx l' = .ok v ∧ evalP ctx r' = .ok w ∧ b = decide (convert l'.ty t v = convert r'.ty t w) := by
  have nn : ∀ t, leastUpperBound l'.ty r'.ty = some t → NonNeg t := by
    intro t h
    unfold leastUpperBound at h
    repeat' split at h
    all_goals (cases h; try assumption)
  constructor
  · rintro ⟨e', h, he⟩
    rw [evalToBool_none] at he
    obtain ⟨l2, r2, hl2, hr2, ⟨hc, _⟩ | ⟨_, t, hj, _, rfl⟩⟩ := infer_bin.1 h
    · cases hc
    · have hl3 := hl2; have hr3 := hr2
      rw [hl] at hl2; rw [hr] at hr2; cases hl2; cases hr2
      obtain ⟨v', w', hv', hw', _⟩ := (evalP_eq_iff (.inl rfl)).1 he
      obtain ⟨v, hv⟩ := evalP_cast_inv hv'
      obtain ⟨w, hw⟩ := evalP_cast_inv hw'
      have ht := lub_iff.2 hj
      have := eval_eq_checked h hl hr hj (nn t ht) hv hw
      rw [he] at this
      exact ⟨t, v, w, ht, hv, hw, by simpa using this⟩
  · rintro ⟨t, v, w, ht, hv, hw, rfl⟩
    have h := (infer_bin (i := i) (op := .eq)).2 ⟨l', r', hl, hr, .inr ⟨rfl, _, lub_iff.1 ht, fun h => (by cases h), rfl⟩⟩
    exact ⟨_, h, evalToBool_none.2 (eval_eq_checked (i := i) h hl hr (lub_iff.1 ht) (nn t ht) hv hw)⟩

/-- C18 (3): equality is transitive across types as well, unless the outer operands have type `int` and the middle one
does not. Full statement: without `hx`; it is false then (`C18_eq_not_transitive`). That the outer operands can be
compared at all does not follow: `k == 5` and `5 == t` are accepted for an exact key `k` and a ternary key `t`, but
`k == t` is not. -/
theorem C18_eq_transitive_across_partial {src : ConstraintSource} {sc : Scope} {ctx : EvalCtx} {i : Info}
    {l m r l' m' r' : Expr} (hl : inferAndCheck src sc l = .ok l') (hm : inferAndCheck src sc m = .ok m')
    (hr : inferAndCheck src sc r = .ok r') (nl : NonNeg l'.ty) (nm : NonNeg m'.ty) (nr : NonNeg r'.ty)
    (ht : ∃ t, IsJoin l'.ty r'.ty t)
    (hx : ¬ (l'.ty = .arbitraryInt ∧ r'.ty = .arbitraryInt ∧ m'.ty ≠ .arbitraryInt))
    (h1 : Evaluates src sc ctx (.bin i .eq l m) true) (h2 : Evaluates src sc ctx (.bin i .eq m r) true) :
    Evaluates src sc ctx (.bin i .eq l r) true := by
  obtain ⟨t, ht⟩ := ht
  obtain ⟨t1, v, u, j1, hv, hu, e1⟩ := (evaluates_eq hl hm nl nm).1 h1
  obtain ⟨t2, u', w, j2, hu', hw, e2⟩ := (evaluates_eq hm hr nm nr).1 h2
  rw [hu] at hu'; cases hu'
  refine (evaluates_eq hl hr nl nr).2 ⟨t, v, w, lub_iff.2 ht, hv, hw, ?_⟩
  have := join_trans (evalP_shape hv) (evalP_shape hu) (evalP_shape hw) j1 j2 (lub_iff.2 ht)
    (by simpa using e1) (by simpa using e2) hx
  simp [this]

/-- C18 (4): in the remaining case the outer operands are integers that agree modulo 2^W, where W is the width of the
middle operand, and comparing them with each other compares them as integers. -/
theorem C18_eq_modulo {src : ConstraintSource} {sc : Scope} {ctx : EvalCtx} {i : Info}
    {l m r l' m' r' : Expr} (hl : inferAndCheck src sc l = .ok l') (hm : inferAndCheck src sc m = .ok m')
    (hr : inferAndCheck src sc r = .ok r') (nm : NonNeg m'.ty)
    (tl : l'.ty = .arbitraryInt) (tr : r'.ty = .arbitraryInt) (tm : m'.ty ≠ .arbitraryInt)
    (h1 : Evaluates src sc ctx (.bin i .eq l m) true) (h2 : Evaluates src sc ctx (.bin i .eq m r) true) :
    ∃ (W x y : Int), CastsTo (.fixedUnsigned W) m'.ty ∧ eval ctx l' [] none = .ok (.int x, none) ∧
      eval ctx r' [] none = .ok (.int y, none) ∧ x % 2 ^ W.toNat = y % 2 ^ W.toNat ∧
      Evaluates src sc ctx (.bin i .eq l r) (decide (x = y)) := by
  have nl : NonNeg l'.ty := by rw [tl]; trivial
  have nr : NonNeg r'.ty := by rw [tr]; trivial
  obtain ⟨t1, v, u, j1, hv, hu, e1⟩ := (evaluates_eq hl hm nl nm).1 h1
  obtain ⟨t2, u', w, j2, hu', hw, e2⟩ := (evaluates_eq hm hr nm nr).1 h2
  rw [hu] at hu'; cases hu'
  have sv := evalP_shape hv
  have sw := evalP_shape hw
  rw [tl] at sv j1 e1; rw [tr] at sw j2 e2
  cases sv with | int x => ?_
  cases sw with | int y => ?_
  obtain ⟨W, hW, hmod⟩ := join_mod (evalP_shape hu) tm j1 j2 (by simpa using e1) (by simpa using e2)
  refine ⟨W, x, y, hW, eval_none.2 hv, eval_none.2 hw, hmod, (evaluates_eq hl hr nl nr).2
    ⟨.arbitraryInt, _, _, by rw [tl, tr]; rfl, hv, hw, ?_⟩⟩
  rw [tl, tr]
  simp [convert]
/-- `tern::value == 0` and `0 == tern::mask`: the middle operand has another type than the outer ones. The hypotheses of
`C18_eq_modulo` hold for the witness of `C18_eq_not_transitive`. -/
example : ∃ l' m' r', inferAndCheck {} (.table (Ex.ti Ex.tc1).keysByName) (.field {} (.key {} c!"tern") c!"value") = .ok l' ∧
    inferAndCheck {} (.table (Ex.ti Ex.tc1).keysByName) (.intConst {} c!"0") = .ok m' ∧
    inferAndCheck {} (.table (Ex.ti Ex.tc1).keysByName) (.field {} (.key {} c!"tern") c!"mask") = .ok r' ∧
    (∃ t, IsJoin l'.ty r'.ty t) ∧ m'.ty ≠ l'.ty ∧
    Evaluates {} (.table (Ex.ti Ex.tc1).keysByName) (Ex.ctx Ex.tc1 (Ex.entry 5))
      (.bin {} .eq (.field {} (.key {} c!"tern") c!"value") (.intConst {} c!"0")) true ∧
    Evaluates {} (.table (Ex.ti Ex.tc1).keysByName) (Ex.ctx Ex.tc1 (Ex.entry 5))
      (.bin {} .eq (.intConst {} c!"0") (.field {} (.key {} c!"tern") c!"mask")) true :=
  ⟨_, _, _, Ex.get_of_isOk (d := .notSet {}) (by decide +kernel), Ex.get_of_isOk (d := .notSet {}) (by decide +kernel),
    Ex.get_of_isOk (d := .notSet {}) (by decide +kernel), ⟨.fixedUnsigned 8, lub_iff.1 (by decide +kernel)⟩,
    by decide +kernel, ⟨_, Ex.get_of_isOk (d := .notSet {}) (by decide +kernel), by decide +kernel⟩,
    ⟨_, Ex.get_of_isOk (d := .notSet {}) (by decide +kernel), by decide +kernel⟩⟩

/-! ### C44: the connectives as boolean functions -/

/-- The (parsed) constraint is accepted by the type checker, with type `bool`. -/
def Boolean (src : ConstraintSource) (sc : Scope) (e : Expr) : Prop :=
  ∃ c, inferAndCheck src sc e = .ok c ∧ c.ty = .boolean

theorem Evaluates.boolean {src : ConstraintSource} {sc : Scope} {ctx : EvalCtx} {e : Expr} {b : Bool}
    (h : Evaluates src sc ctx e b) : Boolean src sc e := by
  obtain ⟨c, hc, he⟩ := h
  rw [evalToBool_none] at he
  refine ⟨c, hc, ?_⟩
  have := evalP_shape he
  revert this
  generalize c.ty = t
  rintro ⟨⟩
  rfl

theorem Evaluates.unique {src : ConstraintSource} {sc : Scope} {ctx : EvalCtx} {e : Expr} {v w : Bool}
    (h : Evaluates src sc ctx e v) (h' : Evaluates src sc ctx e w) : v = w := by
  obtain ⟨c, hc, hv⟩ := h
  obtain ⟨d, hd, hw⟩ := h'
  rw [hc] at hd; cases hd
  rw [hv] at hw; cases hw; rfl

/-- C44 (1): which values `a && b`, `a || b`, `a -> b` and `!a` have, including when an operand cannot be evaluated. The second
operand has to be accepted, but its value matters only if the first does not decide. -/
theorem C44_connectives {src : ConstraintSource} {sc : Scope} {ctx : EvalCtx} {i : Info} {a b : Expr} {v : Bool} :
    (Evaluates src sc ctx (.bin i .and a b) v ↔
      (Evaluates src sc ctx a false ∧ Boolean src sc b ∧ v = false) ∨
      (Evaluates src sc ctx a true ∧ Evaluates src sc ctx b v)) ∧
    (Evaluates src sc ctx (.bin i .or a b) v ↔
      (Evaluates src sc ctx a true ∧ Boolean src sc b ∧ v = true) ∨
      (Evaluates src sc ctx a false ∧ Evaluates src sc ctx b v)) ∧
    (Evaluates src sc ctx (.bin i .implies a b) v ↔
      (Evaluates src sc ctx a false ∧ Boolean src sc b ∧ v = true) ∨
      (Evaluates src sc ctx a true ∧ Evaluates src sc ctx b v)) ∧
    (Evaluates src sc ctx (.boolNeg i a) v ↔ Evaluates src sc ctx a (!v)) := by
  have inv : ∀ {op : BinOp}, op.isConn = true → (Evaluates src sc ctx (.bin i op a b) v ↔
      ∃ ca cb, inferAndCheck src sc a = .ok ca ∧ inferAndCheck src sc b = .ok cb ∧ ca.ty = .boolean ∧ cb.ty = .boolean ∧
        evalP ctx (.bin (i.withTy .boolean) op ca cb) = .ok (.bool v)) := by
    intro op ho
    constructor
    · rintro ⟨e', h, he⟩
      rw [evalToBool_none] at he
      obtain ⟨l', r', hl, hr, ⟨_, h1, h2, rfl⟩ | ⟨hc, _⟩⟩ := infer_bin.1 h
      · exact ⟨l', r', hl, hr, h1, h2, he⟩
      · cases op <;> simp [BinOp.isCmp, BinOp.isConn] at ho hc
    · rintro ⟨l', r', hl, hr, h1, h2, he⟩
      exact ⟨_, infer_bin.2 ⟨l', r', hl, hr, .inl ⟨ho, h1, h2, rfl⟩⟩, evalToBool_none.2 he⟩
  have ev : ∀ {e c : Expr} {w : Bool}, inferAndCheck src sc e = .ok c → (Evaluates src sc ctx e w ↔
      evalBoolP ctx c = .ok w) := by
    intro e c w hc
    rw [evalBoolP_ok]
    constructor
    · rintro ⟨c', hc', he⟩
      rw [hc] at hc'; cases hc'
      exact evalToBool_none.1 he
    · exact fun he => ⟨c, hc, evalToBool_none.2 he⟩
  have bo : ∀ {e c : Expr}, inferAndCheck src sc e = .ok c → (Boolean src sc e ↔ c.ty = .boolean) := by
    intro e c hc
    constructor
    · rintro ⟨c', hc', he⟩
      rw [hc] at hc'; cases hc'
      exact he
    · exact fun he => ⟨c, hc, he⟩
  have conn : ∀ {op : BinOp} {P : Prop}, op.isConn = true → (P → Boolean src sc a ∧ Boolean src sc b) →
      (∀ ca cb, inferAndCheck src sc a = .ok ca → inferAndCheck src sc b = .ok cb → ca.ty = .boolean → cb.ty = .boolean →
        (evalP ctx (.bin (i.withTy .boolean) op ca cb) = .ok (.bool v) ↔ P)) →
      (Evaluates src sc ctx (.bin i op a b) v ↔ P) := by
    intro op P ho hp hx
    rw [inv ho]
    constructor
    · rintro ⟨ca, cb, ha, hb, h1, h2, he⟩
      exact (hx ca cb ha hb h1 h2).1 he
    · intro h
      obtain ⟨⟨ca, ha, h1⟩, cb, hb, h2⟩ := hp h
      exact ⟨ca, cb, ha, hb, h1, h2, (hx ca cb ha hb h1 h2).2 h⟩
  have side : ∀ {u w : Bool} {Q : Prop}, (Evaluates src sc ctx a u ∧ Boolean src sc b ∧ Q) ∨
      (Evaluates src sc ctx a w ∧ Evaluates src sc ctx b v) → Boolean src sc a ∧ Boolean src sc b := by
    rintro u w Q (⟨h1, h2, _⟩ | ⟨h1, h2⟩)
    · exact ⟨h1.boolean, h2⟩
    · exact ⟨h1.boolean, h2.boolean⟩
  refine ⟨conn rfl side fun ca cb ha hb h1 h2 => ?_, conn rfl side fun ca cb ha hb h1 h2 => ?_,
    conn rfl side fun ca cb ha hb h1 h2 => ?_, ?_⟩
  · rw [ev ha, ev ha, ev hb, bo hb]
    simp only [evalP, chkP_ok, Res.bind_eq_ok, evalBoolP]
    constructor
    · rintro ⟨⟨x, hx, h⟩, _⟩
      clear inv ev bo conn side
      cases x <;> simp_all [Res.bind_eq_ok]
    · rintro (⟨h3, _, rfl⟩ | ⟨h3, h4⟩)
      · exact ⟨⟨_, h3, by simp⟩, shape_bool _⟩
      · exact ⟨⟨_, h3, by simp [h4]⟩, shape_bool _⟩
  · rw [ev ha, ev ha, ev hb, bo hb]
    simp only [evalP, chkP_ok, Res.bind_eq_ok, evalBoolP]
    constructor
    · rintro ⟨⟨x, hx, h⟩, _⟩
      clear inv ev bo conn side
      cases x <;> simp_all [Res.bind_eq_ok]
    · rintro (⟨h3, _, rfl⟩ | ⟨h3, h4⟩)
      · exact ⟨⟨_, h3, by simp⟩, shape_bool _⟩
      · exact ⟨⟨_, h3, by simp [h4]⟩, shape_bool _⟩
  · rw [ev ha, ev ha, ev hb, bo hb]
    simp only [evalP, chkP_ok, Res.bind_eq_ok, evalBoolP]
    constructor
    · rintro ⟨⟨x, hx, h⟩, _⟩
      clear inv ev bo conn side
      cases x <;> simp_all [Res.bind_eq_ok]
    · rintro (⟨h3, _, rfl⟩ | ⟨h3, h4⟩)
      · exact ⟨⟨_, h3, by simp⟩, shape_bool _⟩
      · exact ⟨⟨_, h3, by simp [h4]⟩, shape_bool _⟩
  · constructor
    · rintro ⟨e', h, he⟩
      rw [evalToBool_none] at he
      obtain ⟨ca, ha, h1, rfl⟩ := infer_boolNeg.1 h
      rw [ev ha]
      simp only [evalP, chkP_ok, Res.bind_eq_ok] at he
      obtain ⟨⟨x, hx, h⟩, _⟩ := he
      cases h
      simpa [evalBoolP] using hx
    · intro h
      obtain ⟨ca, ha, h1⟩ := h.boolean
      refine ⟨_, infer_boolNeg.2 ⟨ca, ha, h1, rfl⟩, evalToBool_none.2 ?_⟩
      simp only [evalP, chkP_ok, Res.bind_eq_ok]
      exact ⟨⟨_, (ev ha).1 h, by simp⟩, shape_bool _⟩

theorem boolean_conn {src : ConstraintSource} {sc : Scope} {i : Info} {op : BinOp} (ho : op.isConn = true) {a b : Expr} :
    Boolean src sc (.bin i op a b) ↔ Boolean src sc a ∧ Boolean src sc b := by
  constructor
  · rintro ⟨c, h, _⟩
    obtain ⟨l', r', hl, hr, ⟨_, h1, h2, _⟩ | ⟨hc, _⟩⟩ := infer_bin.1 h
    · exact ⟨⟨l', hl, h1⟩, r', hr, h2⟩
    · cases op <;> simp [BinOp.isCmp, BinOp.isConn] at ho hc
  · rintro ⟨⟨l', hl, h1⟩, r', hr, h2⟩
    exact ⟨_, infer_bin.2 ⟨l', r', hl, hr, .inl ⟨ho, h1, h2, rfl⟩⟩, rfl⟩

theorem boolean_neg {src : ConstraintSource} {sc : Scope} {i : Info} {a : Expr} :
    Boolean src sc (.boolNeg i a) ↔ Boolean src sc a := by
  constructor
  · rintro ⟨c, h, _⟩
    obtain ⟨x, hx, h1, _⟩ := infer_boolNeg.1 h
    exact ⟨x, hx, h1⟩
  · rintro ⟨x, hx, h1⟩
    exact ⟨_, infer_boolNeg.2 ⟨x, hx, h1, rfl⟩, rfl⟩

/-- C44 (2): associativity, `a -> b` as `!a || b`, De Morgan's laws, double negation, and distribution from the left. The two sides
are accepted together and have the same values; in particular, if one cannot be evaluated, so it is with the other. -/
theorem C44_laws {src : ConstraintSource} {sc : Scope} {ctx : EvalCtx} {i : Info} {a b d : Expr} (e f : Expr)
    (h : (e, f) ∈ [
      (.bin i .and (.bin i .and a b) d, .bin i .and a (.bin i .and b d)),
      (.bin i .or (.bin i .or a b) d, .bin i .or a (.bin i .or b d)),
      (.bin i .implies a b, .bin i .or (.boolNeg i a) b),
      (.bin i .implies a (.bin i .implies b d), .bin i .implies (.bin i .and a b) d),
      (.boolNeg i (.bin i .and a b), .bin i .or (.boolNeg i a) (.boolNeg i b)),
      (.boolNeg i (.bin i .or a b), .bin i .and (.boolNeg i a) (.boolNeg i b)),
      (.bin i .and a (.bin i .or b d), .bin i .or (.bin i .and a b) (.bin i .and a d)),
      (.bin i .or a (.bin i .and b d), .bin i .and (.bin i .or a b) (.bin i .or a d))]) :
    (Boolean src sc e ↔ Boolean src sc f) ∧ ∀ v, Evaluates src sc ctx e v ↔ Evaluates src sc ctx f v := by
  have hand : ∀ {a b v}, Evaluates src sc ctx (.bin i .and a b) v ↔ _ := (C44_connectives (i := i)).1
  have hor : ∀ {a b v}, Evaluates src sc ctx (.bin i .or a b) v ↔ _ := (C44_connectives (i := i)).2.1
  have himp : ∀ {a b v}, Evaluates src sc ctx (.bin i .implies a b) v ↔ _ := (C44_connectives (i := i)).2.2.1
  have hneg : ∀ {a v}, Evaluates src sc ctx (.boolNeg i a) v ↔ _ := (C44_connectives (i := i) (b := .notSet i)).2.2.2
  have ba : ∀ {a b}, Boolean src sc (.bin i .and a b) ↔ _ := boolean_conn (op := .and) rfl
  have bo : ∀ {a b}, Boolean src sc (.bin i .or a b) ↔ _ := boolean_conn (op := .or) rfl
  have bi : ∀ {a b}, Boolean src sc (.bin i .implies a b) ↔ _ := boolean_conn (op := .implies) rfl
  have x1 : ∀ {e v}, Evaluates src sc ctx e v → Boolean src sc e := Evaluates.boolean
  have x2 : ∀ {e}, Evaluates src sc ctx e true → ¬ Evaluates src sc ctx e false := fun h h' => by cases h.unique h'
  simp only [List.mem_cons, Prod.mk.injEq, List.not_mem_nil, or_false] at h
  rcases h with ⟨rfl, rfl⟩ | ⟨rfl, rfl⟩ | ⟨rfl, rfl⟩ | ⟨rfl, rfl⟩ | ⟨rfl, rfl⟩ | ⟨rfl, rfl⟩ | ⟨rfl, rfl⟩ | ⟨rfl, rfl⟩ <;>
  refine ⟨by simp only [ba, bo, bi, boolean_neg] <;> grind, fun v => ?_⟩ <;>
  cases v <;> simp only [hand, hor, himp, hneg, ba, bo, bi, boolean_neg, Bool.not_true, Bool.not_false] <;> grind

/-- C44 (3): double negation. -/
theorem C44_double_negation {src : ConstraintSource} {sc : Scope} {ctx : EvalCtx} {i : Info} {a : Expr} :
    (Boolean src sc (.boolNeg i (.boolNeg i a)) ↔ Boolean src sc a) ∧
    ∀ v, Evaluates src sc ctx (.boolNeg i (.boolNeg i a)) v ↔ Evaluates src sc ctx a v := by
  have hneg : ∀ {a v}, Evaluates src sc ctx (.boolNeg i a) v ↔ _ := (C44_connectives (i := i) (b := .notSet i)).2.2.2
  refine ⟨by rw [boolean_neg, boolean_neg], fun v => ?_⟩
  rw [hneg, hneg, Bool.not_not]

/-- C44 (4): commutativity. Full statement: `a && b` and `b && a` have the same values, and likewise for `||`. Missing: if one of
the operands cannot be evaluated, one order may have a value and the other not (`C44_fails`). The two never have different
values. -/
theorem C44_commutative_partial {src : ConstraintSource} {sc : Scope} {ctx : EvalCtx} {i : Info} {a b : Expr} (op : BinOp)
    (ho : op = .and ∨ op = .or) :
    (Boolean src sc (.bin i op a b) ↔ Boolean src sc (.bin i op b a)) ∧
    (∀ v w, Evaluates src sc ctx (.bin i op a b) v → Evaluates src sc ctx (.bin i op b a) w → v = w) ∧
    (∀ x y, Evaluates src sc ctx a x → Evaluates src sc ctx b y →
      ∀ v, Evaluates src sc ctx (.bin i op a b) v ↔ Evaluates src sc ctx (.bin i op b a) v) := by
  have hand : ∀ {a b v}, Evaluates src sc ctx (.bin i .and a b) v ↔ _ := (C44_connectives (i := i)).1
  have hor : ∀ {a b v}, Evaluates src sc ctx (.bin i .or a b) v ↔ _ := (C44_connectives (i := i)).2.1
  have x1 : ∀ {e v}, Evaluates src sc ctx e v → Boolean src sc e := Evaluates.boolean
  have x2 : ∀ {e}, Evaluates src sc ctx e true → ¬ Evaluates src sc ctx e false := fun h h' => by cases h.unique h'
  rcases ho with rfl | rfl
  · refine ⟨by rw [boolean_conn rfl, boolean_conn rfl, and_comm], ?_, ?_⟩
    · intro v w; cases v <;> cases w <;> simp only [hand] <;> grind
    · intro x y hx hy v; cases v <;> cases x <;> cases y <;> simp only [hand] <;> grind
  · refine ⟨by rw [boolean_conn rfl, boolean_conn rfl, and_comm], ?_, ?_⟩
    · intro v w; cases v <;> cases w <;> simp only [hor] <;> grind
    · intro x y hx hy v; cases v <;> cases x <;> cases y <;> simp only [hor] <;> grind

namespace Ex
/-- `tern::value < 3` is true, `ex == 5` is false on an example entry. -/
example : Evaluates {} (.table (ti tc1).keysByName) (ctx tc1 (entry 5))
    (.bin {} .lt (.field {} (.key {} c!"tern") c!"value") (.intConst {} c!"3")) true :=
  ⟨_, get_of_isOk (d := .notSet {}) (by decide +kernel), by decide +kernel⟩

example : Evaluates {} (.table (ti tc1).keysByName) (ctx tc1 (entry 7))
    (.bin {} .eq (.key {} c!"ex") (.intConst {} c!"5")) false :=
  ⟨_, get_of_isOk (d := .notSet {}) (by decide +kernel), by decide +kernel⟩
end Ex

end P4C
