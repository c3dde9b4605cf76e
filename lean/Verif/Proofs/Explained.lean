import Verif.Proofs.StuckValue

/-
Explanations of values, as searched for and as specified.
-/

namespace P4C

open Spec

/-- The value of a constraint, as evaluated and as specified. -/
theorem evalBoolP_evaluates {src : ConstraintSource} {sc : Scope} {ctx : EvalCtx} {name : Str}
    (hc : Provides (sigOf sc) (envOf ctx)) (hw : WidthsOk (sigOf sc)) (hn : Named name (sigOf sc) ctx) {e e' : Expr}
    {s : SExpr} (h : inferAndCheck src sc e = .ok e') (ha : abs e = some s) (hb : e'.ty = .boolean) (b : Bool) :
    evalBoolP ctx e' = .ok b ↔ Evaluates (sigOf sc) (envOf ctx) s .boolean (.bool b) := by
  rw [evalBoolP_ok]
  have x : EntryTexts := ⟨fun _ _ _ => [], fun _ _ _ => [], fun _ => [], fun _ => [], fun _ => [], fun _ => [], fun _ => [], fun _ => [], fun _ => []⟩
  rcases eval_outcome (x := x) hc hw hn h ha with ⟨v, hv, he⟩ | ⟨a, a', text, hs, hne, hat⟩
  · rw [hb] at he
    rw [hv]
    constructor
    · intro hv'
      cases hv'
      exact he
    · intro he'
      rw [(evaluates_unique he he').2]
  · constructor
    · intro hv
      exact (hat.not_ok hv).elim
    · intro he
      exact (stuck_no_value hs ha he).elim

/-! ### Sizes and names in typed expressions -/

theorem cast_weight {e : Expr} {t : Ty} (h : e.ty ≠ .boolean → weight e = 1) :
    weight (castTransitivelyTo e t) = weight e ∧ ((castTransitivelyTo e t).ty ≠ .boolean → weight (castTransitivelyTo e t) = 1) := by
  have h1 : weight (castIntStep e t) = weight e ∧ ((castIntStep e t).ty ≠ .boolean → weight (castIntStep e t) = 1) := by
    unfold castIntStep
    split
    · rename_i h0
      have := h (by rw [h0.2]; simp)
      exact ⟨this.symm, fun _ => rfl⟩
    · exact ⟨rfl, h⟩
  unfold castTransitivelyTo
  dsimp only
  split
  · rename_i h0
    have := h1.2 (fun hb => by rw [hb] at h0; simp [isFixedUnsigned] at h0)
    exact ⟨by rw [← h1.1, this]; rfl, fun _ => rfl⟩
  · exact h1

theorem infer_weight {src : ConstraintSource} {sc : Scope} {e c : Expr} (h : inferAndCheck src sc e = .ok c) :
    weight c = weight e ∧ (c.ty ≠ .boolean → weight c = 1) := by
  induction e generalizing c with
  | notSet i => exact (quotingError_ne_ok.1 h).elim
  | boolConst i b => cases h; exact ⟨rfl, fun _ => rfl⟩
  | intConst i b => cases h; exact ⟨rfl, fun _ => rfl⟩
  | typeCast i x => exact (quotingError_ne_ok.1 h).elim
  | key i n => obtain ⟨t, h1, _, rfl⟩ := infer_key h; exact ⟨rfl, fun _ => rfl⟩
  | actionParam i n => obtain ⟨t, h1, _, rfl⟩ := infer_param h; exact ⟨rfl, fun _ => rfl⟩
  | attr i n => obtain ⟨_, rfl⟩ := infer_attr h; exact ⟨rfl, fun _ => rfl⟩
  | boolNeg i e ih =>
    obtain ⟨x, h1, h2, rfl⟩ := infer_boolNeg.1 h
    exact ⟨by simp only [weight]; rw [(ih h1).1], fun hn => (hn rfl).elim⟩
  | arithNeg i e => obtain ⟨_, _, _, rfl⟩ := infer_arithNeg.1 h; exact ⟨rfl, fun _ => rfl⟩
  | field i e f => obtain ⟨x, t, _, hf, rfl⟩ := infer_field.1 h; exact ⟨rfl, fun _ => rfl⟩
  | bin i op l r ihl ihr =>
    obtain ⟨l', r', hl, hr, ⟨h0, h1, h2, rfl⟩ | ⟨h0, t, _, _, rfl⟩⟩ := infer_bin.1 h
    · exact ⟨by simp only [weight]; rw [(ihl hl).1, (ihr hr).1], fun hn => (hn rfl).elim⟩
    · refine ⟨?_, fun hn => (hn rfl).elim⟩
      simp only [weight]
      rw [(cast_weight (ihl hl).2).1, (cast_weight (ihr hr).2).1, (ihl hl).1, (ihr hr).1]

theorem cast_mentions {e : Expr} {t : Ty} {n : Str} : Mentions (castTransitivelyTo e t) n ↔ Mentions e n := by
  have h1 : Mentions (castIntStep e t) n ↔ Mentions e n := by
    unfold castIntStep
    split <;> rfl
  unfold castTransitivelyTo
  dsimp only
  split
  · exact h1
  · exact h1

theorem infer_mentions {src : ConstraintSource} {sc : Scope} {e c : Expr} (h : inferAndCheck src sc e = .ok c) (n : Str) :
    Mentions c n ↔ Mentions e n := by
  induction e generalizing c with
  | notSet i => exact (quotingError_ne_ok.1 h).elim
  | boolConst i b => cases h; rfl
  | intConst i b => cases h; rfl
  | typeCast i x => exact (quotingError_ne_ok.1 h).elim
  | key i n => obtain ⟨t, h1, _, rfl⟩ := infer_key h; rfl
  | actionParam i n => obtain ⟨t, h1, _, rfl⟩ := infer_param h; rfl
  | attr i n => obtain ⟨_, rfl⟩ := infer_attr h; rfl
  | boolNeg i e ih => obtain ⟨x, h1, h2, rfl⟩ := infer_boolNeg.1 h; have := ih h1; exact this
  | arithNeg i e ih => obtain ⟨_, h1, _, rfl⟩ := infer_arithNeg.1 h; have := ih h1; exact this
  | field i e f ih => obtain ⟨x, t, h1, hf, rfl⟩ := infer_field.1 h; have := ih h1; exact this
  | bin i op l r ihl ihr =>
    obtain ⟨l', r', hl, hr, ⟨h0, h1, h2, rfl⟩ | ⟨h0, t, _, _, rfl⟩⟩ := infer_bin.1 h
    · exact or_congr (ihl hl) (ihr hr)
    · exact or_congr (cast_mentions.trans (ihl hl)) (cast_mentions.trans (ihr hr))

/-- Types of expressions of action constraints. -/
def Scalar (t : Ty) : Prop := t = .boolean ∨ t = .arbitraryInt ∨ ∃ w, t = .fixedUnsigned w

theorem scalar_above {t : Ty} {w : Int} (h : Scalar t) : strictlyAbove t (.fixedUnsigned w) = false := by
  rcases h with rfl | rfl | ⟨_, rfl⟩ <;> rfl

theorem infer_scalar {src : ConstraintSource} {ps : List (Str × VarInfo)}
    (hp : ∀ n t, (sigOf (.action ps)).param n = some t → Supported t → ∃ w, t = .fixedUnsigned w) {e c : Expr}
    (h : inferAndCheck src (.action ps) e = .ok c) : Scalar c.ty := by
  induction e generalizing c with
  | notSet i => exact (quotingError_ne_ok.1 h).elim
  | boolConst i b => cases h; exact .inl rfl
  | intConst i b => cases h; exact .inr (.inl rfl)
  | typeCast i x => exact (quotingError_ne_ok.1 h).elim
  | key i n => obtain ⟨t, h1, _⟩ := infer_key h; simp [sigOf] at h1
  | actionParam i n => obtain ⟨t, h1, h2, rfl⟩ := infer_param h; exact .inr (.inr (hp n t h1 h2))
  | attr i n => obtain ⟨_, rfl⟩ := infer_attr h; exact .inr (.inl rfl)
  | boolNeg i e ih => obtain ⟨x, h1, h2, rfl⟩ := infer_boolNeg.1 h; exact .inl rfl
  | arithNeg i e ih => obtain ⟨_, h1, _, rfl⟩ := infer_arithNeg.1 h; exact .inr (.inl rfl)
  | field i e f ih =>
    obtain ⟨x, t, h1, hf, rfl⟩ := infer_field.1 h
    have := ih h1
    generalize x.ty = u at this hf
    rcases this with rfl | rfl | ⟨_, rfl⟩ <;> cases hf
  | bin i op l r ihl ihr =>
    obtain ⟨l', r', hl, hr, ⟨h0, h1, h2, rfl⟩ | ⟨h0, t, _, _, rfl⟩⟩ := infer_bin.1 h <;> exact .inl rfl

/-- Parameters in action constraints are not cast. -/
theorem cast_bare {e : Expr} {t : Ty} (ht : Scalar t) (hi : e.ty = .arbitraryInt → CorrectSizes.NoBareParam e) :
    CorrectSizes.NoBareParam (castTransitivelyTo e t) ↔ CorrectSizes.NoBareParam e := by
  unfold castTransitivelyTo castIntStep
  dsimp only
  split
  · rename_i h0
    have := hi h0.2
    split <;> exact ⟨fun _ => this, fun _ => trivial⟩
  · split
    · rename_i h1
      obtain ⟨h2, h3⟩ := h1
      cases hty : e.ty with
      | fixedUnsigned w => rw [hty, scalar_above ht] at h2; cases h2
      | _ => rw [hty] at h3; cases h3
    · rfl

theorem infer_bare_action {src : ConstraintSource} {ps : List (Str × VarInfo)}
    (hp : ∀ n t, (sigOf (.action ps)).param n = some t → Supported t → ∃ w, t = .fixedUnsigned w) {e c : Expr}
    (h : inferAndCheck src (.action ps) e = .ok c) :
    (CorrectSizes.NoBareParam c ↔ CorrectSizes.NoBareParam e) ∧ (c.ty = .arbitraryInt → CorrectSizes.NoBareParam c) := by
  induction e generalizing c with
  | notSet i => exact (quotingError_ne_ok.1 h).elim
  | boolConst i b => cases h; exact ⟨Iff.rfl, fun _ => trivial⟩
  | intConst i b => cases h; exact ⟨Iff.rfl, fun _ => trivial⟩
  | typeCast i x => exact (quotingError_ne_ok.1 h).elim
  | key i n => obtain ⟨t, h1, _⟩ := infer_key h; simp [sigOf] at h1
  | actionParam i n =>
    obtain ⟨t, h1, h2, rfl⟩ := infer_param h
    obtain ⟨w, rfl⟩ := hp n t h1 h2
    exact ⟨Iff.rfl, fun h => by cases h⟩
  | attr i n => obtain ⟨_, rfl⟩ := infer_attr h; exact ⟨Iff.rfl, fun _ => trivial⟩
  | boolNeg i e ih => obtain ⟨x, h1, h2, rfl⟩ := infer_boolNeg.1 h; exact ⟨(ih h1).1, fun h => by cases h⟩
  | arithNeg i e ih => obtain ⟨_, h1, _, rfl⟩ := infer_arithNeg.1 h; exact ⟨Iff.rfl, fun _ => trivial⟩
  | field i e f ih => obtain ⟨x, t, h1, hf, rfl⟩ := infer_field.1 h; exact ⟨Iff.rfl, fun _ => trivial⟩
  | bin i op l r ihl ihr =>
    obtain ⟨l', r', hl, hr, ⟨h0, h1, h2, rfl⟩ | ⟨h0, t, hj, _, rfl⟩⟩ := infer_bin.1 h
    · exact ⟨and_congr (ihl hl).1 (ihr hr).1, fun h => by cases h⟩
    · have ht : Scalar t := by
        rcases isJoin_cases hj with rfl | rfl
        · exact infer_scalar hp hl
        · exact infer_scalar hp hr
      exact ⟨and_congr ((cast_bare ht (ihl hl).2).trans (ihl hl).1) ((cast_bare ht (ihr hr).2).trans (ihr hr).1),
        fun h => by cases h⟩

theorem infer_bare_table {src : ConstraintSource} {ks : List (Str × VarInfo)} {e c : Expr}
    (h : inferAndCheck src (.table ks) e = .ok c) : CorrectSizes.NoBareParam e := by
  induction e generalizing c with
  | notSet i => exact (quotingError_ne_ok.1 h).elim
  | boolConst i b | intConst i b | key i n | attr i n | arithNeg i e | field i e f => trivial
  | typeCast i x => exact (quotingError_ne_ok.1 h).elim
  | actionParam i n => obtain ⟨t, h1, _⟩ := infer_param h; simp [sigOf] at h1
  | boolNeg i e ih => obtain ⟨x, h1, h2, rfl⟩ := infer_boolNeg.1 h; have := ih h1; exact this
  | bin i op l r ihl ihr =>
    obtain ⟨l', r', hl, hr, _⟩ := infer_bin.1 h
    exact ⟨ihl hl, ihr hr⟩

/-! ### Explanations -/

/-- Explanations are parts of the constraint. -/
theorem Spec.Explained.skeleton {Γ : Sig} {ρ : Env} {e y : Expr} (h : Explained Γ ρ e y) : Skeleton y e := by
  have hop : ∀ {op : BinOp} {o : Spec.Conn}, connOf op = some o → op = .and ∨ op = .or ∨ op = .implies := by
    intro op o h
    cases op <;> simp [connOf] at h ⊢
  induction h with
  | const | cmp | neither => exact .self _
  | not _ ih => exact .not ih
  | left h _ _ _ _ _ ih => exact .left (hop h) ih
  | right h _ _ _ _ _ ih => exact .right (hop h) ih
  | bothLeft h _ _ _ _ _ _ _ _ _ ih _ => exact .left (hop h) ih
  | bothRight h _ _ _ _ _ _ _ _ _ _ ih => exact .right (hop h) ih

theorem skeleton_typed {src : ConstraintSource} {sc : Scope} {e c y : Expr} (h : inferAndCheck src sc e = .ok c)
    (hs : Skeleton y e) : ∃ y', inferAndCheck src sc y = .ok y' := by
  induction hs generalizing c with
  | self => exact ⟨c, h⟩
  | not _ ih => obtain ⟨x, h1, _⟩ := infer_boolNeg.1 h; exact ih h1
  | left _ _ ih => obtain ⟨_, _, h1, _⟩ := infer_bin.1 h; exact ih h1
  | right _ _ ih => obtain ⟨_, _, _, h1, _⟩ := infer_bin.1 h; exact ih h1

theorem explained_typed {src : ConstraintSource} {sc : Scope} {Γ : Sig} {ρ : Env} {e c y : Expr}
    (h : inferAndCheck src sc e = .ok c) (hy : Explained Γ ρ e y) : ∃ y', inferAndCheck src sc y = .ok y' :=
  skeleton_typed h hy.skeleton

/-- The two ways to say which operands decide. -/
theorem decided_iff {op : BinOp} {o : Spec.Conn} (h : connOf op = some o) (a b : Bool) :
    (DecidedLeft o a ↔ (if op = .or then a else !a) = true) ∧ (DecidedRight o b ↔ (if op = .and then !b else b) = true) := by
  cases op <;> cases h <;> cases a <;> cases b <;> simp [DecidedLeft, DecidedRight, Spec.Conn.apply]

theorem connOf_isConn {op : BinOp} (h : op.isConn = true) : ∃ o, connOf op = some o := by
  cases op <;> first | exact ⟨_, rfl⟩ | cases h

section
variable {src : ConstraintSource} {sc : Scope} {ctx : EvalCtx} {name : Str}
  (hc : Provides (sigOf sc) (envOf ctx)) (hw : WidthsOk (sigOf sc)) (hn : Named name (sigOf sc) ctx)
  (hbare : ∀ {y c : Expr}, inferAndCheck src sc y = .ok c → (CorrectSizes.NoBareParam c ↔ CorrectSizes.NoBareParam y))

include hc hw hn

theorem boolP_valued {e c : Expr} {s : SExpr} (h : inferAndCheck src sc e = .ok c) (ha : abs e = some s)
    (hb : c.ty = .boolean) (b : Bool) : evalBoolP ctx c = .ok b ↔ Valued (sigOf sc) (envOf ctx) e b := by
  rw [evalBoolP_evaluates hc hw hn h ha hb b]
  constructor
  · exact fun h => ⟨s, ha, h⟩
  · rintro ⟨s', h1, h2⟩
    rw [ha] at h1
    cases h1
    exact h2

theorem valued_unique {e c : Expr} {s : SExpr} (h : inferAndCheck src sc e = .ok c) (ha : abs e = some s)
    (hb : c.ty = .boolean) {a b : Bool} (h1 : Valued (sigOf sc) (envOf ctx) e a) (h2 : Valued (sigOf sc) (envOf ctx) e b) :
    a = b := by
  have h1 := (boolP_valued hc hw hn h ha hb a).2 h1
  rw [(boolP_valued hc hw hn h ha hb b).2 h2] at h1
  cases h1
  rfl

include hbare in
theorem minP_explained (hnb : NoBoolNames (sigOf sc)) {e c : Expr} {s : SExpr} (h : inferAndCheck src sc e = .ok c)
    (ha : abs e = some s) (hb : c.ty = .boolean) (p : Path) (y' : Expr) :
    (∃ q, minP ctx c p = .ok (y', q)) ↔
      ∃ y, Explained (sigOf sc) (envOf ctx) e y ∧ inferAndCheck src sc y = .ok y' := by
  induction e generalizing c s p y' with
  | notSet i => exact (quotingError_ne_ok.1 h).elim
  | boolConst i b =>
    have hi := h
    cases h
    constructor
    · rintro ⟨q, hq⟩
      cases hq
      exact ⟨_, .const i b, hi⟩
    · rintro ⟨y, hy, h2⟩
      cases hy
      rw [hi] at h2
      cases h2
      exact ⟨p, rfl⟩
  | intConst i b => cases h; cases hb
  | typeCast i x => exact (quotingError_ne_ok.1 h).elim
  | key i n =>
    obtain ⟨t, h1, _, rfl⟩ := infer_key h
    cases (show t = .boolean from hb)
    exact absurd h1 (hnb.1 n)
  | actionParam i n =>
    obtain ⟨t, h1, _, rfl⟩ := infer_param h
    cases (show t = .boolean from hb)
    exact absurd h1 (hnb.2 n)
  | attr i n => obtain ⟨_, rfl⟩ := infer_attr h; cases hb
  | arithNeg i e => obtain ⟨_, _, _, rfl⟩ := infer_arithNeg.1 h; cases hb
  | field i e f =>
    obtain ⟨x, t, _, hf, rfl⟩ := infer_field.1 h
    cases (show t = .boolean from hb)
    generalize x.ty = u at hf
    cases hf
  | boolNeg i e ih =>
    obtain ⟨x, h1, h2, rfl⟩ := infer_boolNeg.1 h
    simp only [abs, Option.map_eq_some_iff] at ha
    obtain ⟨s', ha', _⟩ := ha
    refine (ih h1 ha' h2 (0 :: p) y').trans ⟨fun ⟨y, g1, g2⟩ => ⟨y, .not g1, g2⟩, ?_⟩
    rintro ⟨y, g1, g2⟩
    cases g1 with
    | not g1 => exact ⟨y, g1, g2⟩
  | bin i op l r ihl ihr =>
    have hi := h
    obtain ⟨l', r', hl, hr, ⟨h0, h1, h2, rfl⟩ | ⟨h0, t, _, _, rfl⟩⟩ := infer_bin.1 h
    · obtain ⟨o, ho⟩ := connOf_isConn h0
      simp only [abs, Option.bind_eq_some_iff] at ha
      obtain ⟨sl, hal, sr, har, _⟩ := ha
      have hL := boolP_valued hc hw hn hl hal h1
      have hR := boolP_valued hc hw hn hr har h2
      have ihl := fun p y' => ihl hl hal h1 p y'
      have ihr := fun p y' => ihr hr har h2 p y'
      have hmin : minP ctx (.bin (i.withTy .boolean) op l' r') p = (evalBoolP ctx l' >>= fun lb => evalBoolP ctx r' >>= fun rb =>
          match (if op = .or then lb else !lb), (if op = .and then !rb else rb) with
          | false, false => .ok (.bin (i.withTy .boolean) op l' r', p)
          | true, false => minP ctx l' (0 :: p)
          | false, true => minP ctx r' (1 :: p)
          | true, true => minP ctx l' (0 :: p) >>= fun n0 => minP ctx r' (1 :: p) >>= fun n1 =>
            size n0.1 >>= fun s0 => size n1.1 >>= fun s1 => .ok (if s0 ≤ s1 then n0 else n1)) := by
        cases op <;> first | rfl | cases h0
      have hsz : ∀ {y y' : Expr}, inferAndCheck src sc y = .ok y' → ∀ k, size y' = .ok k ↔ weight y = k ∧ CorrectSizes.NoBareParam y :=
        fun hy k => by rw [size_weight, (infer_weight hy).1, hbare hy]
      have hcmp : ∀ o', cmpOf op ≠ some o' := by intro o' e; cases op <;> first | (cases e; done) | cases h0
      rw [hmin]
      constructor
      · rintro ⟨q, hq⟩
        obtain ⟨a, hA, hq⟩ := Res.bind_eq_ok.1 hq
        obtain ⟨b, hB, hq⟩ := Res.bind_eq_ok.1 hq
        have hA := (hL a).1 hA
        have hB := (hR b).1 hB
        obtain ⟨d1, d2⟩ := decided_iff ho a b
        revert hq
        split
        · rename_i e1 e2
          intro hq
          cases hq
          exact ⟨_, .neither ho hA hB (by rw [d1, e1]; simp) (by rw [d2, e2]; simp), hi⟩
        · rename_i e1 e2
          intro hq
          obtain ⟨y, g1, g2⟩ := (ihl (0 :: p) y').1 ⟨q, hq⟩
          exact ⟨y, .left ho hA hB (by rw [d1, e1]) (by rw [d2, e2]; simp) g1, g2⟩
        · rename_i e1 e2
          intro hq
          obtain ⟨y, g1, g2⟩ := (ihr (1 :: p) y').1 ⟨q, hq⟩
          exact ⟨y, .right ho hA hB (by rw [d1, e1]; simp) (by rw [d2, e2]) g1, g2⟩
        · rename_i e1 e2
          intro hq
          obtain ⟨n0, k0, hq⟩ := Res.bind_eq_ok.1 hq
          obtain ⟨n1, k1, hq⟩ := Res.bind_eq_ok.1 hq
          obtain ⟨s0, k2, hq⟩ := Res.bind_eq_ok.1 hq
          obtain ⟨s1, k3, hq⟩ := Res.bind_eq_ok.1 hq
          obtain ⟨y, g1, g2⟩ := (ihl (0 :: p) n0.1).1 ⟨n0.2, k0⟩
          obtain ⟨z, g3, g4⟩ := (ihr (1 :: p) n1.1).1 ⟨n1.2, k1⟩
          obtain ⟨w1, b1⟩ := (hsz g2 s0).1 k2
          obtain ⟨w2, b2⟩ := (hsz g4 s1).1 k3
          by_cases hle : s0 ≤ s1
          · rw [if_pos hle] at hq
            cases hq
            exact ⟨y, .bothLeft ho hA hB (by rw [d1, e1]) (by rw [d2, e2]) g1 g3 b1 b2 (by omega), g2⟩
          · rw [if_neg hle] at hq
            cases hq
            exact ⟨z, .bothRight ho hA hB (by rw [d1, e1]) (by rw [d2, e2]) g1 g3 b1 b2 (by omega), g4⟩
      · rintro ⟨y, g1, g2⟩
        have step : ∀ {o' : Spec.Conn} {a b : Bool}, connOf op = some o' → Valued (sigOf sc) (envOf ctx) l a →
            Valued (sigOf sc) (envOf ctx) r b → evalBoolP ctx l' = .ok a ∧ evalBoolP ctx r' = .ok b ∧
            (DecidedLeft o' a ↔ (if op = .or then a else !a) = true) ∧
            (DecidedRight o' b ↔ (if op = .and then !b else b) = true) :=
          fun ho' hA hB => ⟨(hL _).2 hA, (hR _).2 hB, (decided_iff ho' _ true).1, (decided_iff ho' true _).2⟩
        have fls : ∀ {P : Prop} {x : Bool}, (P ↔ x = true) → ¬ P → x = false := by
          intro P x h hn
          cases x with
          | true => exact (hn (h.2 rfl)).elim
          | false => rfl
        cases g1 with
        | cmp ho' => exact (hcmp _ ho').elim
        | neither ho' hA hB n1 n2 =>
          obtain ⟨k1, k2, k3, k4⟩ := step ho' hA hB
          rw [hi] at g2
          cases g2
          rw [k1, Res.ok_bind, k2, Res.ok_bind, fls k3 n1, fls k4 n2]
          exact ⟨p, rfl⟩
        | left ho' hA hB n1 n2 g =>
          obtain ⟨k1, k2, k3, k4⟩ := step ho' hA hB
          rw [k1, Res.ok_bind, k2, Res.ok_bind, k3.1 n1, fls k4 n2]
          exact (ihl _ _).2 ⟨y, g, g2⟩
        | right ho' hA hB n1 n2 g =>
          obtain ⟨k1, k2, k3, k4⟩ := step ho' hA hB
          rw [k1, Res.ok_bind, k2, Res.ok_bind, fls k3 n1, k4.1 n2]
          exact (ihr _ _).2 ⟨y, g, g2⟩
        | @bothLeft _ _ _ _ _ _ z _ _ ho' hA hB n1 n2 g g' b1 b2 hle =>
          obtain ⟨k1, k2, k3, k4⟩ := step ho' hA hB
          rw [k1, Res.ok_bind, k2, Res.ok_bind, k3.1 n1, k4.1 n2]
          obtain ⟨z', hz⟩ := explained_typed hr g'
          obtain ⟨q, hq⟩ := (ihl (0 :: p) _).2 ⟨y, g, g2⟩
          obtain ⟨q', hq'⟩ := (ihr (1 :: p) _).2 ⟨z, g', hz⟩
          refine ⟨q, ?_⟩
          show (minP ctx l' (0 :: p) >>= _) = _
          rw [hq, Res.ok_bind, hq', Res.ok_bind, (hsz g2 _).2 ⟨rfl, b1⟩, Res.ok_bind, (hsz hz _).2 ⟨rfl, b2⟩, Res.ok_bind, if_pos hle]
        | @bothRight _ _ _ _ _ z _ _ _ ho' hA hB n1 n2 g g' b1 b2 hlt =>
          obtain ⟨k1, k2, k3, k4⟩ := step ho' hA hB
          rw [k1, Res.ok_bind, k2, Res.ok_bind, k3.1 n1, k4.1 n2]
          obtain ⟨z', hz⟩ := explained_typed hl g
          obtain ⟨q, hq⟩ := (ihl (0 :: p) _).2 ⟨z, g, hz⟩
          obtain ⟨q', hq'⟩ := (ihr (1 :: p) _).2 ⟨y, g', g2⟩
          refine ⟨q', ?_⟩
          show (minP ctx l' (0 :: p) >>= _) = _
          rw [hq, Res.ok_bind, hq', Res.ok_bind, (hsz hz _).2 ⟨rfl, b1⟩, Res.ok_bind, (hsz g2 _).2 ⟨rfl, b2⟩, Res.ok_bind,
            if_neg (by omega)]
    · have hcn : ∀ o', connOf op ≠ some o' := by intro o' e; cases op <;> first | (cases e; done) | cases h0
      have hmin : ∀ l r, minP ctx (.bin (i.withTy .boolean) op l r) p = .ok (.bin (i.withTy .boolean) op l r, p) := by
        intro l r
        cases op <;> first | rfl | cases h0
      obtain ⟨o, ho⟩ : ∃ o, cmpOf op = some o := by cases op <;> first | exact ⟨_, rfl⟩ | cases h0
      rw [hmin]
      constructor
      · rintro ⟨q, hq⟩
        cases hq
        exact ⟨_, .cmp ho, hi⟩
      · rintro ⟨y, g1, g2⟩
        cases g1 with
        | cmp =>
          rw [hi] at g2
          cases g2
          exact ⟨p, rfl⟩
        | neither h | left h | right h | bothLeft h | bothRight h => exact (hcn _ h).elim

end

/-! ### Explanations are unique -/

theorem valued_det {Γ : Sig} {ρ : Env} {e : Expr} {a b : Bool} (ha : Valued Γ ρ e a) (hb : Valued Γ ρ e b) : a = b := by
  obtain ⟨s, h1, h2⟩ := ha
  obtain ⟨s', h3, h4⟩ := hb
  rw [h1] at h3
  cases h3
  simpa using (evaluates_unique h2 h4).2

theorem stuck_not_valued {name : Str} {Γ : Sig} {ρ : Env} {e : Expr} {a b : Loc} {text : Str} {v : Bool}
    (h : Stuck name Γ ρ e a b text) (hv : Valued Γ ρ e v) : False := by
  obtain ⟨s, h1, h2⟩ := hv
  exact stuck_no_value h h1 h2

/-- How connectives are explained. -/
theorem explained_conn {Γ : Sig} {ρ : Env} {i : Info} {op : BinOp} {o : Spec.Conn} {l r z : Expr} (ho : connOf op = some o)
    (hz : Explained Γ ρ (.bin i op l r) z) : ∃ a b, Valued Γ ρ l a ∧ Valued Γ ρ r b ∧
    ((¬ DecidedLeft o a ∧ ¬ DecidedRight o b ∧ z = .bin i op l r) ∨
    (DecidedLeft o a ∧ ¬ DecidedRight o b ∧ Explained Γ ρ l z) ∨
    (¬ DecidedLeft o a ∧ DecidedRight o b ∧ Explained Γ ρ r z) ∨
    (DecidedLeft o a ∧ DecidedRight o b ∧ ∃ y1 y2, Explained Γ ρ l y1 ∧ Explained Γ ρ r y2 ∧ CorrectSizes.NoBareParam y1 ∧
      CorrectSizes.NoBareParam y2 ∧ z = if weight y1 ≤ weight y2 then y1 else y2)) := by
  have un : ∀ {o' : Spec.Conn}, connOf op = some o' → o' = o := by
    intro o' ho'
    rw [ho] at ho'
    cases ho'
    rfl
  cases hz with
  | cmp h' => exact (op_disjoint h' ho).elim
  | neither ho' h1 h2 d1 d2 => cases un ho'; exact ⟨_, _, h1, h2, .inl ⟨d1, d2, rfl⟩⟩
  | left ho' h1 h2 d1 d2 hy => cases un ho'; exact ⟨_, _, h1, h2, .inr (.inl ⟨d1, d2, hy⟩)⟩
  | right ho' h1 h2 d1 d2 hy => cases un ho'; exact ⟨_, _, h1, h2, .inr (.inr (.inl ⟨d1, d2, hy⟩))⟩
  | bothLeft ho' h1 h2 d1 d2 hy hy' n1 n2 hle =>
    cases un ho'
    exact ⟨_, _, h1, h2, .inr (.inr (.inr ⟨d1, d2, _, _, hy, hy', n1, n2, by rw [if_pos hle]⟩))⟩
  | bothRight ho' h1 h2 d1 d2 hy hy' n1 n2 hlt =>
    cases un ho'
    exact ⟨_, _, h1, h2, .inr (.inr (.inr ⟨d1, d2, _, _, hy, hy', n1, n2, by rw [if_neg (by omega)]⟩))⟩

/-- There is at most one explanation. -/
theorem explained_unique {Γ : Sig} {ρ : Env} {e y z : Expr} (hy : Explained Γ ρ e y) (hz : Explained Γ ρ e z) : y = z := by
  induction e generalizing y z with
  | boolConst => cases hy; cases hz; rfl
  | boolNeg i e ih =>
    cases hy with
    | not hy =>
    cases hz with
    | not hz => exact ih hy hz
  | bin i op l r ihl ihr =>
    cases ho : connOf op with
    | none =>
      have no : ∀ {o}, connOf op ≠ some o := by rw [ho]; simp
      have self : ∀ {z : Expr}, Explained Γ ρ (.bin i op l r) z → z = .bin i op l r := by
        intro z hz
        cases hz with
        | cmp => rfl
        | neither h' | left h' | right h' | bothLeft h' | bothRight h' => exact (no h').elim
      rw [self hy, self hz]
    | some o =>
      obtain ⟨a, b, hA, hB, h1⟩ := explained_conn ho hy
      obtain ⟨a', b', hA', hB', h2⟩ := explained_conn ho hz
      cases valued_det hA hA'
      cases valued_det hB hB'
      rcases h1 with ⟨d1, d2, rfl⟩ | ⟨d1, d2, g⟩ | ⟨d1, d2, g⟩ | ⟨d1, d2, y1, y2, g1, g2, _, _, rfl⟩ <;>
        rcases h2 with ⟨e1, e2, rfl⟩ | ⟨e1, e2, k⟩ | ⟨e1, e2, k⟩ | ⟨e1, e2, z1, z2, k1, k2, _, _, rfl⟩ <;>
        first
          | exact (d1 e1).elim
          | exact (d2 e2).elim
          | exact (e1 d1).elim
          | exact (e2 d2).elim
          | rfl
          | exact ihl g k
          | exact ihr g k
          | rw [ihl g1 k1, ihr g2 k2]
  | _ => cases hy

theorem obstacle_bare {e : Expr} {j : Info} {n : Str} (h : Obstacle e j n) : ¬ CorrectSizes.NoBareParam e := by
  induction h with
  | self => exact fun h => h
  | not _ ih => exact ih
  | left _ ih => exact fun h => ih h.1
  | right _ _ ih => exact fun h => ih h.2

theorem obstacle_unique {e : Expr} {j j' : Info} {n n' : Str} (h : Obstacle e j n) (h' : Obstacle e j' n') :
    j = j' ∧ n = n' := by
  induction h with
  | self => cases h'; exact ⟨rfl, rfl⟩
  | not _ ih => cases h' with | not h' => exact ih h'
  | left h ih =>
    cases h' with
    | left h' => exact ih h'
    | right hb _ => exact (obstacle_bare h hb).elim
  | right hb _ ih =>
    cases h' with
    | left h' => exact (obstacle_bare h' hb).elim
    | right _ h' => exact ih h'

/-- What is to blame for the want of an explanation is to blame for it. -/
theorem unexplained_not_explained {name : Str} {Γ : Sig} {ρ : Env} {e y : Expr} {f : Blame} (h : Unexplained name Γ ρ e f)
    (hy : Explained Γ ρ e y) : False := by
  induction h generalizing y with
  | not _ ih => cases hy with | not hy => exact ih hy
  | operand ho h1 h2 =>
    obtain ⟨a, b, hA, hB, _⟩ := explained_conn ho hy
    exact stuck_not_valued h2 hB
  | left ho h1 h2 d1 _ ih =>
    obtain ⟨a, b, hA, hB, h⟩ := explained_conn ho hy
    cases valued_det h1 hA
    rcases h with ⟨d, _⟩ | ⟨_, _, g⟩ | ⟨d, _⟩ | ⟨_, _, _, _, g, _⟩
    · exact d d1
    · exact ih g
    · exact d d1
    · exact ih g
  | right ho h1 h2 d1 d2 _ ih =>
    obtain ⟨a, b, hA, hB, h⟩ := explained_conn ho hy
    cases valued_det h1 hA
    cases valued_det h2 hB
    rcases h with ⟨_, d, _⟩ | ⟨_, d, _⟩ | ⟨_, _, g⟩ | ⟨_, _, _, _, _, g, _⟩
    · exact d d2
    · exact d d2
    · exact ih g
    · exact ih g
  | second ho h1 h2 d1 d2 _ _ ih =>
    obtain ⟨a, b, hA, hB, h⟩ := explained_conn ho hy
    cases valued_det h1 hA
    cases valued_det h2 hB
    rcases h with ⟨_, d, _⟩ | ⟨_, d, _⟩ | ⟨_, _, g⟩ | ⟨_, _, _, _, _, g, _⟩
    · exact d d2
    · exact d d2
    · exact ih g
    · exact ih g
  | sizeLeft ho h1 h2 d1 d2 g1 g2 hn _ =>
    obtain ⟨a, b, hA, hB, h⟩ := explained_conn ho hy
    cases valued_det h1 hA
    cases valued_det h2 hB
    rcases h with ⟨d, _⟩ | ⟨_, d, _⟩ | ⟨d, _⟩ | ⟨_, _, _, _, k1, k2, b1, b2, _⟩
    · exact d d1
    · exact d d2
    · exact d d1
    · cases explained_unique g1 k1
      exact obstacle_bare hn b1
  | sizeRight ho h1 h2 d1 d2 g1 g2 _ hn _ =>
    obtain ⟨a, b, hA, hB, h⟩ := explained_conn ho hy
    cases valued_det h1 hA
    cases valued_det h2 hB
    rcases h with ⟨d, _⟩ | ⟨_, d, _⟩ | ⟨d, _⟩ | ⟨_, _, _, _, k1, k2, b1, b2, _⟩
    · exact d d1
    · exact d d2
    · exact d d1
    · cases explained_unique g2 k2
      exact obstacle_bare hn b2

/-- One part is to blame. -/
theorem unexplained_unique {name : Str} {Γ : Sig} {ρ : Env} {e : Expr} {f g : Blame} (hf : Unexplained name Γ ρ e f)
    (hg : Unexplained name Γ ρ e g) : f = g := by
  have un : ∀ {op : BinOp} {o o' : Spec.Conn}, connOf op = some o → connOf op = some o' → o' = o := by
    intro op o o' ho ho'
    rw [ho] at ho'
    cases ho'
    rfl
  induction hf generalizing g with
  | not _ ih => cases hg with | not hg => exact ih hg
  | operand ho h1 h2 =>
    cases hg with
    | operand _ _ k2 => obtain ⟨rfl, rfl, rfl⟩ := stuck_unique h2 k2; rfl
    | left _ _ k | right _ _ k | second _ _ k | sizeLeft _ _ k | sizeRight _ _ k => exact (stuck_not_valued h2 k).elim
  | left ho h1 h2 d1 h ih =>
    cases hg with
    | operand _ _ k2 => exact (stuck_not_valued k2 h2).elim
    | left _ _ _ _ k => exact ih k
    | right ho' k1 _ d => cases un ho ho'; cases valued_det h1 k1; exact (d d1).elim
    | second _ _ _ _ _ k => exact (unexplained_not_explained h k).elim
    | sizeLeft _ _ _ _ _ k => exact (unexplained_not_explained h k).elim
    | sizeRight _ _ _ _ _ k => exact (unexplained_not_explained h k).elim
  | right ho h1 h2 d1 d2 h ih =>
    cases hg with
    | operand _ _ k2 => exact (stuck_not_valued k2 h2).elim
    | right _ _ _ _ _ k => exact ih k
    | left ho' k1 _ d | second ho' k1 _ d | sizeLeft ho' k1 _ d | sizeRight ho' k1 _ d =>
      cases un ho ho'; cases valued_det h1 k1; exact (d1 d).elim
  | second ho h1 h2 d1 d2 h h' ih =>
    cases hg with
    | operand _ _ k2 => exact (stuck_not_valued k2 h2).elim
    | left _ _ _ _ k => exact (unexplained_not_explained k h).elim
    | right ho' k1 _ d => cases un ho ho'; cases valued_det h1 k1; exact (d d1).elim
    | second _ _ _ _ _ _ k => exact ih k
    | sizeLeft _ _ _ _ _ _ k => exact (unexplained_not_explained h' k).elim
    | sizeRight _ _ _ _ _ _ k => exact (unexplained_not_explained h' k).elim
  | sizeLeft ho h1 h2 d1 d2 g1 g2 hn ht =>
    cases hg with
    | operand _ _ k2 => exact (stuck_not_valued k2 h2).elim
    | left _ _ _ _ k => exact (unexplained_not_explained k g1).elim
    | right ho' k1 _ d => cases un ho ho'; cases valued_det h1 k1; exact (d d1).elim
    | second _ _ _ _ _ _ k => exact (unexplained_not_explained k g2).elim
    | sizeLeft _ _ _ _ _ k1 _ kn kt =>
      cases explained_unique g1 k1
      obtain ⟨rfl, rfl⟩ := obstacle_unique hn kn
      rw [ht] at kt
      cases kt
      rfl
    | sizeRight _ _ _ _ _ k1 _ kb _ _ => cases explained_unique g1 k1; exact (obstacle_bare hn kb).elim
  | sizeRight ho h1 h2 d1 d2 g1 g2 hb hn ht =>
    cases hg with
    | operand _ _ k2 => exact (stuck_not_valued k2 h2).elim
    | left _ _ _ _ k => exact (unexplained_not_explained k g1).elim
    | right ho' k1 _ d => cases un ho ho'; cases valued_det h1 k1; exact (d d1).elim
    | second _ _ _ _ _ _ k => exact (unexplained_not_explained k g2).elim
    | sizeLeft _ _ _ _ _ k1 _ kn _ => cases explained_unique g1 k1; exact (obstacle_bare kn hb).elim
    | sizeRight _ _ _ _ _ _ k2 _ kn kt =>
      cases explained_unique g2 k2
      obtain ⟨rfl, rfl⟩ := obstacle_unique hn kn
      rw [ht] at kt
      cases kt
      rfl

/-! ### Parameters -/

/-- Type checking does not change which parameters are operands of comparisons. -/
def ParamsBare (src : ConstraintSource) (sc : Scope) : Prop :=
  ∀ {y c : Expr}, inferAndCheck src sc y = .ok c → (CorrectSizes.NoBareParam c ↔ CorrectSizes.NoBareParam y) ∧
    ∀ j n, Obstacle c j n → ∃ k t, Obstacle y k n ∧ (sigOf sc).param n = some t ∧ j = ⟨k.start, k.stop, t⟩

theorem cast_obstacle {e : Expr} {t : Ty} {j : Info} {n : Str} (h : Obstacle (castTransitivelyTo e t) j n) :
    Obstacle e j n := by
  have hi : Obstacle (castIntStep e t) j n → Obstacle e j n := by
    intro h
    unfold castIntStep at h
    split at h
    · cases h
    · exact h
  unfold castTransitivelyTo at h
  dsimp only at h
  split at h
  · cases h
  · exact hi h

theorem paramsBare_action {src : ConstraintSource} {ps : List (Str × VarInfo)}
    (hp : ∀ n t, (sigOf (.action ps)).param n = some t → Supported t → ∃ w, t = .fixedUnsigned w) :
    ParamsBare src (.action ps) := by
  intro y c h
  refine ⟨(infer_bare_action hp h).1, ?_⟩
  intro j n hn
  induction y generalizing c with
  | notSet i => exact (quotingError_ne_ok.1 h).elim
  | boolConst i b | intConst i b => cases h; cases hn
  | attr => obtain ⟨_, rfl⟩ := infer_attr h; cases hn
  | typeCast i x => exact (quotingError_ne_ok.1 h).elim
  | key i n => obtain ⟨t, h1, _⟩ := infer_key h; simp [sigOf] at h1
  | actionParam i n => obtain ⟨t, h1, _, rfl⟩ := infer_param h; cases hn; exact ⟨i, t, .self _ _, h1, rfl⟩
  | boolNeg i e ih =>
    obtain ⟨x, h1, h2, rfl⟩ := infer_boolNeg.1 h
    cases hn with
    | not hn =>
      obtain ⟨k, t, g1, g2⟩ := ih h1 hn
      exact ⟨k, t, .not g1, g2⟩
  | arithNeg i e ih => obtain ⟨x, h1, h2, rfl⟩ := infer_arithNeg.1 h; cases hn
  | field i e f ih => obtain ⟨x, t, h1, hf, rfl⟩ := infer_field.1 h; cases hn
  | bin i op l r ihl ihr =>
    have left : ∀ {l'}, inferAndCheck src (.action ps) l = .ok l' → Obstacle l' j n → ∃ k t, Obstacle (.bin i op l r) k n ∧
        (sigOf (.action ps)).param n = some t ∧ j = ⟨k.start, k.stop, t⟩ := by
      intro l' hl hn
      obtain ⟨k, t, g1, g2⟩ := ihl hl hn
      exact ⟨k, t, .left g1, g2⟩
    have right : ∀ {l' r'}, inferAndCheck src (.action ps) l = .ok l' → inferAndCheck src (.action ps) r = .ok r' →
        CorrectSizes.NoBareParam l' → Obstacle r' j n → ∃ k t, Obstacle (.bin i op l r) k n ∧
        (sigOf (.action ps)).param n = some t ∧ j = ⟨k.start, k.stop, t⟩ := by
      intro l' r' hl hr hb hn
      obtain ⟨k, t, g1, g2⟩ := ihr hr hn
      exact ⟨k, t, .right ((infer_bare_action hp hl).1.1 hb) g1, g2⟩
    obtain ⟨l', r', hl, hr, ⟨h0, h1, h2, rfl⟩ | ⟨h0, t, hj, _, rfl⟩⟩ := infer_bin.1 h
    · cases hn with
      | left hn => exact left hl hn
      | right hb hn => exact right hl hr hb hn
    · have ht : Scalar t := by
        rcases isJoin_cases hj with rfl | rfl
        · exact infer_scalar hp hl
        · exact infer_scalar hp hr
      cases hn with
      | left hn => exact left hl (cast_obstacle hn)
      | right hb hn => exact right hl hr ((cast_bare ht (infer_bare_action hp hl).2).1 hb) (cast_obstacle hn)

theorem paramsBare_table {src : ConstraintSource} {ks : List (Str × VarInfo)} : ParamsBare src (.table ks) := by
  intro y c h
  exact ⟨⟨fun _ => infer_bare_table h, fun _ => infer_noBare h⟩, fun j n hn => (obstacle_bare hn (infer_noBare h)).elim⟩

end P4C
