import Verif.Proofs.Explain2
import Verif.Proofs.QuoteNode
import Verif.Proofs.Verdict
import Verif.Props.Lexing
/-!
# Explanations of violated constraints
-/
namespace P4C
open Spec

/-! ### Locations and shapes under type checking -/

theorem infer_span {src : ConstraintSource} {sc : Scope} {e c : Expr} (h : inferAndCheck src sc e = .ok c) :
    c.start = e.start ∧ c.stop = e.stop := by
  cases e with
  | notSet i => exact (quotingError_ne_ok.1 h).elim
  | boolConst i b => cases h; exact ⟨rfl, rfl⟩
  | intConst i b => cases h; exact ⟨rfl, rfl⟩
  | typeCast i x => exact (quotingError_ne_ok.1 h).elim
  | key i n => obtain ⟨t, _, _, rfl⟩ := infer_key h; exact ⟨rfl, rfl⟩
  | actionParam i n => obtain ⟨t, _, _, rfl⟩ := infer_param h; exact ⟨rfl, rfl⟩
  | attr i n => obtain ⟨_, rfl⟩ := infer_attr h; exact ⟨rfl, rfl⟩
  | boolNeg i e => obtain ⟨_, _, _, rfl⟩ := infer_boolNeg.1 h; exact ⟨rfl, rfl⟩
  | arithNeg i e => obtain ⟨_, _, _, rfl⟩ := infer_arithNeg.1 h; exact ⟨rfl, rfl⟩
  | field i e f => obtain ⟨_, _, _, _, rfl⟩ := infer_field.1 h; exact ⟨rfl, rfl⟩
  | bin i op l r =>
    obtain ⟨l', r', hl, hr, ⟨_, _, _, rfl⟩ | ⟨_, t, _, _, rfl⟩⟩ := infer_bin.1 h <;> exact ⟨rfl, rfl⟩

theorem conn_not_cmp {op : BinOp} (h : op = .and ∨ op = .or ∨ op = .implies) : op.isCmp = false := by
  rcases h with rfl | rfl | rfl <;> rfl

/-- Nodes of the boolean skeleton are checked nodes of the source. -/
theorem infer_skeleton {src : ConstraintSource} {sc : Scope} {e c x : Expr} (hx : Skeleton x c)
    (h : inferAndCheck src sc e = .ok c) : ∃ y, Skeleton y e ∧ inferAndCheck src sc y = .ok x := by
  induction hx generalizing e with
  | self => exact ⟨e, .self e, h⟩
  | @not i x c _ ih =>
    cases e with
    | boolNeg j e =>
      obtain ⟨z, h1, _, h2⟩ := infer_boolNeg.1 h
      cases h2
      obtain ⟨y, hy, hc⟩ := ih h1
      exact ⟨y, .not hy, hc⟩
    | notSet i => exact (quotingError_ne_ok.1 h).elim
    | boolConst i b => cases h
    | intConst i b => cases h
    | typeCast i x => exact (quotingError_ne_ok.1 h).elim
    | key i n => obtain ⟨t, _, _, h⟩ := infer_key h; cases h
    | actionParam i n => obtain ⟨t, _, _, h⟩ := infer_param h; cases h
    | attr i n => obtain ⟨_, h⟩ := infer_attr h; cases h
    | arithNeg i e => obtain ⟨_, _, _, h⟩ := infer_arithNeg.1 h; cases h
    | field i e f => obtain ⟨_, _, _, _, h⟩ := infer_field.1 h; cases h
    | bin i op l r => obtain ⟨l', r', hl, hr, ⟨_, _, _, h⟩ | ⟨_, t, _, _, h⟩⟩ := infer_bin.1 h <;> cases h
  | @left i op x l' r' hop _ ih | @right i op x l' r' hop _ ih =>
    cases e with
    | bin j op' l r =>
      obtain ⟨a, b, h1, h2, ⟨_, _, _, h⟩ | ⟨hc, t, _, _, h⟩⟩ := infer_bin.1 h
      · cases h
        first
        | obtain ⟨y, hy, hc⟩ := ih h1
          exact ⟨y, .left hop hy, hc⟩
        | obtain ⟨y, hy, hc⟩ := ih h2
          exact ⟨y, .right hop hy, hc⟩
      · cases h
        rw [conn_not_cmp hop] at hc
        cases hc
    | boolNeg i e => obtain ⟨_, _, _, h⟩ := infer_boolNeg.1 h; cases h
    | notSet i => exact (quotingError_ne_ok.1 h).elim
    | boolConst i b => cases h
    | intConst i b => cases h
    | typeCast i x => exact (quotingError_ne_ok.1 h).elim
    | key i n => obtain ⟨t, _, _, h⟩ := infer_key h; cases h
    | actionParam i n => obtain ⟨t, _, _, h⟩ := infer_param h; cases h
    | attr i n => obtain ⟨_, h⟩ := infer_attr h; cases h
    | arithNeg i e => obtain ⟨_, _, _, h⟩ := infer_arithNeg.1 h; cases h
    | field i e f => obtain ⟨_, _, _, _, h⟩ := infer_field.1 h; cases h

theorem skeleton_node {x e : Expr} (h : Skeleton x e) : NodeOf x e := by
  induction h with
  | self => exact .self _
  | not _ ih => exact .boolNeg ih
  | left _ _ ih => exact .left ih
  | right _ _ ih => exact .right ih

/-- No declared name has boolean type. -/
def NoBoolNames (Γ : Sig) : Prop := (∀ n, Γ.key n ≠ some .boolean) ∧ ∀ n, Γ.param n ≠ some .boolean

theorem infer_boolShape {src : ConstraintSource} {sc : Scope} {e c : Expr} (hn : NoBoolNames (sigOf sc))
    (h : inferAndCheck src sc e = .ok c) (ht : c.ty = .boolean) : BoolShape c := by
  induction e generalizing c with
  | notSet i => exact (quotingError_ne_ok.1 h).elim
  | boolConst i b => cases h; trivial
  | intConst i b => cases h; cases ht
  | typeCast i x => exact (quotingError_ne_ok.1 h).elim
  | key i n =>
    obtain ⟨t, h1, _, rfl⟩ := infer_key h
    cases (show t = .boolean from ht)
    exact absurd h1 (hn.1 n)
  | actionParam i n =>
    obtain ⟨t, h1, _, rfl⟩ := infer_param h
    cases (show t = .boolean from ht)
    exact absurd h1 (hn.2 n)
  | attr i n => obtain ⟨_, rfl⟩ := infer_attr h; cases ht
  | boolNeg i e ih => obtain ⟨x, h1, h2, rfl⟩ := infer_boolNeg.1 h; have := ih h1 h2; exact this
  | arithNeg i e => obtain ⟨_, _, _, rfl⟩ := infer_arithNeg.1 h; cases ht
  | field i e f =>
    obtain ⟨x, t, _, hf, rfl⟩ := infer_field.1 h
    cases (show t = .boolean from ht)
    generalize x.ty = u at hf
    cases hf
  | bin i op l r ihl ihr =>
    obtain ⟨l', r', hl, hr, ⟨h0, h1, h2, rfl⟩ | ⟨h0, t, _, _, rfl⟩⟩ := infer_bin.1 h
    · have h1' := ihl hl h1
      have h2' := ihr hr h2
      cases op with
      | and | or | implies => exact ⟨h1', h2'⟩
      | _ => simp [BinOp.isConn] at h0
    · cases op with
      | and | or | implies | unknown => cases h0
      | _ => trivial

/-- Table constraints do not contain action parameters. -/
theorem cast_noBare {e : Expr} {t : Ty} (h : CorrectSizes.NoBareParam e) : CorrectSizes.NoBareParam (castTransitivelyTo e t) := by
  have h1 : CorrectSizes.NoBareParam (castIntStep e t) := by
    unfold castIntStep
    split
    · trivial
    · exact h
  unfold castTransitivelyTo
  dsimp only
  split
  · trivial
  · exact h1

theorem infer_noBare {src : ConstraintSource} {keys : List (Str × VarInfo)} {e c : Expr}
    (h : inferAndCheck src (.table keys) e = .ok c) : CorrectSizes.NoBareParam c := by
  induction e generalizing c with
  | notSet i => exact (quotingError_ne_ok.1 h).elim
  | boolConst i b => cases h; trivial
  | intConst i b => cases h; trivial
  | typeCast i x => exact (quotingError_ne_ok.1 h).elim
  | key i n => obtain ⟨t, h1, _, rfl⟩ := infer_key h; trivial
  | actionParam i n => obtain ⟨t, h1, _⟩ := infer_param h; simp [sigOf] at h1
  | attr i n => obtain ⟨_, rfl⟩ := infer_attr h; trivial
  | boolNeg i e ih => obtain ⟨x, h1, h2, rfl⟩ := infer_boolNeg.1 h; have := ih h1; exact this
  | arithNeg i e => obtain ⟨_, _, _, rfl⟩ := infer_arithNeg.1 h; trivial
  | field i e f => obtain ⟨x, t, _, hf, rfl⟩ := infer_field.1 h; trivial
  | bin i op l r ihl ihr =>
    obtain ⟨l', r', hl, hr, ⟨h0, h1, h2, rfl⟩ | ⟨h0, t, _, _, rfl⟩⟩ := infer_bin.1 h
    · exact ⟨ihl hl, ihr hr⟩
    · exact ⟨cast_noBare (ihl hl), cast_noBare (ihr hr)⟩

/-! ### Values of the skeleton -/

theorem skeleton_abs {x e : Expr} (hx : Skeleton x e) {s : SExpr} (h : abs e = some s) :
    ∃ s', abs x = some s' ∧ (∀ Γ, NoOrderedExact Γ s → NoOrderedExact Γ s') ∧ (AttrFree s → AttrFree s') := by
  have bop : ∀ {op : BinOp} {a b s : SExpr}, op = .and ∨ op = .or ∨ op = .implies → binop op a b = some s →
      ∃ o, s = .conn o a b := by
    intro op a b s hop h
    rcases hop with rfl | rfl | rfl <;> (cases h; exact ⟨_, rfl⟩)
  induction hx generalizing s with
  | self => exact ⟨s, h, fun _ => id, id⟩
  | not _ ih =>
    simp only [abs, Option.map_eq_some_iff] at h
    obtain ⟨a, h1, rfl⟩ := h
    have := ih h1
    exact this
  | left hop _ ih =>
    simp only [abs, Option.bind_eq_some_iff] at h
    obtain ⟨a, h1, b, h2, h3⟩ := h
    obtain ⟨o, rfl⟩ := bop hop h3
    obtain ⟨s', e1, e2, e3⟩ := ih h1
    exact ⟨s', e1, fun Γ h => e2 Γ h.1, fun h => e3 h.1⟩
  | right hop _ ih =>
    simp only [abs, Option.bind_eq_some_iff] at h
    obtain ⟨a, h1, b, h2, h3⟩ := h
    obtain ⟨o, rfl⟩ := bop hop h3
    obtain ⟨s', e1, e2, e3⟩ := ih h2
    exact ⟨s', e1, fun Γ h => e2 Γ h.2, fun h => e3 h.2⟩

theorem skeleton_boolean {x e : Expr} (hx : Skeleton x e) (hw : BoolShape e) : BoolShape x := by
  induction hx with
  | self => exact hw
  | not _ ih => exact ih hw
  | left hop _ ih => rcases hop with rfl | rfl | rfl <;> exact ih hw.1
  | right hop _ ih => rcases hop with rfl | rfl | rfl <;> exact ih hw.2

theorem boolShape_ty {src : ConstraintSource} {sc : Scope} {e c : Expr} (h : inferAndCheck src sc e = .ok c)
    (hs : BoolShape c) : c.ty = .boolean := by
  cases e with
  | notSet i => exact (quotingError_ne_ok.1 h).elim
  | boolConst i b => cases h; rfl
  | intConst i b => cases h; exact hs.elim
  | typeCast i x => exact (quotingError_ne_ok.1 h).elim
  | key i n => obtain ⟨t, h1, _, rfl⟩ := infer_key h; exact hs.elim
  | actionParam i n => obtain ⟨t, h1, _, rfl⟩ := infer_param h; exact hs.elim
  | attr i n => obtain ⟨_, rfl⟩ := infer_attr h; exact hs.elim
  | boolNeg i e => obtain ⟨x, h1, h2, rfl⟩ := infer_boolNeg.1 h; rfl
  | arithNeg i e => obtain ⟨_, _, _, rfl⟩ := infer_arithNeg.1 h; exact hs.elim
  | field i e f => obtain ⟨x, t, _, hf, rfl⟩ := infer_field.1 h; exact hs.elim
  | bin i op l r =>
    obtain ⟨l', r', hl, hr, ⟨h0, h1, h2, rfl⟩ | ⟨h0, t, _, _, rfl⟩⟩ := infer_bin.1 h <;> rfl

theorem skeleton_val {src : ConstraintSource} {sc : Scope} {ctx : EvalCtx} {e c : Expr} {s : SExpr}
    (hc : Consistent (sigOf sc) (envOf ctx)) (hw : WidthsOk (sigOf sc))
    (hp : AttrFree s ∨ (envOf ctx).priority ≠ none) (hn : NoOrderedExact (sigOf sc) s) (hb : BoolShape c)
    (h : inferAndCheck src sc e = .ok c) (ha : abs e = some s) {x : Expr} (hx : Skeleton x c) : ∃ b, Val ctx x b := by
  obtain ⟨y, hy, hi⟩ := infer_skeleton hx h
  obtain ⟨s', h1, h2, h3⟩ := skeleton_abs hy ha
  obtain ⟨_, _, h4⟩ := check_means hc hw (hp.imp h3 id) hi h1
  obtain ⟨b, hb⟩ := h4 (h2 _ hn) (boolShape_ty hi (skeleton_boolean hx hb))
  exact ⟨b, val_boolP.1 hb⟩

/-! ### The node returned is in the skeleton -/

theorem Spec.Skeleton.trans {x y z : Expr} (h : Skeleton x y) (h' : Skeleton y z) : Skeleton x z := by
  induction h' with
  | self => exact h
  | not _ ih => exact .not (ih h)
  | left hop _ ih => exact .left hop (ih h)
  | right hop _ ih => exact .right hop (ih h)

theorem forces_skeleton {ctx : EvalCtx} {n m : Node} (h : Forces ctx n m) : Skeleton m.1 n.1 := by
  cases h with
  | not => exact .not (.self _)
  | andLeft | orLeft | impliesLeft => exact .left (by simp) (.self _)
  | andRight | orRight | impliesRight => exact .right (by simp) (.self _)

theorem justifies_skeleton {ctx : EvalCtx} {n m : Node} (h : Justifies ctx n m) : Skeleton m.1 n.1 := by
  induction h with
  | self => exact .self _
  | step h _ ih => exact ih.trans (forces_skeleton h)

/-! ### The message -/

theorem explain_eq {ctx : EvalCtx} {c : Expr} {m : EvalCache} (hm : CorrectValues ctx c m) :
    explainViolation ctx c m = (minP ctx c [] >>= fun n => evalBoolP ctx n.1 >>= fun v =>
      quoteSub ctx.src n.1.start n.1.stop >>= fun text =>
      .ok (violationText ctx.vals v text (getVariables n.1))) := by
  unfold explainViolation
  have h1 := minimalSub_agrees (ctx := ctx) c [] (m, []) .root ⟨hm, fun p n h => by cases h⟩
  cases e1 : minP ctx c [] with
  | ok n =>
    rw [e1] at h1
    obtain ⟨cs, h2, h3⟩ := h1
    rw [h2, Res.ok_bind, Res.ok_bind]
    dsimp only
    have h4 := evalC_agrees (minP_sub c [] n .root e1) h3.1
    cases e2 : evalBoolP ctx n.1 with
    | ok v =>
      rw [e2] at h4
      obtain ⟨m', h5, _⟩ := h4
      rw [h5]
      rfl
    | _ =>
      rw [e2] at h4
      unfold AgreesS at h4
      rw [h4]
      rfl
  | _ =>
    rw [e1] at h1
    unfold AgreesS at h1
    rw [h1]
    rfl

/-- What a violated constraint leads to. -/
theorem explained {src : ConstraintSource} {sc : Scope} {ctx : EvalCtx} {e c : Expr} {s : SExpr}
    (hi : inferAndCheck src sc e = .ok c) (ha : abs e = some s) (hc : Consistent (sigOf sc) (envOf ctx))
    (hw : WidthsOk (sigOf sc)) (hp : AttrFree s ∨ (envOf ctx).priority ≠ none) (hn : NoOrderedExact (sigOf sc) s)
    (hnb : NoBoolNames (sigOf sc)) (ht : c.ty = .boolean) {m : EvalCache} (hm : CorrectValues ctx c m) :
    (∃ n v y, Best ctx (c, []) n ∧ Val ctx n.1 v ∧ NodeOf y e ∧ inferAndCheck src sc y = .ok n.1 ∧
      minP ctx c [] = .ok n ∧
      explainViolation ctx c m = (quoteSub ctx.src y.start y.stop >>= fun text =>
        .ok (violationText ctx.vals v text (getVariables n.1)))) ∨
    (explainViolation ctx c m = .err .invalidArgument ∧ minP ctx c [] = .err .invalidArgument ∧
      ¬ CorrectSizes.NoBareParam c) := by
  have hb := infer_boolShape hnb hi ht
  have hv := fun x (hx : Skeleton x c) => skeleton_val hc hw hp hn hb hi ha hx
  rw [explain_eq hm]
  rcases minP_or c [] hb hv with ⟨n, h1⟩ | h1
  · left
    have hbest := minP_best c [] n h1
    have hsk := justifies_skeleton hbest.1
    obtain ⟨v, h2⟩ := hv n.1 hsk
    obtain ⟨y, hy, hyn⟩ := infer_skeleton hsk hi
    obtain ⟨e1, e2⟩ := infer_span hyn
    refine ⟨n, v, y, hbest, h2, skeleton_node hy, hyn, h1, ?_⟩
    rw [h1, Res.ok_bind, val_boolP.2 h2, Res.ok_bind, e1, e2]
  · right
    refine ⟨by rw [h1]; rfl, h1, fun hno => ?_⟩
    obtain ⟨n, h2, _⟩ := minP_ok c [] hb hv hno
    rw [h1] at h2
    cases h2


/-! ### Abstract syntax and checked trees -/

theorem abs_strip {e : Expr} (h : CastFree e) : abs (strip e) = abs e := by
  induction e with
  | boolNeg i e ih | arithNeg i e ih | field i e f ih => simp only [strip, abs, ih h]
  | typeCast i e => exact h.elim
  | bin i op l r ihl ihr => simp only [strip, abs, ihl h.1, ihr h.2]
  | _ => rfl

theorem checked_abs {src : ConstraintSource} {sc : Scope} {e c : Expr} {s : SExpr} (h : Checked sc c s)
    (hi : inferAndCheck src sc e = .ok c) : abs e = some s := by
  obtain ⟨src', e', h1, h2⟩ := h
  rw [← abs_strip (infer_castFree hi), ← (infer_strip hi).1, (infer_strip h1).1, abs_strip (infer_castFree h1), h2]

/-! ### Texts without line breaks -/

theorem covers_string {r s : Str} {ts : List (Kind × Str)} (h : Covers r s ts) {t : Str} (ht : (Kind.string, t) ∈ ts) :
    ∀ c ∈ t, c ∈ s := by
  induction h with
  | stop => cases ht
  | @tok gap lexeme s k text ts _ hs _ _ ih =>
    intro c hc
    rcases List.mem_cons.1 ht with h | h
    · simp only [Prod.mk.injEq] at h
      obtain ⟨rfl, rfl⟩ := h
      generalize hk : Kind.string = k at hs
      cases hs with
      | string => simp [hc]
      | keyword hm => subst hk; simp [keywords] at hm
      | _ => cases hk
    · have := ih h c hc
      simp [this]

theorem oneLine_of {src : ConstraintSource} (hn : '\n' ∉ src.str) (hr : '\r' ∉ src.str) : OneLine src := by
  intro t ht hk c hc
  obtain ⟨toks, last, r, h1, _, h2, h3⟩ := C19_terminated src
  rw [h1] at ht
  rcases List.mem_append.1 ht with h | h
  · have := covers_string h2 (t := t.text) (List.mem_map.2 ⟨t, h, by simp [kindText, hk]⟩) c hc
    exact ⟨fun h => hr (h ▸ this), fun h => hn (h ▸ this)⟩
  · simp only [List.mem_singleton] at h
    subst h
    rcases h3 with ⟨h, _⟩ | ⟨h, _⟩ <;> rw [hk] at h <;> cases h

theorem crLf_of {s : Str} (hr : '\r' ∉ s) : CrLf s := by
  intro a b h
  rw [h] at hr
  simp at hr

theorem node_line {sys : Sys} {k : ConstraintKind} {src : ConstraintSource} {e x : Expr}
    (hn : '\n' ∉ src.str) (hr : '\r' ∉ src.str) (h : parseConstraint sys k src = .ok e) (hx : NodeOf x e) :
    x.start.line = x.stop.line := by
  obtain ⟨p, m, r, h1, h2, h3, _⟩ := node_found h (oneLine_of hn hr) hx
  have aux : ∀ q, q <+: src.str → (advance src.loc q).line = src.loc.line := by
    rintro q ⟨t, ht⟩
    have hq : ∀ c, c ∉ src.str → c ∉ q := fun c hc hcq => hc (by rw [← ht]; simp [hcq])
    rw [advance_line ht.symm (crLf_of hr) (by rintro ⟨y, rfl⟩; exact hq _ hr (by simp))]
    rw [List.count_eq_zero.2 (hq _ hn)]
    simp
  rw [h2, h3, aux p ⟨m ++ r, by rw [h1]; simp⟩, aux (p ++ m) ⟨r, by rw [h1]⟩]

/-! ### Definitions made from programs -/

theorem parseAndCheck_some {sys : Sys} {k : ConstraintKind} {p : Preamble} {sc : Scope} {c : Expr}
    {src : ConstraintSource} (h : parseAndCheck sys k p sc = .ok (some c, src)) :
    extractConstraint k p = .ok (some src) ∧ ∃ e, parseConstraint sys k src = .ok e ∧ inferAndCheck src sc e = .ok c := by
  unfold parseAndCheck at h
  rw [Res.bind_eq_ok] at h
  obtain ⟨o, h1, h2⟩ := h
  cases o with
  | none => cases h2
  | some src' =>
    dsimp only at h2
    simp only [Res.bind_eq_ok] at h2
    obtain ⟨e, h3, c', h4, h5⟩ := h2
    cases h5
    exact ⟨h1, e, h3, h4⟩

theorem extract_loc {k : ConstraintKind} {p : Preamble} {src : ConstraintSource}
    (h : extractConstraint k p = .ok (some src)) : src.loc.src ≠ .notSet ∧ src.loc.col = 0 := by
  unfold extractConstraint at h
  generalize annLoop k {} p.annotations = r at h
  obtain ⟨st, t⟩ := r
  dsimp only at h
  split at h
  · cases h
  · split at h
    · cases h
    · split at h
      · cases h
      · cases h
        refine ⟨?_, rfl⟩
        unfold constraintLoc
        dsimp only
        split
        · cases k <;> simp
        · simp

theorem tableInfo_constraint {sys : Sys} {d : TableDecl} {ti : TableInfo} {c : Expr}
    (h : parseTableInfo sys d = .ok ti) (hc : ti.constraint = some c) :
    extractConstraint .table d.preamble = .ok (some ti.source) ∧
      ∃ e s, parseConstraint sys .table ti.source = .ok e ∧ inferAndCheck ti.source (.table ti.keysByName) e = .ok c ∧
        abs e = some s := by
  unfold parseTableInfo at h
  simp only [Res.bind_eq_ok] at h
  obtain ⟨⟨a, b⟩, h1, ⟨c', s⟩, h2, h⟩ := h
  cases h
  dsimp only at hc h2 ⊢
  subst hc
  obtain ⟨h3, e, h4, h5⟩ := parseAndCheck_some h2
  obtain ⟨_, _, _, _, hg⟩ := parseConstraint_split.1 h4
  obtain ⟨s, hs⟩ := G_abs hg
  exact ⟨h3, e, s, h4, h5, hs⟩

theorem actionInfo_constraint {sys : Sys} {d : ActionDecl} {ai : ActionInfo} {c : Expr}
    (h : parseActionInfo sys d = .ok ai) (hc : ai.constraint = some c) :
    extractConstraint .action d.preamble = .ok (some ai.source) ∧
      ∃ e s, parseConstraint sys .action ai.source = .ok e ∧ inferAndCheck ai.source (.action ai.paramsByName) e = .ok c ∧
        abs e = some s := by
  unfold parseActionInfo at h
  simp only [Res.bind_eq_ok] at h
  obtain ⟨⟨a, b⟩, h1, ⟨c', s⟩, h2, h⟩ := h
  cases h
  dsimp only at hc h2 ⊢
  subst hc
  obtain ⟨h3, e, h4, h5⟩ := parseAndCheck_some h2
  obtain ⟨_, _, _, _, hg⟩ := parseConstraint_split.1 h4
  obtain ⟨s, hs⟩ := G_abs hg
  exact ⟨h3, e, s, h4, h5, hs⟩

theorem tableInfo_noBool {sys : Sys} {d : TableDecl} {ti : TableInfo} (h : parseTableInfo sys d = .ok ti) :
    NoBoolNames (sigOf (.table ti.keysByName)) := by
  unfold parseTableInfo at h
  simp only [Res.bind_eq_ok] at h
  obtain ⟨⟨a, b⟩, h1, ⟨c', s⟩, h2, h⟩ := h
  cases h
  refine ⟨fun n hn => ?_, fun n hn => by simp [sigOf] at hn⟩
  simp only [sigOf, Option.map_eq_some_iff] at hn
  obtain ⟨ki, hl, ht⟩ := hn
  obtain ⟨vs, hv, h3⟩ := parseKeys_ok.1 h1
  obtain ⟨_, _, _, he⟩ := insertVars_ok.1 h3
  cases he
  have hm := lookup_some_mem hl
  simp only [List.append_nil, List.mem_map, List.mem_reverse, Prod.mk.injEq] at hm
  obtain ⟨v, hv', rfl, rfl⟩ := hm
  have : Res.ok v ∈ vs.map Res.ok := List.mem_map.2 ⟨v, hv', rfl⟩
  rw [← hv] at this
  obtain ⟨f, _, hf⟩ := List.mem_map.1 this
  unfold parseKeyType at hf
  cases hk : f.kind with
  | notSet => rw [hk] at hf; cases hf
  | otherMatchType n => rw [hk] at hf; cases hf; cases ht
  | matchType t =>
    rw [hk] at hf
    cases t <;> cases hf <;> cases ht

theorem actionInfo_noBool {sys : Sys} {d : ActionDecl} {ai : ActionInfo} (h : parseActionInfo sys d = .ok ai) :
    NoBoolNames (sigOf (.action ai.paramsByName)) := by
  have hb := parseActionInfo_bits h
  refine ⟨fun n hn => by simp [sigOf] at hn, fun n hn => ?_⟩
  simp only [sigOf, Option.map_eq_some_iff] at hn
  obtain ⟨pi, hl, ht⟩ := hn
  obtain ⟨w, hw⟩ := hb n pi (lookup_some_mem hl) (by rw [ht]; exact ⟨nofun, nofun⟩)
  rw [ht] at hw
  cases hw

end P4C
