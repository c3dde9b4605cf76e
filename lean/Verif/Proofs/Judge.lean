import Verif.Proofs.Unexplained
import Verif.Proofs.QuoteAny

/-
Why a constraint cannot be judged.
-/

namespace P4C

open Spec

/-- Where a node is. -/
theorem node_where {sys : Sys} {k : ConstraintKind} {src : ConstraintSource} {e u : Expr}
    (hp : parseConstraint sys k src = .ok e) (hcol : 0 ≤ src.loc.col) (hu : NodeOf u e) :
    u.start.src = src.loc.src ∧ u.stop.src = src.loc.src ∧ src.loc.line ≤ u.start.line ∧ 0 ≤ u.start.col ∧
      0 ≤ u.stop.col ∧ LocLe u.start u.stop := by
  obtain ⟨toks, last, h1, h2, h3⟩ := parseConstraint_split.1 hp
  obtain ⟨toks', last', h4, h5, _, _⟩ := lexed_ordered (tokenize_lexed src)
  rw [h1] at h4
  obtain ⟨rfl, _⟩ := List.append_inj' h4 rfl
  have hle := LocLt.le (nested_lt (nested_node hu (G_spans h3 h5).1).1)
  obtain ⟨⟨t, ht, hts⟩, w, hw, hws⟩ := G_ends h3 u hu
  have a1 := (lexed_flat (tokenize_lexed src) hcol t (by rw [h1]; simp [ht]))
  have a2 := (lexed_src (tokenize_lexed src) t (by rw [h1]; simp [ht])).1
  have a3 := lexed_lines (tokenize_lexed src) t (by rw [h1]; simp [ht])
  have a4 := (lexed_src (tokenize_lexed src) w (by rw [h1]; simp [hw])).2
  have a5 := (lexed_flat (tokenize_lexed src) hcol w (by rw [h1]; simp [hw]))
  rw [← hts] at a1 a2 a3
  rw [← hws] at a4 a5
  exact ⟨a2, a4, a3, a1.2.1, by omega, hle⟩

/-! ### A typed constraint in a context -/

/-- The constraint of a table or action, and a context to judge it in. -/
structure Judged (sys : Sys) (k : ConstraintKind) (src : ConstraintSource) (sc : Scope) (ctx : EvalCtx) (name : Str)
    (e e' : Expr) (s : SExpr) : Prop where
  parsed : parseConstraint sys k src = .ok e
  typed : inferAndCheck src sc e = .ok e'
  meant : abs e = some s
  boolean : e'.ty = .boolean
  noBool : NoBoolNames (sigOf sc)
  set : src.loc.src ≠ .notSet
  line : 0 ≤ src.loc.line
  col : 0 ≤ src.loc.col
  source : ctx.src = src
  provides : Provides (sigOf sc) (envOf ctx)
  widths : WidthsOk (sigOf sc)
  named : Named name (sigOf sc) ctx
  bare : ParamsBare src sc

/-- What `checkConstraintM` does once the entry has been parsed. -/
def judgeM (x : EntryTexts) (ctx : EvalCtx) (e : Expr) : MRes Str := do
  let (b, ec) ← evalToBoolCM x ctx e [] []
  if b then .ok [] else explainViolationM x ctx e ec

theorem correct_empty (ctx : EvalCtx) (root : Expr) : CorrectValues ctx root [] := by
  intro p b h
  cases h

theorem correct_empty_sizes (root : Expr) : CorrectSizes root [] := by
  intro p n h
  cases h

section
variable {x : EntryTexts} {sys : Sys} {k : ConstraintKind} {src : ConstraintSource} {sc : Scope} {ctx : EvalCtx} {name : Str}
  {e e' : Expr} {s : SExpr}

/-- The outcomes of quoting a part of the constraint. -/
theorem Judged.quoted (h : Judged sys k src sc ctx name e e' s) {u : Expr} (hu : NodeOf u e) :
    (∃ q, quoteSub src u.start u.stop = .ok q ∧ Quotation src u.start u.stop q) ∧ ¬ Missing src u.start u.stop ∨
    quoteSub src u.start u.stop = .err .invalidArgument ∧ Missing src u.start u.stop ∧
      (∀ q, ¬ Quotation src u.start u.stop q) ∨
    quoteSub src u.start u.stop = .crash ∧ ¬ Missing src u.start u.stop ∧ ∀ q, ¬ Quotation src u.start u.stop q := by
  obtain ⟨h1, h2, h3, h4, h5, h6⟩ := node_where h.parsed h.col hu
  have hl := h.line
  rcases quoteSub_outcomes h1 h2 (by omega) h4 h5 h6 with ⟨g1, g2, _⟩ | g | ⟨g1, _, _, g2⟩
  · exact .inl ⟨g1, g2⟩
  · exact .inr (.inl g)
  · exact .inr (.inr ⟨g1, g2⟩)

theorem Judged.rtAt_err (h : Judged sys k src sc ctx name e e' s) {u : Expr} (hu : NodeOf u e) {text : Str}
    {α : Type} {c : Code} {m : Str} : (rtAt x ctx u.start u.stop text : MRes α) = .err c m ↔
    Shown .internal c!"Runtime type error: " x.quoteFailure src u.start u.stop text c m := by
  unfold rtAt
  rw [h.source]
  rcases h.quoted hu with ⟨⟨q, hq, h1⟩, h2⟩ | ⟨hq, h1, h2⟩ | ⟨hq, h1, h2⟩
  · rw [hq]
    constructor
    · intro he
      cases he
      exact .quoted h1
    · intro hs
      cases hs with
      | quoted h' =>
        obtain ⟨g1, g2, g3, g4, g5, g6⟩ := node_where h.parsed h.col hu
        have hl := h.line
        have := (quoteSub_any_iff (by omega) g4 g5).2 h'
        rw [hq] at this
        cases this
        rfl
      | missing h' => exact (h2 h').elim
  · rw [hq]
    constructor
    · intro he
      cases he
      exact .missing h1
    · intro hs
      cases hs with
      | quoted h' => exact (h2 _ h').elim
      | missing h' => rfl
  · rw [hq]
    constructor
    · intro he
      cases he
    · intro hs
      cases hs with
      | quoted h' => exact (h2 _ h').elim
      | missing h' => exact (h1 h').elim

theorem Judged.outcome (h : Judged sys k src sc ctx name e e' s) :
    (∃ b, Val ctx e' b ∧ Evaluates (sigOf sc) (envOf ctx) s .boolean (.bool b)) ∨
    ∃ a b text, Stuck name (sigOf sc) (envOf ctx) e a b text ∧ StuckAt x ctx e' a b text := by
  rcases eval_outcome (x := x) h.provides h.widths h.named h.typed h.meant with ⟨v, hv, he⟩ | ⟨a, b, text, h1, _, h2⟩
  · have hsh := evalP_shape hv
    rw [h.boolean] at hsh he
    cases hsh with | bool b =>
    exact .inl ⟨b, evalP_val.1 hv, he⟩
  · exact .inr ⟨a, b, text, h1, h2⟩

theorem Judged.explanation (h : Judged sys k src sc ctx name e e' s) {ec : EvalCache}
    (hec : CorrectValues ctx e' ec) {b : Bool} (hv : Val ctx e' b) {c : Code} {m : Str} :
    explainViolationM x ctx e' ec = .err c m ↔
    (∃ f, Unexplained name (sigOf sc) (envOf ctx) e f ∧ (.err c m : MRes (Node × Caches)) = blamed x ctx _ f) ∨
    ∃ y, Explained (sigOf sc) (envOf ctx) e y ∧ Missing src y.start y.stop ∧ c = .invalidArgument ∧
      m = x.quoteStatus src y.start y.stop := by
  have hcs : CachesOk ctx e' (ec, []) := ⟨hec, correct_empty_sizes e'⟩
  have hb := infer_boolShape h.noBool h.typed h.boolean
  unfold explainViolationM
  rcases search_outcome (x := x) (root := e') h.provides h.widths h.named h.noBool h.bare h.typed h.meant hb hv (p := [])
    (cs := (ec, [])) .root hcs with ⟨⟨n, cs⟩, hr⟩ | ⟨f, g1, g2⟩
  · obtain ⟨k1, k2, k3, k4⟩ := minimalSubM_agrees .root hcs hr
    dsimp only at k1 k2 k3 k4
    obtain ⟨y, hy, hy'⟩ := (minP_explained h.provides h.widths h.named (fun h' => (h.bare h').1) h.noBool h.typed h.meant
      h.boolean [] n.1).1 ⟨n.2, k1⟩
    obtain ⟨v, hv'⟩ := justifies_val (minP_best e' [] n k1).1 hv
    obtain ⟨m', h5, _⟩ := toBoolCM_ok (x := x) k3 k2.1 hv'
    obtain ⟨h8, h9⟩ := infer_span hy'
    rw [hr, MRes.ok_bind]
    dsimp only
    rw [h5, MRes.ok_bind]
    dsimp only
    rw [h.source, h8, h9]
    constructor
    · intro he
      rcases h.quoted (skeleton_node hy.skeleton) with ⟨⟨q, hq, _⟩, _⟩ | ⟨hq, hm, _⟩ | ⟨hq, _⟩ <;> rw [hq] at he
      · cases he
      · cases he
        exact .inr ⟨y, hy, hm, rfl, rfl⟩
      · cases he
    · rintro (⟨f, g1, _⟩ | ⟨z, hz, hm, rfl, rfl⟩)
      · exact (unexplained_not_explained g1 hy).elim
      · cases explained_unique hy hz
        rcases h.quoted (skeleton_node hy.skeleton) with ⟨_, hm'⟩ | ⟨hq, _, _⟩ | ⟨_, hm', _⟩
        · exact (hm' hm).elim
        · rw [hq]; rfl
        · exact (hm' hm).elim
  · rw [g2, blamed_bind]
    have same : ∀ {α β : Type}, (blamed x ctx α f = .err c m) ↔ blamed x ctx β f = .err c m := by
      intro α β
      cases f with
      | place a b text => simp only [blamed, rtAt]; split <;> simp
      | param i n => simp [blamed]
    constructor
    · intro he
      exact .inl ⟨f, g1, (same.1 he).symm⟩
    · rintro (⟨f', g1', he⟩ | ⟨y, hy, _⟩)
      · cases unexplained_unique g1 g1'
        exact same.1 he.symm
      · exact (unexplained_not_explained g1 hy).elim

/-- What is quoted is a node of the constraint. -/
theorem unexplained_node {Γ : Sig} {ρ : Env} {e : Expr} {a b : Loc} {text : Str}
    (h : Unexplained name Γ ρ e (.place a b text)) : ∃ u, NodeOf u e ∧ a = u.start ∧ b = u.stop := by
  generalize hf : Blame.place a b text = f at h
  induction h with
  | not _ ih => obtain ⟨u, h1, h2⟩ := ih hf; exact ⟨u, .boolNeg h1, h2⟩
  | operand _ _ h =>
    cases hf
    obtain ⟨u, h1, h2⟩ := stuck_node h
    exact ⟨u, .right h1, h2⟩
  | left _ _ _ _ _ ih => obtain ⟨u, h1, h2⟩ := ih hf; exact ⟨u, .left h1, h2⟩
  | right _ _ _ _ _ _ ih | second _ _ _ _ _ _ _ ih => obtain ⟨u, h1, h2⟩ := ih hf; exact ⟨u, .right h1, h2⟩
  | sizeLeft | sizeRight => cases hf

/-- A constraint is not judged if and only if it cannot be, and the error is about what is to blame. -/
theorem Judged.err_iff (h : Judged sys k src sc ctx name e e' s) {c : Code} {m : Str} :
    judgeM x ctx e' = .err c m ↔ JudgeFault x name src (sigOf sc) (envOf ctx) e c m := by
  unfold judgeM
  rcases h.outcome (x := x) with ⟨b, hb, hev⟩ | ⟨a, b, text, h1, h2⟩
  · obtain ⟨ec, h1, h2⟩ := toBoolCM_ok (x := x) .root (correct_empty ctx e') hb
    rw [h1, MRes.ok_bind]
    have hval : Valued (sigOf sc) (envOf ctx) e b := ⟨s, h.meant, hev⟩
    cases b with
    | true =>
      constructor
      · intro he; cases he
      · intro hf
        cases hf with
        | stuck h' => exact (stuck_not_valued h' hval).elim
        | operand h' | size h' | violation h' => cases valued_det hval h'
    | false =>
      change explainViolationM x ctx e' ec = _ ↔ _
      rw [h.explanation h2 hb]
      constructor
      · rintro (⟨f, g1, g2⟩ | ⟨y, hy, hm, rfl, rfl⟩)
        · cases f with
          | place a b text =>
            obtain ⟨u, hu, rfl, rfl⟩ := unexplained_node g1
            exact .operand hval g1 ((h.rtAt_err hu).1 g2.symm)
          | param i n =>
            cases g2
            exact .size hval g1
        · exact .violation hval hy hm
      · intro hf
        cases hf with
        | stuck h' => exact (stuck_not_valued h' hval).elim
        | operand _ g1 hs =>
          refine .inl ⟨_, g1, ?_⟩
          obtain ⟨u, hu, rfl, rfl⟩ := unexplained_node g1
          exact ((h.rtAt_err hu).2 hs).symm
        | size _ g1 => exact .inl ⟨_, g1, rfl⟩
        | violation _ hy hm => exact .inr ⟨_, hy, hm, rfl, rfl⟩
  · rw [toBoolCM_stuck .root (correct_empty ctx e') h2, rtAt_bind]
    obtain ⟨u, hu, rfl, rfl⟩ := stuck_node h1
    rw [h.rtAt_err hu]
    constructor
    · exact .stuck h1
    · intro hf
      cases hf with
      | stuck h' hs =>
        obtain ⟨g1, g2, rfl⟩ := stuck_unique h1 h'
        rw [g1, g2]
        exact hs
      | operand h' | size h' | violation h' => exact (stuck_not_valued h1 h').elim

theorem Judged.err (h : Judged sys k src sc ctx name e e' s) {c : Code} {m : Str} (he : judgeM x ctx e' = .err c m) :
    JudgeFault x name src (sigOf sc) (envOf ctx) e c m := h.err_iff.1 he

/-- A constraint that cannot be judged is not, and the error is about what is to blame. -/
theorem Judged.fault_err (h : Judged sys k src sc ctx name e e' s) {c : Code} {m : Str}
    (hf : JudgeFault x name src (sigOf sc) (envOf ctx) e c m) : judgeM x ctx e' = .err c m := h.err_iff.2 hf

theorem Judged.ok (h : Judged sys k src sc ctx name e e' s) {m : Str} (he : judgeM x ctx e' = .ok m) :
    ∃ b, Evaluates (sigOf sc) (envOf ctx) s .boolean (.bool b) ∧ (m = [] ↔ b = true) ∧
      (b = false → ∃ n, minP ctx e' [] = .ok n) := by
  unfold judgeM at he
  rcases h.outcome (x := x) with ⟨b, hb, hev⟩ | ⟨a, b, text, h1, h2⟩
  · refine ⟨b, hev, ?_⟩
    obtain ⟨ec, h1, h2⟩ := toBoolCM_ok (x := x) .root (correct_empty ctx e') hb
    rw [h1, MRes.ok_bind] at he
    cases b with
    | true => cases he; simp
    | false =>
      change explainViolationM x ctx e' ec = .ok m at he
      have hne : m ≠ [] := by
        rw [erased, erase_explainViolation] at he
        exact explainViolation_ne_nil he
      refine ⟨by simp [hne], fun _ => ?_⟩
      unfold explainViolationM at he
      rw [mbind_ok] at he
      obtain ⟨⟨n, cs⟩, hr, _⟩ := he
      exact ⟨n, (minimalSubM_agrees .root ⟨h2, correct_empty_sizes e'⟩ hr).1⟩
  · rw [toBoolCM_stuck .root (correct_empty ctx e') h2, rtAt_bind] at he
    exact (rtAt_ne_ok he).elim

/-- A violated constraint has an explanation, or there is something to blame for the want of one. -/
theorem Judged.explained_or (h : Judged sys k src sc ctx name e e' s) (hv : Valued (sigOf sc) (envOf ctx) e false) :
    (∃ y, Explained (sigOf sc) (envOf ctx) e y) ∨ ∃ f, Unexplained name (sigOf sc) (envOf ctx) e f := by
  have x : EntryTexts := ⟨fun _ _ _ => [], fun _ _ _ => [], fun _ => [], fun _ => [], fun _ => [], fun _ => [], fun _ => [],
    fun _ => [], fun _ => []⟩
  rcases h.outcome (x := x) with ⟨b, hb, hev⟩ | ⟨a, b, text, h1, h2⟩
  · cases valued_det hv ⟨s, h.meant, hev⟩
    have hcs : CachesOk ctx e' ([], []) := ⟨correct_empty ctx e', correct_empty_sizes e'⟩
    rcases search_outcome (x := x) (root := e') h.provides h.widths h.named h.noBool h.bare h.typed h.meant
      (infer_boolShape h.noBool h.typed h.boolean) hb (p := []) (cs := ([], [])) .root hcs with ⟨r, hr⟩ | ⟨g, g1, _⟩
    · obtain ⟨y, hy, _⟩ := (minP_explained h.provides h.widths h.named (fun h' => (h.bare h').1) h.noBool h.typed h.meant
        h.boolean [] r.1.1).1 ⟨r.1.2, (minimalSubM_agrees .root hcs hr).1⟩
      exact .inl ⟨y, hy⟩
    · exact .inr ⟨g, g1⟩
  · exact (stuck_not_valued h1 hv).elim

theorem Judged.fault_not_ok (h : Judged sys k src sc ctx name e e' s) {c : Code} {text m : Str}
    (hf : JudgeFault x name src (sigOf sc) (envOf ctx) e c text) : judgeM x ctx e' ≠ .ok m := by
  rw [h.fault_err hf]
  simp

end

end P4C
