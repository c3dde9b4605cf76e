import Verif.Proofs.Explained

/-
Violated constraints without an explanation (interpreter.cc:478-656, ast.cc:254-294).
-/

namespace P4C

open Spec

theorem toBoolCM_ok {x : EntryTexts} {ctx : EvalCtx} {root e : Expr} {p : Path} {m : EvalCache} {b : Bool}
    (hs : Sub root e p) (hm : CorrectValues ctx root m) (h : Val ctx e b) :
    ∃ m', evalToBoolCM x ctx e p m = .ok (b, m') ∧ CorrectValues ctx root m' := by
  have := evalC_agrees hs hm
  rw [val_boolP.2 h] at this
  obtain ⟨m', h1, h2⟩ := this
  exact ⟨m', by rw [erased, erase_evalToBoolC]; exact h1, h2⟩

theorem toBoolCM_stuck {x : EntryTexts} {ctx : EvalCtx} {root e : Expr} {p : Path} {m : EvalCache} {a b : Loc} {text : Str}
    (hs : Sub root e p) (hm : CorrectValues ctx root m) (h : StuckAt x ctx e a b text) :
    evalToBoolCM x ctx e p m = rtAt x ctx a b text := by
  unfold evalToBoolCM evalToBoolM
  rw [toBoolM_stuck hs (correct_cacheOk.1 hm) h, rtAt_bind]

theorem Spec.NodeOf.trans {x y z : Expr} (h : NodeOf x y) (h' : NodeOf y z) : NodeOf x z := by
  induction h' with
  | self => exact h
  | boolNeg _ ih => exact .boolNeg (ih h)
  | arithNeg _ ih => exact .arithNeg (ih h)
  | typeCast _ ih => exact .typeCast (ih h)
  | field _ ih => exact .field (ih h)
  | left _ ih => exact .left (ih h)
  | right _ ih => exact .right (ih h)

/-! ### Nodes of typed constraints -/

theorem cast_nodeOf {y e : Expr} {t : Ty} (h : NodeOf y (castTransitivelyTo e t)) :
    NodeOf y e ∨ ∃ i z, y = .typeCast i z := by
  have hw : ∀ e t, NodeOf y (wrapWithCast e t) → NodeOf y e ∨ ∃ i z, y = .typeCast i z := by
    intro e t h
    unfold wrapWithCast at h
    cases h with
    | self => exact .inr ⟨_, _, rfl⟩
    | typeCast h => exact .inl h
  have hi : NodeOf y (castIntStep e t) → NodeOf y e ∨ ∃ i z, y = .typeCast i z := by
    intro h
    unfold castIntStep at h
    split at h
    · exact hw _ _ h
    · exact .inl h
  unfold castTransitivelyTo at h
  dsimp only at h
  split at h
  · rcases hw _ _ h with h | h
    · exact hi h
    · exact .inr h
  · exact hi h

theorem infer_nodeOf {src : ConstraintSource} {sc : Scope} {y e e' : Expr} (h : inferAndCheck src sc e = .ok e')
    (hy : NodeOf y e') : (∃ u, NodeOf u e ∧ inferAndCheck src sc u = .ok y) ∨ ∃ i z, y = .typeCast i z := by
  induction e generalizing e' with
  | notSet i => exact (quotingError_ne_ok.1 h).elim
  | typeCast i e => exact (quotingError_ne_ok.1 h).elim
  | boolConst i b =>
    have h' := h
    cases h
    cases hy
    exact .inl ⟨_, .self _, h'⟩
  | intConst i b =>
    have h' := h
    cases h
    cases hy
    exact .inl ⟨_, .self _, h'⟩
  | key i n =>
    obtain ⟨t, _, _, rfl⟩ := infer_key h
    cases hy
    exact .inl ⟨_, .self _, h⟩
  | actionParam i n =>
    obtain ⟨t, _, _, rfl⟩ := infer_param h
    cases hy
    exact .inl ⟨_, .self _, h⟩
  | attr i n =>
    obtain ⟨_, rfl⟩ := infer_attr h
    cases hy
    exact .inl ⟨_, .self _, h⟩
  | boolNeg i e ih =>
    obtain ⟨e1, h1, _, rfl⟩ := infer_boolNeg.1 h
    cases hy with
    | self => exact .inl ⟨_, .self _, h⟩
    | boolNeg hy =>
      rcases ih h1 hy with ⟨u, h2, h3⟩ | h
      · exact .inl ⟨u, .boolNeg h2, h3⟩
      · exact .inr h
  | arithNeg i e ih =>
    obtain ⟨e1, h1, _, rfl⟩ := infer_arithNeg.1 h
    cases hy with
    | self => exact .inl ⟨_, .self _, h⟩
    | arithNeg hy =>
      rcases ih h1 hy with ⟨u, h2, h3⟩ | h
      · exact .inl ⟨u, .arithNeg h2, h3⟩
      · exact .inr h
  | field i e f ih =>
    obtain ⟨e1, t, h1, _, rfl⟩ := infer_field.1 h
    cases hy with
    | self => exact .inl ⟨_, .self _, h⟩
    | field hy =>
      rcases ih h1 hy with ⟨u, h2, h3⟩ | h
      · exact .inl ⟨u, .field h2, h3⟩
      · exact .inr h
  | bin i op l r ihl ihr =>
    obtain ⟨l', r', hl, hr, h'⟩ := infer_bin.1 h
    have left : NodeOf y l' → (∃ u, NodeOf u (.bin i op l r) ∧ inferAndCheck src sc u = .ok y) ∨ ∃ i z, y = .typeCast i z := by
      intro hy
      rcases ihl hl hy with ⟨u, h2, h3⟩ | h
      · exact .inl ⟨u, .left h2, h3⟩
      · exact .inr h
    have right : NodeOf y r' → (∃ u, NodeOf u (.bin i op l r) ∧ inferAndCheck src sc u = .ok y) ∨ ∃ i z, y = .typeCast i z := by
      intro hy
      rcases ihr hr hy with ⟨u, h2, h3⟩ | h
      · exact .inl ⟨u, .right h2, h3⟩
      · exact .inr h
    rcases h' with ⟨_, _, _, rfl⟩ | ⟨_, t, _, _, rfl⟩
    · cases hy with
      | self => exact .inl ⟨_, .self _, h⟩
      | left hy => exact left hy
      | right hy => exact right hy
    · cases hy with
      | self => exact .inl ⟨_, .self _, h⟩
      | left hy =>
        rcases cast_nodeOf hy with hy | hy
        · exact left hy
        · exact .inr hy
      | right hy =>
        rcases cast_nodeOf hy with hy | hy
        · exact right hy
        · exact .inr hy

theorem infer_param_node {src : ConstraintSource} {sc : Scope} {e e' y : Expr} (h : inferAndCheck src sc e = .ok e')
    (hy : NodeOf y e') (hp : (∃ i n, y = .actionParam i n) ∨ ∃ i, y = .notSet i) :
    ∃ j n t, NodeOf (.actionParam j n) e ∧ (sigOf sc).param n = some t ∧ y = .actionParam ⟨j.start, j.stop, t⟩ n := by
  rcases infer_nodeOf h hy with ⟨u, h1, h2⟩ | ⟨i, z, rfl⟩
  · cases u with
    | notSet i => exact (quotingError_ne_ok.1 h2).elim
    | typeCast i e => exact (quotingError_ne_ok.1 h2).elim
    | boolConst i b => cases h2; rcases hp with ⟨_, _, h⟩ | ⟨_, h⟩ <;> cases h
    | intConst i b => cases h2; rcases hp with ⟨_, _, h⟩ | ⟨_, h⟩ <;> cases h
    | key i n => obtain ⟨t, _, _, rfl⟩ := infer_key h2; rcases hp with ⟨_, _, h⟩ | ⟨_, h⟩ <;> cases h
    | actionParam i n =>
      obtain ⟨t, h3, _, rfl⟩ := infer_param h2
      exact ⟨i, n, t, h1, h3, rfl⟩
    | attr i n => obtain ⟨_, rfl⟩ := infer_attr h2; rcases hp with ⟨_, _, h⟩ | ⟨_, h⟩ <;> cases h
    | boolNeg i e => obtain ⟨e1, _, _, rfl⟩ := infer_boolNeg.1 h2; rcases hp with ⟨_, _, h⟩ | ⟨_, h⟩ <;> cases h
    | arithNeg i e => obtain ⟨e1, _, _, rfl⟩ := infer_arithNeg.1 h2; rcases hp with ⟨_, _, h⟩ | ⟨_, h⟩ <;> cases h
    | field i e f => obtain ⟨e1, t, _, _, rfl⟩ := infer_field.1 h2; rcases hp with ⟨_, _, h⟩ | ⟨_, h⟩ <;> cases h
    | bin i op l r =>
      obtain ⟨l', r', hl, hr, ⟨_, _, _, rfl⟩ | ⟨_, t, _, _, rfl⟩⟩ := infer_bin.1 h2 <;>
        rcases hp with ⟨_, _, h⟩ | ⟨_, h⟩ <;> cases h
  · rcases hp with ⟨_, _, h⟩ | ⟨_, h⟩ <;> cases h

/-! ### Sizes -/

theorem sizeCM_ok {x : EntryTexts} {root e : Expr} {p : Path} {c : SizeCache} (hs : Sub root e p) (hc : CorrectSizes root c)
    {r : Nat × SizeCache} (h : sizeCM x e p c = .ok r) : CorrectSizes root r.2 ∧ CorrectSizes.NoBareParam e := by
  rw [erased, erase_sizeC] at h
  have := sizeC_agrees e p c hs hc
  rw [h] at this
  cases hn : size e with
  | ok n =>
    rw [hn] at this
    obtain ⟨m, h1, h2⟩ := this
    cases h1
    exact ⟨h2, (size_weight.1 hn).2⟩
  | err c => rw [hn] at this; cases this
  | crash => rw [hn] at this; cases this
  | oof => rw [hn] at this; cases this

theorem sizeCM_outcome (x : EntryTexts) {root : Expr} : ∀ (e : Expr) (p : Path) (c : SizeCache), Sub root e p →
    CorrectSizes root c → (∀ i, ¬ NodeOf (.notSet i) e) → (∃ r, sizeCM x e p c = .ok r) ∨
    ∃ i n, Obstacle e i n ∧
      sizeCM x e p c = .err .invalidArgument (c!"invalid expression: " ++ x.expression (.actionParam i n)) := by
  intro e
  induction e with
  | bin i op l r ihl ihr =>
    intro p c hs hc hns
    rw [sizeCM.eq_def]
    dsimp only
    cases lookup p c with
    | some n => exact .inl ⟨_, rfl⟩
    | none =>
      dsimp only
      rcases ihl (0 :: p) c (.left hs) hc (fun i h => hns i (.left h)) with ⟨⟨n, c'⟩, h⟩ | ⟨j, n, h1, h2⟩
      · obtain ⟨hc', hb⟩ := sizeCM_ok (.left hs) hc h
        rw [h, MRes.ok_bind]
        dsimp only
        rcases ihr (1 :: p) c' (.right hs) hc' (fun i h => hns i (.right h)) with ⟨⟨n', c''⟩, h⟩ | ⟨j, n, h1, h2⟩
        · rw [h, MRes.ok_bind]
          exact .inl ⟨_, rfl⟩
        · rw [h2]
          exact .inr ⟨j, n, .right hb h1, rfl⟩
      · rw [h2]
        exact .inr ⟨j, n, .left h1, rfl⟩
  | boolNeg i e ih =>
    intro p c hs hc hns
    rw [sizeCM.eq_def]
    dsimp only
    cases lookup p c with
    | some n => exact .inl ⟨_, rfl⟩
    | none =>
      dsimp only
      rcases ih (0 :: p) c (.boolNeg hs) hc (fun i h => hns i (.boolNeg h)) with ⟨⟨n, c'⟩, h⟩ | ⟨j, n, h1, h2⟩
      · rw [h, MRes.ok_bind]
        exact .inl ⟨_, rfl⟩
      · rw [h2]
        exact .inr ⟨j, n, .not h1, rfl⟩
  | actionParam i n =>
    intro p c hs hc hns
    rw [sizeCM.eq_def]
    dsimp only
    cases lookup p c with
    | some n => exact .inl ⟨_, rfl⟩
    | none => exact .inr ⟨i, n, .self _ _, rfl⟩
  | notSet i => intro p c hs hc hns; exact (hns i (.self _)).elim
  | _ =>
    intro p c hs hc hns
    rw [sizeCM.eq_def]
    dsimp only
    cases lookup p c <;> exact .inl ⟨_, rfl⟩

/-! ### The search -/

/-- The error for what is to blame. -/
def blamed (x : EntryTexts) (ctx : EvalCtx) (α : Type) : Blame → MRes α
  | .place a b text => rtAt x ctx a b text
  | .param i n => .err .invalidArgument (c!"invalid expression: " ++ x.expression (.actionParam i n))

theorem blamed_bind {x : EntryTexts} {ctx : EvalCtx} {α β : Type} {b : Blame} {f : α → MRes β} :
    (blamed x ctx α b >>= f) = blamed x ctx β b := by
  cases b with
  | place => exact rtAt_bind
  | param => rfl

theorem val_connective {ctx : EvalCtx} {i : Info} {o : Spec.Conn} {op : BinOp} {l r : Expr} {b : Bool}
    (hop : op = (match o with | .and => .and | .or => .or | .implies => .implies)) (h : Val ctx (.bin i op l r) b) :
    ∃ y, Val ctx l y := by
  cases o <;> subst hop
  · rcases val_and h with ⟨h, _⟩ | ⟨h, _⟩ <;> exact ⟨_, h⟩
  · rcases val_or h with ⟨h, _⟩ | ⟨h, _⟩ <;> exact ⟨_, h⟩
  · rcases val_implies h with ⟨h, _⟩ | ⟨h, _⟩ <;> exact ⟨_, h⟩

theorem minimalSubM_agrees {x : EntryTexts} {ctx : EvalCtx} {root e : Expr} {p : Path} {cs : Caches} {r : Node × Caches}
    (hs : Sub root e p) (hc : CachesOk ctx root cs) (h : minimalSubM x ctx e p cs = .ok r) :
    minP ctx e p = .ok r.1 ∧ CachesOk ctx root r.2 ∧ Sub root r.1.1 r.1.2 ∧ NodeOf r.1.1 e := by
  rw [erased, erase_minimalSub] at h
  have := minimalSub_agrees e p cs hs hc
  rw [h] at this
  have hm : minP ctx e p = .ok r.1 ∧ CachesOk ctx root r.2 := by
    cases hm : minP ctx e p with
    | ok n =>
      rw [hm] at this
      obtain ⟨c, h1, h2⟩ := this
      cases h1
      exact ⟨rfl, h2⟩
    | err c => rw [hm] at this; cases this
    | crash => rw [hm] at this; cases this
    | oof => rw [hm] at this; cases this
  exact ⟨hm.1, hm.2, minP_sub e p _ hs hm.1, skeleton_node (justifies_skeleton (minP_best e p _ hm.1).1)⟩

theorem search_outcome {x : EntryTexts} {src : ConstraintSource} {sc : Scope} {ctx : EvalCtx} {name : Str}
    (hc : Provides (sigOf sc) (envOf ctx)) (hw : WidthsOk (sigOf sc)) (hn : Named name (sigOf sc) ctx)
    (hnb : NoBoolNames (sigOf sc)) (hbare : ParamsBare src sc)
    {root e e' : Expr} {s : SExpr} (h : inferAndCheck src sc e = .ok e') (ha : abs e = some s) (hb : BoolShape e')
    {y : Bool} (hv : Val ctx e' y) : ∀ {p : Path} {cs : Caches}, Sub root e' p → CachesOk ctx root cs →
    (∃ r, minimalSubM x ctx e' p cs = .ok r) ∨
    ∃ f, Unexplained name (sigOf sc) (envOf ctx) e f ∧ minimalSubM x ctx e' p cs = blamed x ctx _ f := by
  induction e generalizing e' s y with
  | notSet i => simp [abs] at ha
  | typeCast i e => simp [abs] at ha
  | boolConst i b =>
    intro p cs _ _
    cases h
    exact .inl ⟨_, rfl⟩
  | intConst i b => cases h; exact hb.elim
  | key i n => obtain ⟨t, _, _, rfl⟩ := infer_key h; exact hb.elim
  | actionParam i n => obtain ⟨t, _, _, rfl⟩ := infer_param h; exact hb.elim
  | attr i n => obtain ⟨_, rfl⟩ := infer_attr h; exact hb.elim
  | arithNeg i e ih => obtain ⟨e1, h1, _, rfl⟩ := infer_arithNeg.1 h; exact hb.elim
  | field i e f ih => obtain ⟨e1, t, h1, _, rfl⟩ := infer_field.1 h; exact hb.elim
  | boolNeg i e ih =>
    intro p cs hs hcs
    obtain ⟨e1, h1, _, rfl⟩ := infer_boolNeg.1 h
    simp [abs] at ha
    obtain ⟨s', ha, rfl⟩ := ha
    unfold minimalSubM
    rcases ih h1 ha hb (val_not hv) (.boolNeg hs) hcs with h | ⟨f, h, h'⟩
    · exact .inl h
    · exact .inr ⟨f, .not h, h'⟩
  | bin i op l r ihl ihr =>
    intro p cs hs hcs
    simp only [abs, Option.bind_eq_some_iff] at ha
    obtain ⟨sl, hsl, sr, hsr, ha⟩ := ha
    rw [infer_bin] at h
    obtain ⟨l', r', hl, hr, h⟩ := h
    rcases binop_cases ha with ⟨h1, h2, o, rfl, hop⟩ | ⟨h1, h2, o, rfl, ho, hop⟩
    · simp [h1, h2] at h
      obtain ⟨tl, tr, rfl⟩ := h
      have hco : connOf op = some o := by subst hop; cases o <;> rfl
      have hbs : BoolShape l' ∧ BoolShape r' := by subst hop; cases o <;> exact hb
      obtain ⟨lb, hlb⟩ := val_connective hop hv
      have hel : Evaluates (sigOf sc) (envOf ctx) sl .boolean (.bool lb) := by
        rcases eval_outcome (x := x) hc hw hn hl hsl with ⟨v, hv, he⟩ | ⟨a, b, text, _, _, h⟩
        · rw [evalP_val.2 hlb] at hv
          cases hv
          rw [tl] at he
          exact he
        · exact (h.not_ok (evalP_val.2 hlb)).elim
      obtain ⟨ec, h3, h4⟩ := toBoolCM_ok (x := x) (.left hs) hcs.1 hlb
      rcases eval_outcome (x := x) hc hw hn hr hsr with ⟨v, hrv, her⟩ | ⟨a, b, text, h5, _, h6⟩
      · have hsh := evalP_shape hrv
        rw [tr] at hsh her
        cases hsh with | bool rb =>
        have hrb := evalP_val.1 hrv
        obtain ⟨ec', h5, h6⟩ := toBoolCM_ok (x := x) (.right hs) h4 hrb
        have hcs' : CachesOk ctx root (ec', cs.2) := ⟨h6, hcs.2⟩
        have hvl : Valued (sigOf sc) (envOf ctx) l lb := ⟨sl, hsl, hel⟩
        have hvr : Valued (sigOf sc) (envOf ctx) r rb := ⟨sr, hsr, her⟩
        have outl := fun hd : DecidedLeft o lb => (ihl hl hsl hbs.1 hlb (.left hs) hcs').imp_right fun ⟨f, h, h'⟩ =>
          (⟨f, .left (i := i) hco hvl hvr hd h, h'⟩ :
            ∃ f, Unexplained name (sigOf sc) (envOf ctx) (.bin i op l r) f ∧ _ = blamed x ctx _ f)
        have outr := fun (hdl : ¬ DecidedLeft o lb) (hd : DecidedRight o rb) =>
          (ihr hr hsr hbs.2 hrb (.right hs) hcs').imp_right fun ⟨f, h, h'⟩ => (⟨f, .right (i := i) hco hvl hvr hdl hd h, h'⟩ :
            ∃ f, Unexplained name (sigOf sc) (envOf ctx) (.bin i op l r) f ∧ _ = blamed x ctx _ f)
        have noSet : ∀ {y y' : Expr}, inferAndCheck src sc y = .ok y' → ∀ i, ¬ NodeOf (.notSet i) y' := by
          intro y y' hy i hn
          obtain ⟨_, _, _, _, _, h⟩ := infer_param_node hy hn (.inr ⟨i, rfl⟩)
          cases h
        have both : DecidedLeft o lb → DecidedRight o rb → ∀ m : MRes (Node × Caches),
            m = (do
              let (n0, cs) ← minimalSubM x ctx l' (0 :: p) (ec', cs.2)
              let (n1, cs) ← minimalSubM x ctx r' (1 :: p) cs
              let (s0, sc) ← sizeCM x n0.1 n0.2 cs.2
              let (s1, sc) ← sizeCM x n1.1 n1.2 sc
              .ok (if s0 ≤ s1 then n0 else n1, (cs.1, sc))) →
            (∃ r, m = .ok r) ∨ ∃ f, Unexplained name (sigOf sc) (envOf ctx) (.bin i op l r) f ∧ m = blamed x ctx _ f := by
          rintro hdl hdr m rfl
          rcases outl hdl with ⟨⟨n0, cs0⟩, h⟩ | ⟨f, h, h'⟩
          · obtain ⟨g1, g2, g3, g4⟩ := minimalSubM_agrees (.left hs) hcs' h
            obtain ⟨y0, hy0, hy0'⟩ := (minP_explained hc hw hn (fun h => (hbare h).1) hnb hl hsl tl _ _).1 ⟨_, g1⟩
            rw [h, MRes.ok_bind]
            dsimp only at g2 g3 g4 ⊢
            rcases ihr hr hsr hbs.2 hrb (.right hs) g2 with ⟨⟨n1, cs1⟩, h⟩ | ⟨f, h, h'⟩
            · obtain ⟨k1, k2, k3, k4⟩ := minimalSubM_agrees (.right hs) g2 h
              obtain ⟨z0, hz0, hz0'⟩ := (minP_explained hc hw hn (fun h => (hbare h).1) hnb hr hsr tr _ _).1 ⟨_, k1⟩
              rw [h, MRes.ok_bind]
              dsimp only at k2 k3 k4 ⊢
              rcases sizeCM_outcome x n0.1 n0.2 cs1.2 g3 k2.2 (noSet hy0') with ⟨⟨s0, sc0⟩, h⟩ | ⟨j, n, h1, h2⟩
              · obtain ⟨q1, q2⟩ := sizeCM_ok g3 k2.2 h
                rw [h, MRes.ok_bind]
                dsimp only
                rcases sizeCM_outcome x n1.1 n1.2 sc0 k3 q1 (noSet hz0') with ⟨⟨s1, sc1⟩, h⟩ | ⟨j, n, h1, h2⟩
                · rw [h, MRes.ok_bind]
                  exact .inl ⟨_, rfl⟩
                · rw [h2]
                  obtain ⟨k, t, e1, e2, rfl⟩ := (hbare hz0').2 _ _ h1
                  exact .inr ⟨_, .sizeRight hco hvl hvr hdl hdr hy0 hz0 ((hbare hy0').1.1 q2) e1 e2, rfl⟩
              · rw [h2]
                obtain ⟨k, t, e1, e2, rfl⟩ := (hbare hy0').2 _ _ h1
                exact .inr ⟨_, .sizeLeft hco hvl hvr hdl hdr hy0 hz0 e1 e2, rfl⟩
            · exact .inr ⟨f, .second hco hvl hvr hdl hdr hy0 h, by rw [h', blamed_bind]⟩
          · exact .inr ⟨f, h, by rw [h', blamed_bind]⟩
        unfold minimalSubM
        cases o <;> subst hop <;> dsimp only <;> rw [h3, MRes.ok_bind] <;> dsimp only <;>
          rw [h5, MRes.ok_bind] <;> cases lb <;> cases rb
        all_goals
          first
            | exact .inl ⟨_, rfl⟩
            | exact outl rfl
            | exact outr (by simp [DecidedLeft, Spec.Conn.apply]) rfl
            | exact both rfl rfl _ rfl
      · refine .inr ⟨.place a b text, .operand hco ⟨sl, hsl, hel⟩ h5, ?_⟩
        have h7 := toBoolCM_stuck (.right hs) h4 h6
        unfold minimalSubM
        cases o <;> subst hop <;> dsimp only <;> rw [h3, MRes.ok_bind] <;> dsimp only <;>
          rw [h7, rtAt_bind] <;> rfl
    · simp [h1, h2] at h
      obtain ⟨t, _, _, rfl⟩ := h
      cases o <;> subst hop <;> exact .inl ⟨_, rfl⟩

end P4C
