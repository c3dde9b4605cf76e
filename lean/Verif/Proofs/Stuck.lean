import Verif.Proofs.EntryFault
import Verif.Proofs.Eval
import Verif.Proofs.Elab
import Verif.Proofs.Explain3

/-
Constraints without a value (interpreter.cc:277-830).
-/

namespace P4C

open Spec

/-- `RuntimeTypeError(..) << text` (errors.cc:15-26) at a range of the constraint. -/
def rtAt {α : Type} (x : EntryTexts) (ctx : EvalCtx) (a b : Loc) (text : Str) : MRes α :=
  match quoteSub ctx.src a b with
  | .ok q => .err .internal (q ++ c!"Runtime type error: " ++ text)
  | .err _ => .err .internal (x.quoteFailure ctx.src a b ++ text)
  | .crash => .crash
  | .oof => .oof

theorem rtAt_ne_ok {α : Type} {x : EntryTexts} {ctx : EvalCtx} {a b : Loc} {text : Str} {v : α} :
    rtAt x ctx a b text ≠ .ok v := by
  unfold rtAt
  split <;> simp

theorem rtAt_bind {α β : Type} {x : EntryTexts} {ctx : EvalCtx} {a b : Loc} {text : Str} {f : α → MRes β} :
    (rtAt x ctx a b text >>= f) = rtAt x ctx a b text := by
  unfold rtAt
  split <;> rfl

theorem rtAt_annotate {α : Type} {x : EntryTexts} {ctx : EvalCtx} {a b : Loc} {text : Str} (t : Str) (h : text ≠ []) :
    (rtAt x ctx a b text : MRes α).annotate t = rtAt x ctx a b (text ++ c!"; " ++ t) := by
  unfold rtAt
  split <;> simp [MRes.annotate, h]

/-- Evaluation of the typed constraint `e` ends with a runtime error. -/
def StuckAt (x : EntryTexts) (ctx : EvalCtx) (e : Expr) (a b : Loc) (text : Str) : Prop :=
  ∀ root p c, Sub root e p → CacheOk ctx root c → evalM x ctx e p c = rtAt x ctx a b text

theorem evalM_ok {x : EntryTexts} {ctx : EvalCtx} {root e : Expr} {p : Path} {c : Cache} {v : Value} (hs : Sub root e p)
    (hc : CacheOk ctx root c) (h : evalP ctx e = .ok v) : ∃ c', evalM x ctx e p c = .ok (v, c') ∧ CacheOk ctx root c' := by
  have := eval_agrees c ctx root e p c hs ⟨hc, rfl⟩
  rw [h] at this
  obtain ⟨c', h1, h2, _⟩ := this
  exact ⟨c', by rw [erased, erase_eval]; exact h1, h2⟩

theorem StuckAt.not_ok {x : EntryTexts} {ctx : EvalCtx} {e : Expr} {a b : Loc} {text : Str} (h : StuckAt x ctx e a b text)
    {v : Value} : evalP ctx e ≠ .ok v := by
  intro hv
  have hc : CacheOk ctx e none := fun m hm => by cases hm
  obtain ⟨c', h1, _⟩ := evalM_ok (x := x) (c := none) .root hc hv
  rw [h e [] none .root hc] at h1
  exact rtAt_ne_ok h1

theorem toBoolM_ok {x : EntryTexts} {ctx : EvalCtx} {root e : Expr} {p : Path} {c : Cache} {v : Bool} (hs : Sub root e p)
    (hc : CacheOk ctx root c) (h : evalP ctx e = .ok (.bool v)) :
    ∃ c', evalToBoolWithM x ctx e p (fun c => evalM x ctx e p c) c = .ok (v, c') ∧ CacheOk ctx root c' := by
  have := evalToBool_agrees (c₀ := c) hs ⟨hc, rfl⟩
  rw [evalBoolP_ok.2 h] at this
  obtain ⟨c', h1, h2, _⟩ := this
  refine ⟨c', ?_, h2⟩
  rw [erased]
  exact (erase_evalToBoolWith x ctx e p (erase_eval x ctx e p) c).trans h1

theorem toBoolM_stuck {x : EntryTexts} {ctx : EvalCtx} {root e : Expr} {p : Path} {c : Cache} {a b : Loc} {text : Str}
    (hs : Sub root e p) (hc : CacheOk ctx root c) (h : StuckAt x ctx e a b text) :
    evalToBoolWithM x ctx e p (fun c => evalM x ctx e p c) c = rtAt x ctx a b text := by
  unfold evalToBoolWithM
  cases hl : c.bind (lookup p) with
  | some v =>
    exfalso
    rw [Option.bind_eq_some_iff] at hl
    obtain ⟨m, rfl, hl⟩ := hl
    obtain ⟨e', h1, h2⟩ := hc m rfl p v hl
    rw [h1.unique hs] at h2
    exact h.not_ok h2
  | none =>
    dsimp only
    rw [h root p c hs hc, rtAt_bind]

theorem annotate_ok {α : Type} (t : Str) (v : α) : (MRes.ok v).annotate t = .ok v := rfl

theorem toIntM_stuck {x : EntryTexts} {ctx : EvalCtx} {e : Expr} {c : Cache} {run : Cache → MRes (Value × Cache)} {a b : Loc}
    {text : Str} (h : run c = rtAt x ctx a b text) : evalToIntWithM x ctx e run c = rtAt x ctx a b text := by
  unfold evalToIntWithM
  rw [h, rtAt_bind]

theorem toIntM_ok {x : EntryTexts} {ctx : EvalCtx} {e : Expr} {c c' : Cache} {run : Cache → MRes (Value × Cache)} {z : Int}
    (h : run c = .ok (.int z, c')) : evalToIntWithM x ctx e run c = .ok (z, c') := by
  unfold evalToIntWithM
  rw [h]
  rfl

theorem toIntM_exact {x : EntryTexts} {ctx : EvalCtx} {e : Expr} {c c' : Cache} {run : Cache → MRes (Value × Cache)} {z : Int}
    (h : run c = .ok (.exact z, c')) : evalToIntWithM x ctx e run c =
      rtAt x ctx e.start e.stop c!"expected expression of integral type" := by
  unfold evalToIntWithM
  rw [h]
  rfl

theorem dynCheckM_stuck {x : EntryTexts} {ctx : EvalCtx} {e : Expr} {a b : Loc} {text : Str} :
    dynCheckM x ctx e (rtAt x ctx a b text) = rtAt x ctx a b text := by
  unfold dynCheckM
  rw [rtAt_bind]

theorem stuckAt_cast {x : EntryTexts} {ctx : EvalCtx} {e : Expr} {t : Ty} {a b : Loc} {text : Str}
    (h : StuckAt x ctx e a b text) : StuckAt x ctx (castTransitivelyTo e t) a b text := by
  have hw : ∀ e t, StuckAt x ctx e a b text → StuckAt x ctx (wrapWithCast e t) a b text := by
    intro e t h root p c hs hc
    unfold wrapWithCast at hs ⊢
    unfold evalM
    rw [h root (0 :: p) c (.typeCast hs) hc, rtAt_bind, dynCheckM_stuck]
  have hi : StuckAt x ctx (castIntStep e t) a b text := by
    unfold castIntStep
    split
    · exact hw _ _ h
    · exact h
  unfold castTransitivelyTo
  dsimp only
  split
  · exact hw _ _ hi
  · exact hi

theorem cast_span (e : Expr) (t : Ty) :
    (castTransitivelyTo e t).start = e.start ∧ (castTransitivelyTo e t).stop = e.stop := by
  have hw : ∀ e t, (wrapWithCast e t).start = e.start ∧ (wrapWithCast e t).stop = e.stop := fun e t => ⟨rfl, rfl⟩
  have hi : (castIntStep e t).start = e.start ∧ (castIntStep e t).stop = e.stop := by
    unfold castIntStep
    split
    · exact hw _ _
    · exact ⟨rfl, rfl⟩
  unfold castTransitivelyTo
  dsimp only
  split
  · exact ⟨(hw _ _).1.trans hi.1, (hw _ _).2.trans hi.2⟩
  · exact hi

/-- The context provides values for all keys, but not necessarily for all parameters. -/
structure Provides (Γ : Sig) (ρ : Env) : Prop where
  key : ∀ n t, Γ.key n = some t → Supported t → ∃ v, ρ.key n = some v ∧ HasShape t v
  param : ∀ n t z, Γ.param n = some t → Supported t → ρ.param n = some z → HasShape t (.int z)

/-- Parameters are mentioned only in constraints of actions. -/
def Named (name : Str) (Γ : Sig) (ctx : EvalCtx) : Prop :=
  (∃ a, ctx.vals = .action a ∧ a.actionName = name) ∨ ∀ n, Γ.param n = none

theorem within_ne {op : BinOp} {text : Str} (h : text ≠ []) : within op text ≠ [] := by
  unfold within
  split <;> simp [h]

theorem eval_outcome {x : EntryTexts} {src : ConstraintSource} {sc : Scope} {ctx : EvalCtx} {name : Str}
    (hc : Provides (sigOf sc) (envOf ctx)) (hw : WidthsOk (sigOf sc)) (hn : Named name (sigOf sc) ctx) {e e' : Expr}
    {s : SExpr} (h : inferAndCheck src sc e = .ok e') (ha : abs e = some s) :
    (∃ v, evalP ctx e' = .ok v ∧ Evaluates (sigOf sc) (envOf ctx) s e'.ty v) ∨
    ∃ a b text, Stuck name (sigOf sc) (envOf ctx) e a b text ∧ text ≠ [] ∧ StuckAt x ctx e' a b text := by
  induction e generalizing e' s with
  | notSet i => simp [abs] at ha
  | typeCast i e => simp [abs] at ha
  | boolConst i b =>
    simp [abs] at ha; subst ha; simp [inferAndCheck] at h; subst h
    exact .inl ⟨.bool b, by simp only [evalP, chkP_ok]; exact ⟨trivial, .bool _⟩, .bool _⟩
  | intConst i n =>
    simp [abs] at ha; obtain ⟨z, hz, rfl⟩ := ha; simp [inferAndCheck] at h; subst h
    exact .inl ⟨.int z, by simp only [evalP, chkP_ok, setStr_decimal hz]; exact ⟨trivial, .int _⟩, .int _⟩
  | key i n =>
    simp [abs] at ha; subst ha
    obtain ⟨t, hk, hs, rfl⟩ := infer_key h
    obtain ⟨v, hv, hsh⟩ := hc.key _ _ hk hs
    refine .inl ⟨v, ?_, .key hk hv⟩
    cases hcv : ctx.vals with
    | action a => simp [envOf, hcv] at hv
    | table t =>
      simp only [envOf, hcv] at hv
      simp only [evalP, chkP_ok, hcv, hv]
      exact ⟨trivial, hsh⟩
  | actionParam i n =>
    simp [abs] at ha; subst ha
    obtain ⟨t, hk, hs, rfl⟩ := infer_param h
    rcases hn with ⟨a, hcv, rfl⟩ | hn
    · cases hl : lookup n a.params with
      | some z =>
        have hv : (envOf ctx).param n = some z := by simp [envOf, hcv, hl]
        have hsh := hc.param _ _ _ hk hs hv
        refine .inl ⟨.int z, ?_, .param hk hv⟩
        simp only [evalP, chkP_ok, hcv, hl]
        exact ⟨trivial, hsh⟩
      | none =>
        have hv : (envOf ctx).param n = none := by simp [envOf, hcv, hl]
        refine .inr ⟨_, _, _, .param hv, by simp, ?_⟩
        intro root p c _ _
        unfold evalM
        simp only [hcv, hl]
        exact dynCheckM_stuck
    · rw [hn n] at hk; cases hk
  | attr i n =>
    simp [abs] at ha; subst ha
    obtain ⟨rfl, rfl⟩ := infer_attr h
    cases hcv : ctx.vals with
    | table t =>
      refine .inl ⟨.int t.priority, ?_, .priority (by simp [envOf, hcv])⟩
      simp only [evalP, chkP_ok, hcv, if_true]
      exact ⟨trivial, .int _⟩
    | action a =>
      refine .inr ⟨_, _, _, .priority (by simp [envOf, hcv]), by simp, ?_⟩
      intro root p c _ _
      unfold evalM
      simp only [hcv]
      exact dynCheckM_stuck
  | boolNeg i e ih =>
    simp [abs] at ha; obtain ⟨s', ha, rfl⟩ := ha
    obtain ⟨e1, h1, ht, rfl⟩ := infer_boolNeg.1 h
    rcases ih h1 ha with ⟨v, hv, hev⟩ | ⟨a, b, text, h2, h3, h4⟩
    · have hsh := evalP_shape hv
      rw [ht] at hsh hev
      cases hsh with | bool b =>
      refine .inl ⟨.bool (!b), ?_, .not hev⟩
      simp only [evalP, chkP_ok, Res.bind_eq_ok, toBoolP_ok]
      exact ⟨⟨b, hv, rfl⟩, .bool _⟩
    · refine .inr ⟨a, b, text, .not h2, h3, ?_⟩
      intro root p c hs hc
      unfold evalM
      rw [toBoolM_stuck (.boolNeg hs) hc h4, rtAt_bind, dynCheckM_stuck]
  | arithNeg i e ih =>
    simp [abs] at ha; obtain ⟨s', ha, rfl⟩ := ha
    obtain ⟨e1, h1, ht, rfl⟩ := infer_arithNeg.1 h
    rcases ih h1 ha with ⟨v, hv, hev⟩ | ⟨a, b, text, h2, h3, h4⟩
    · have hsh := evalP_shape hv
      rw [ht] at hsh hev
      cases hsh with | int z =>
      refine .inl ⟨.int (-z), ?_, .neg hev⟩
      simp only [evalP, chkP_ok, Res.bind_eq_ok, toIntP_ok]
      exact ⟨⟨z, hv, rfl⟩, .int _⟩
    · refine .inr ⟨a, b, text, .neg h2, h3, ?_⟩
      intro root p c hs hc
      unfold evalM
      rw [toIntM_stuck (h4 root _ c (.arithNeg hs) hc), rtAt_bind, dynCheckM_stuck]
  | field i e f ih =>
    simp [abs] at ha; obtain ⟨s', ha, rfl⟩ := ha
    obtain ⟨e1, t, h1, hf, rfl⟩ := infer_field.1 h
    rcases ih h1 ha with ⟨v, hv, hev⟩ | ⟨a, b, text, h2, h3, h4⟩
    · obtain ⟨z, hz, hz', hzs⟩ := fieldVal_exists hf (evalP_shape hv)
      refine .inl ⟨.int z, ?_, .field hev hf hz⟩
      simp only [evalP, chkP_ok, Res.bind_eq_ok]
      exact ⟨⟨v, hv, by rw [hz']⟩, hzs⟩
    · refine .inr ⟨a, b, text, .field h2, h3, ?_⟩
      intro root p c hs hc
      unfold evalM
      rw [h4 root _ c (.field hs) hc, rtAt_bind, dynCheckM_stuck]
  | bin i op l r ihl ihr =>
    simp only [abs, Option.bind_eq_some_iff] at ha
    obtain ⟨sl, hsl, sr, hsr, ha⟩ := ha
    rw [infer_bin] at h
    obtain ⟨l', r', hl, hr, h⟩ := h
    have htl := infer_sound hl hsl
    have htr := infer_sound hr hsr
    have ihl := ihl hl hsl
    have ihr := ihr hr hsr
    rcases binop_cases ha with ⟨h1, h2, o, rfl, hop⟩ | ⟨h1, h2, o, rfl, ho, hop⟩
    · simp [h1, h2] at h
      obtain ⟨tl, tr, rfl⟩ := h
      have hco : connOf op = some o := by subst hop; cases o <;> rfl
      have hwi : ∀ text, within op text = text := by subst hop; cases o <;> intro _ <;> rfl
      rcases ihl with ⟨v, hv, hev⟩ | ⟨a, b, text, h3, h4, h5⟩
      · have hsh := evalP_shape hv
        rw [tl] at hsh hev
        cases hsh with | bool y =>
        by_cases hd : DecidedLeft o y
        · refine .inl ⟨.bool (o.apply y true), ?_, .decided hev hd⟩
          simp only [evalP, chkP_ok]
          refine ⟨?_, .bool _⟩
          cases o <;> subst hop <;> cases y <;> simp [DecidedLeft, Conn.apply] at hd <;> simp [hv, toBoolP, Conn.apply]
        · rcases ihr with ⟨w, hw, hew⟩ | ⟨a, b, text, h3, h4, h5⟩
          · have hsh := evalP_shape hw
            rw [tr] at hsh hew
            cases hsh with | bool z =>
            refine .inl ⟨.bool (o.apply y z), ?_, .conn hev hew⟩
            simp only [evalP, chkP_ok]
            refine ⟨?_, .bool _⟩
            cases o <;> subst hop <;> cases y <;> simp [DecidedLeft, Conn.apply] at hd <;>
              simp [hv, hw, toBoolP, Conn.apply]
          · refine .inr ⟨a, b, text, .second hco hsl hev hd h3, h4, ?_⟩
            intro root p c hs hc
            obtain ⟨c', h6, h7⟩ := toBoolM_ok (x := x) (.left hs) hc hv
            have h8 := toBoolM_stuck (.right hs) h7 h5
            unfold evalM
            cases o <;> subst hop <;> cases y <;> simp [DecidedLeft, Conn.apply] at hd <;> dsimp only <;>
              rw [h6, MRes.ok_bind] <;> dsimp only <;> simp only [if_true, if_false, Bool.false_eq_true] <;>
              rw [h8, rtAt_bind, dynCheckM_stuck]
      · refine .inr ⟨a, b, within op text, .left h3, within_ne h4, ?_⟩
        rw [hwi]
        intro root p c hs hc
        have h8 := toBoolM_stuck (.left hs) hc h5
        unfold evalM
        cases o <;> subst hop <;> dsimp only <;> rw [h8, rtAt_bind, dynCheckM_stuck]
    · simp [h1, h2] at h
      obtain ⟨t, hj, hord, rfl⟩ := h
      have hco : cmpOf op = some o := by subst hop; cases o <;> rfl
      have hnn := isJoin_nonneg hj (hasTy_nonneg hw htl) (hasTy_nonneg hw htr)
      rw [ho] at hord
      rcases ihl with ⟨v, hv, hev⟩ | ⟨a, b, text, h3, h4, h5⟩
      · have hvl := convert_shape hj.1 (evalP_shape hv)
        have hcl := evalP_cast hj.1 hnn hv
        by_cases hex : o.isOrder = true ∧ ∃ n, t = .exact n
        · obtain ⟨hio, n, rfl⟩ := hex
          refine .inr ⟨_, _, _, .exact hco hio hsl hsr hev htr hj, within_ne (by simp), ?_⟩
          intro root p c hs hc
          obtain ⟨c', h6, h7⟩ := evalM_ok (x := x) (.left hs) hc hcl
          have h8 : evalToIntWithM x ctx (castTransitivelyTo l' (.exact n))
              (fun c => evalM x ctx (castTransitivelyTo l' (.exact n)) (0 :: p) c) c =
              rtAt x ctx l.start l.stop c!"expected expression of integral type" := by
            have e1 := cast_span l' (.exact n)
            have e2 := infer_span hl
            generalize hcv : convert l'.ty (.exact n) v = cv at hvl h6
            cases hvl
            rw [toIntM_exact h6, e1.1, e1.2, e2.1, e2.2]
          unfold evalM
          cases o <;> first | (simp [Cmp.isOrder] at hio; done) | skip
          all_goals
            subst hop
            dsimp only
            rw [h8, rtAt_annotate _ (by simp), rtAt_bind, dynCheckM_stuck]
            rfl
        · have hne : o.isOrder = true → ∀ n, t ≠ .exact n := fun a n b => hex ⟨a, n, b⟩
          rcases ihr with ⟨w, hw', hew⟩ | ⟨a, b, text, h3, h4, h5⟩
          · have hvr := convert_shape hj.2.1 (evalP_shape hw')
            obtain ⟨c, h3, h4⟩ := (evalP_cmp (i := i.withTy .boolean) rfl hop hcl (evalP_cast hj.2.1 hnn hw') hvl hvr hord).2 hne
            exact .inl ⟨_, h4, .cmp hev hew hj hne h3⟩
          · refine .inr ⟨a, b, within op text, .right hco hsl hsr hev htr (fun h w h' => hne h w (isJoin_unique hj h')) h3,
              within_ne h4, ?_⟩
            intro root p c hs hc
            obtain ⟨c', h6, h7⟩ := evalM_ok (x := x) (.left hs) hc hcl
            have h8 := stuckAt_cast (t := t) h5 root _ c' (.right hs) h7
            unfold evalM
            have hint : o.isOrder = true → ∃ z, convert l'.ty t v = .int z := by
              intro hio
              generalize hcv : convert l'.ty t v = cv at hvl
              cases hord hio with
              | int => cases hvl; exact ⟨_, rfl⟩
              | bit => cases hvl; exact ⟨_, rfl⟩
              | exact n => exact (hne hio n rfl).elim
            cases o
            case eq | ne =>
              subst hop
              dsimp only
              rw [h6, MRes.ok_bind]
              dsimp only
              rw [h8, rtAt_bind, dynCheckM_stuck]
              rfl
            all_goals
              subst hop
              obtain ⟨z, hz⟩ := hint rfl
              rw [hz] at h6
              dsimp only
              rw [toIntM_ok h6, annotate_ok, MRes.ok_bind]
              dsimp only
              rw [toIntM_stuck h8, rtAt_annotate _ h4, rtAt_bind, dynCheckM_stuck]
              simp [within]
      · refine .inr ⟨a, b, within op text, .left h3, within_ne h4, ?_⟩
        intro root p c hs hc
        have h8 := stuckAt_cast (t := t) h5 root _ c (.left hs) hc
        unfold evalM
        cases o
        case eq | ne =>
          subst hop
          dsimp only
          rw [h8, rtAt_bind, dynCheckM_stuck]
          rfl
        all_goals
          subst hop
          dsimp only
          rw [toIntM_stuck h8, rtAt_annotate _ h4, rtAt_bind, dynCheckM_stuck]
          simp [within]

end P4C
