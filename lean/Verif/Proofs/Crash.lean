import Verif.Proofs.EntryReport2
import Verif.Proofs.Violation
import Verif.Spec.Crash
import Verif.Proofs.QuoteAny
/-!
# When judging an entry crashes
-/
namespace P4C
open Spec MRes

section
variable {x : EntryTexts} {sys : Sys} {k : ConstraintKind} {src : ConstraintSource} {sc : Scope} {ctx : EvalCtx} {name : Str}
  {e e' : Expr} {s : SExpr}

/-- Quoting a node crashes if it cannot be quoted. -/
theorem Judged.unquotable (h : Judged sys k src sc ctx name e e' s) {u : Expr} (hu : NodeOf u e) :
    quoteSub src u.start u.stop = .crash ↔ Unquotable src u.start u.stop :=
  nodes_unquotable h.parsed h.set h.line h.col hu hu fun hn => LocLt.le (nested_lt (nested_node hu hn).1)

theorem Judged.rtAt_cases (h : Judged sys k src sc ctx name e e' s) {u : Expr} (hu : NodeOf u e) {text : Str} {α : Type} :
    (∃ c m, (rtAt x ctx u.start u.stop text : MRes α) = .err c m ∧ ¬ Unquotable src u.start u.stop) ∨
    (rtAt x ctx u.start u.stop text : MRes α) = .crash ∧ Unquotable src u.start u.stop := by
  have hq := h.unquotable hu
  unfold rtAt
  rw [h.source]
  rcases quoteSub_total src u.start u.stop with ⟨q, h1⟩ | h1 | h1
  · rw [h1]
    refine .inl ⟨_, _, rfl, fun hc => ?_⟩
    rw [← hq, h1] at hc
    cases hc
  · rw [h1]
    refine .inl ⟨_, _, rfl, fun hc => ?_⟩
    rw [← hq, h1] at hc
    cases hc
  · rw [h1]
    exact .inr ⟨rfl, hq.1 h1⟩

/-- What is quoted is unique. -/
theorem quotedPart_unique {a b a' b' : Loc}
    (h1 : QuotedPart name (sigOf sc) (envOf ctx) e a b) (h2 : QuotedPart name (sigOf sc) (envOf ctx) e a' b') : a = a' ∧ b = b' := by
  cases h1 with
  | stuck h1 =>
    cases h2 with
    | stuck h2 => obtain ⟨rfl, rfl, _⟩ := stuck_unique h1 h2; exact ⟨rfl, rfl⟩
    | operand h2 | violation h2 => exact (stuck_not_valued h1 h2).elim
  | operand hv h1 =>
    cases h2 with
    | stuck h2 => exact (stuck_not_valued h2 hv).elim
    | operand _ h2 => cases unexplained_unique h1 h2; exact ⟨rfl, rfl⟩
    | violation _ h2 => exact (unexplained_not_explained h1 h2).elim
  | violation hv h1 =>
    cases h2 with
    | stuck h2 => exact (stuck_not_valued h2 hv).elim
    | operand _ h2 => exact (unexplained_not_explained h2 h1).elim
    | violation _ h2 => rw [explained_unique h1 h2]; exact ⟨rfl, rfl⟩

/-- Judging a constraint: either it answers, or it crashes, because what it has to quote cannot be. -/
theorem Judged.cases (h : Judged sys k src sc ctx name e e' s) :
    ((∃ m, judgeM x ctx e' = .ok m) ∨ ∃ c m, judgeM x ctx e' = .err c m) ∧
      (∀ a b, QuotedPart name (sigOf sc) (envOf ctx) e a b → ¬ Unquotable src a b) ∨
    judgeM x ctx e' = .crash ∧ ∃ a b, QuotedPart name (sigOf sc) (envOf ctx) e a b ∧ Unquotable src a b := by
  have only : ∀ {a b}, QuotedPart name (sigOf sc) (envOf ctx) e a b → ¬ Unquotable src a b →
      ∀ a' b', QuotedPart name (sigOf sc) (envOf ctx) e a' b' → ¬ Unquotable src a' b' := by
    intro a b h1 h2 a' b' h3
    obtain ⟨rfl, rfl⟩ := quotedPart_unique h1 h3
    exact h2
  unfold judgeM
  rcases h.outcome (x := x) with ⟨b, hb, hev⟩ | ⟨a, b, text, h1, h2⟩
  · obtain ⟨ec, h1, h2⟩ := toBoolCM_ok (x := x) .root (correct_empty ctx e') hb
    rw [h1, MRes.ok_bind]
    have hval : Valued (sigOf sc) (envOf ctx) e b := ⟨s, h.meant, hev⟩
    cases b with
    | true =>
      refine .inl ⟨.inl ⟨_, rfl⟩, fun a b hq => ?_⟩
      cases hq with
      | stuck h' => exact (stuck_not_valued h' hval).elim
      | operand h' | violation h' => cases valued_det hval h'
    | false =>
      change ((∃ m, explainViolationM x ctx e' ec = .ok m) ∨ ∃ c m, explainViolationM x ctx e' ec = .err c m) ∧ _ ∨
        explainViolationM x ctx e' ec = .crash ∧ _
      have hcs : CachesOk ctx e' (ec, []) := ⟨h2, correct_empty_sizes e'⟩
      unfold explainViolationM
      rcases search_outcome (x := x) (root := e') h.provides h.widths h.named h.noBool h.bare h.typed h.meant
        (infer_boolShape h.noBool h.typed h.boolean) hb (p := []) (cs := (ec, [])) .root hcs with ⟨⟨n, cs⟩, hr⟩ | ⟨f, g1, g2⟩
      · obtain ⟨k1, k2, k3, k4⟩ := minimalSubM_agrees .root hcs hr
        dsimp only at k1 k2 k3 k4
        obtain ⟨y, hy, hy'⟩ := (minP_explained h.provides h.widths h.named (fun h' => (h.bare h').1) h.noBool h.typed h.meant
          h.boolean [] n.1).1 ⟨n.2, k1⟩
        obtain ⟨v, hv'⟩ := justifies_val (minP_best e' [] n k1).1 hb
        obtain ⟨m', h5, _⟩ := toBoolCM_ok (x := x) k3 k2.1 hv'
        obtain ⟨h8, h9⟩ := infer_span hy'
        have hnode := skeleton_node hy.skeleton
        have hu := h.unquotable hnode
        rw [hr, MRes.ok_bind]
        dsimp only
        rw [h5, MRes.ok_bind]
        dsimp only
        rw [h.source, h8, h9]
        rcases quoteSub_total src y.start y.stop with ⟨q, hq⟩ | hq | hq
        · rw [hq]
          refine .inl ⟨.inl ⟨_, rfl⟩, only (.violation hval hy) fun hc => ?_⟩
          rw [← hu, hq] at hc
          cases hc
        · rw [hq]
          refine .inl ⟨.inr ⟨_, _, rfl⟩, only (.violation hval hy) fun hc => ?_⟩
          rw [← hu, hq] at hc
          cases hc
        · rw [hq]
          exact .inr ⟨rfl, _, _, .violation hval hy, hu.1 hq⟩
      · rw [g2, blamed_bind]
        cases f with
        | place a b text =>
          obtain ⟨u, hu, rfl, rfl⟩ := unexplained_node g1
          rcases h.rtAt_cases (x := x) hu (text := text) (α := Str) with ⟨c, m, e1, e2⟩ | ⟨e1, e2⟩
          · exact .inl ⟨.inr ⟨c, m, e1⟩, only (.operand hval g1) e2⟩
          · exact .inr ⟨e1, _, _, .operand hval g1, e2⟩
        | param i n =>
          refine .inl ⟨.inr ⟨_, _, rfl⟩, fun a b hq => ?_⟩
          cases hq with
          | stuck h' => exact (stuck_not_valued h' hval).elim
          | operand _ h' => cases unexplained_unique g1 h'
          | violation _ h' => exact (unexplained_not_explained g1 h').elim
  · rw [toBoolCM_stuck .root (correct_empty ctx e') h2, rtAt_bind]
    obtain ⟨u, hu, rfl, rfl⟩ := stuck_node h1
    rcases h.rtAt_cases (x := x) hu (text := text) (α := Str) with ⟨c, m, e1, e2⟩ | ⟨e1, e2⟩
    · exact .inl ⟨.inr ⟨c, m, e1⟩, only (.stuck h1) e2⟩
    · exact .inr ⟨e1, _, _, .stuck h1, e2⟩

end

/-! ### Entries -/

/-- The function returns. -/
def Answers {α : Type} (r : MRes α) : Prop := (∃ a, r = .ok a) ∨ ∃ c m, r = .err c m

theorem Answers.bind {α β : Type} {r : MRes α} {f : α → MRes β} (h : Answers r) (hf : ∀ a, Answers (f a)) :
    Answers (r >>= f) := by
  rcases h with ⟨a, rfl⟩ | ⟨c, m, rfl⟩
  · exact hf a
  · exact .inr ⟨c, m, rfl⟩

theorem Answers.annotate {α : Type} {t : Str} {r : MRes α} (h : Answers r) : Answers (r.annotate t) := by
  rcases h with ⟨a, rfl⟩ | ⟨c, m, rfl⟩
  · exact .inl ⟨a, rfl⟩
  · exact .inr ⟨c, _, rfl⟩

theorem Answers.ok {α : Type} (a : α) : Answers (MRes.ok a) := .inl ⟨a, rfl⟩

theorem Answers.err {α : Type} (c : Code) (m : Str) : Answers (MRes.err c m : MRes α) := .inr ⟨c, m, rfl⟩

theorem maxValue_answers (w : Nat) : Answers (MRes.ofRes [] (maxValueForBitwidth w)) := by
  rw [(maxValue_ok (w := w)).2 ⟨by omega, rfl⟩]
  exact .ok _

theorem parseTableEntryM_answers {x : EntryTexts} {entry : RtEntry} {ti : TableInfo} {vs : List VarInfo}
    (hm : Maps vs ti.keysById ti.keysByName) (hk : ∀ ki ∈ vs, MatchKind ki.ty ∨ ∃ k, ki.ty = .unsupported k) :
    Answers (parseTableEntryM x entry ti) := by
  have key : ∀ fm, Answers (parseKeyM x fm ti) := by
    intro fm
    unfold parseKeyM
    dsimp only
    cases hl : lookup fm.fieldId ti.keysById with
    | none => exact .err _ _
    | some ki =>
      obtain ⟨h1, _⟩ := (hm.byId _ _).1 (lookup_some_mem hl)
      dsimp only
      generalize fm.val = v
      rcases hk ki h1 with h2 | ⟨k, h2⟩
      · generalize ki.ty = t at h2
        cases h2 <;> cases v <;> dsimp only <;>
          first | exact .ok _ | exact .err _ _ | exact (maxValue_answers _).bind fun _ => .ok _
      · rw [h2]
        cases v <;> exact .err _ _
  have matches_ : ∀ fms keys, Answers (parseMatchesM x ti keys fms) := by
    intro fms
    induction fms with
    | nil => exact fun keys => .ok _
    | cons fm fms ih =>
      intro keys
      unfold parseMatchesM
      refine (key fm).bind fun ⟨n, v⟩ => ?_
      dsimp only
      split
      · exact .err _ _
      · exact ih _
  have defaults : ∀ (ks : List (Str × VarInfo)), (∀ k ∈ ks, k.2 ∈ vs) → ∀ keys, Answers (addDefaultsM x keys ks) := by
    intro ks
    induction ks with
    | nil => exact fun _ keys => .ok _
    | cons k ks ih =>
      intro hks keys
      obtain ⟨n, ki⟩ := k
      have hks' : ∀ k ∈ ks, k.2 ∈ vs := fun k h => hks k (by simp [h])
      unfold addDefaultsM
      split
      · exact ih hks' _
      · refine Answers.bind ?_ fun v => ih hks' _
        unfold defaultValueM
        rcases hk ki (hks (n, ki) (by simp)) with h2 | ⟨k, h2⟩
        · generalize ki.ty = t at h2
          cases h2 <;> dsimp only <;>
            first | exact .ok _ | exact .err _ _ | exact (maxValue_answers _).bind fun _ => .ok _
        · rw [h2]
          exact .err _ _
  unfold parseTableEntryM
  exact (matches_ _ _).bind fun keys => (defaults _ (fun k h => ((hm.byName _ _).1 h).1) _).bind fun _ => .ok _

section
variable {x : EntryTexts} {sys : Sys} {d : TableDecl} {ti : TableInfo} (h : parseTableInfo sys d = .ok ti)
  (hw : ∀ f ∈ d.matchFields, 0 ≤ f.bitwidth)
  {entry : RtEntry}

include h hw in
theorem tableReasonM_cases : Answers (tableReasonM x entry ti) ∨
    tableReasonM x entry ti = .crash ∧ TableCrash sys.inetPton6 d entry := by
  unfold tableReasonM
  cases hc : ti.constraint with
  | none => exact .inl (.ok _)
  | some k =>
    dsimp only
    obtain ⟨vs, e, s, r⟩ := table_read h hc
    by_cases hb : k.ty = .boolean
    · have hread := r.read
      rw [hb] at hread
      rw [checkConstraintM_eq hb]
      rcases parseTableEntryM_answers (x := x) (entry := entry) r.maps (keyDecl_kind r.keys hw) with ⟨ctx, hp⟩ | ⟨c, m, hp⟩
      · rw [hp]
        rw [erased, erase_parseTableEntry] at hp
        obtain ⟨hj, hfit, hmean⟩ := r.judged h hb hw hp
        change Answers (judgeM x ctx k) ∨ judgeM x ctx k = .crash ∧ _
        rcases hj.cases (x := x) with ⟨h1, _⟩ | ⟨h1, a, b, h2, h3⟩
        · exact .inl h1
        · rw [sig_keys r.maps] at h2
          exact .inr ⟨h1, vs, _, e, s, _, a, b, r.keys, hread, hfit, hmean, h2, h3⟩
      · rw [hp]
        exact .inl (.inr ⟨_, _, rfl⟩)
    · unfold checkConstraintM
      rw [if_pos (by simpa using hb)]
      exact .inl (.err _ _)

include h hw in
theorem tableCrash_crash (hf : TableCrash sys.inetPton6 d entry) : tableReasonM x entry ti = .crash := by
  obtain ⟨vs, src, e, s, ρ, a, b, h1, h2, h3, h4, h5, h6⟩ := hf
  obtain ⟨c', ctx, sc, g1, g2, g3, g4⟩ := tableReasonM_judged (x := x) h hw h1 h2 h3 h4
  rw [← g2, ← g3] at h5
  rw [g4]
  rcases g1.cases (x := x) with ⟨_, k1⟩ | ⟨k1, _⟩
  · exact (k1 a b h5 h6).elim
  · exact k1

theorem tablePasses_iff {pton : Str → Option Bytes} :
    TablePasses pton d entry ↔ Attached .table d.preamble none ∨ TableValue pton d entry true := by
  constructor
  · intro h
    cases h with
    | unconstrained h => exact .inl h
    | satisfied h1 h2 h3 h4 h5 => exact .inr ⟨_, _, _, _, _, h1, h2, h3, h4, h5⟩
  · rintro (h | ⟨_, _, _, _, _, h1, h2, h3, h4, h5⟩)
    · exact .unconstrained h
    · exact .satisfied h1 h2 h3 h4 h5

end

section
variable {x : EntryTexts} {sys : Sys} {d : ActionDecl} {ai : ActionInfo} (h : parseActionInfo sys d = .ok ai)
  (hw : ∀ f ∈ d.params, 0 ≤ f.bitwidth)
  {a : RtAction}

include h hw in
theorem actionReasonM_cases : Answers (actionReasonM x a ai) ∨
    actionReasonM x a ai = .crash ∧ ActionCrash sys.inetPton6 d a := by
  unfold actionReasonM
  cases hc : ai.constraint with
  | none => exact .inl (.ok _)
  | some k =>
    dsimp only
    obtain ⟨vs, e, s, r⟩ := action_read h hc
    by_cases hb : k.ty = .boolean
    · have hread := r.read
      rw [hb] at hread
      rw [checkConstraintM_eq hb]
      rcases parseActionM_outcome (a := a) r.distinct r.maps with ⟨text, hp, _⟩ | ⟨ctx, hp, _⟩
      · rw [hp]
        exact .inl (.inr ⟨_, _, rfl⟩)
      · rw [hp]
        obtain ⟨hj, hfit, hmean⟩ := r.judged h hb hw hp
        change Answers (judgeM x ctx k) ∨ judgeM x ctx k = .crash ∧ _
        rcases hj.cases (x := x) with ⟨h1, _⟩ | ⟨h1, b, b', h2, h3⟩
        · exact .inl h1
        · rw [sig_params r.maps] at h2
          exact .inr ⟨h1, vs, _, e, s, _, b, b', r.params, hread, hfit, hmean, h2, h3⟩
    · unfold checkConstraintM
      rw [if_pos (by simpa using hb)]
      exact .inl (.err _ _)

include h hw in
theorem actionCrash_crash (hf : ActionCrash sys.inetPton6 d a) : actionReasonM x a ai = .crash := by
  obtain ⟨vs, src, e, s, ρ, b, b', h1, h2, h3, h4, h5, h6⟩ := hf
  obtain ⟨c', ctx, sc, g1, g2, g3, g4⟩ := actionReasonM_judged (x := x) h hw h1 h2 h3 h4
  rw [← g2, ← g3] at h5
  rw [g4]
  rcases g1.cases (x := x) with ⟨_, k1⟩ | ⟨k1, _⟩
  · exact (k1 b b' h5 h6).elim
  · exact k1

end

section
variable {x : EntryTexts} {sys : Sys} {p : P4Info} {ci : ConstraintInfo} (h : p4ToConstraintInfo sys p = .ok ci)
  (hw : NonNegProgram p)

include h hw in
theorem reasonActionM_accepts {a : RtAction} : reasonActionM x a ci = .ok [] ↔ ActionAccepted sys.inetPton6 p a := by
  rw [erased, erase_reasonAction, reasonAction_accepts h hw]

include h hw in
theorem reasonActionM_cases (a : RtAction) : Answers (reasonActionM x a ci) ∨
    reasonActionM x a ci = .crash ∧ ∃ d ∈ p.actions, d.preamble.id = a.actionId ∧ ActionCrash sys.inetPton6 d a := by
  cases hl : lookup a.actionId ci.actions with
  | none =>
    unfold reasonActionM getActionInfo
    rw [hl]
    exact .inl (.err _ _)
  | some ai =>
    obtain ⟨d, h1, h2, h3⟩ := (action_of_info h).1 hl
    rw [reasonActionM_found hl]
    exact (actionReasonM_cases h3 (hw.2 d h1)).imp_right fun ⟨h4, h5⟩ => ⟨h4, d, h1, h2, h5⟩

include h hw in
theorem reasonActionSetM_cases : ∀ as : List RtAction, Answers (reasonActionSetM x ci as) ∨
    reasonActionSetM x ci as = .crash ∧ ∃ pre a post, as = pre ++ a :: post ∧
      (∀ b ∈ pre, ActionAccepted sys.inetPton6 p b) ∧
      ∃ d ∈ p.actions, d.preamble.id = a.actionId ∧ ActionCrash sys.inetPton6 d a
  | [] => .inl (.ok _)
  | a :: as => by
    unfold reasonActionSetM
    rcases reasonActionM_cases (x := x) h hw a with (⟨r, hr⟩ | ⟨c, m, hr⟩) | ⟨hr, hd⟩
    · rw [hr, MRes.ok_bind]
      by_cases hn : r = []
      · subst hn
        rw [if_neg (by simp)]
        rcases reasonActionSetM_cases as with h1 | ⟨h1, pre, b, post, rfl, h2, h3⟩
        · exact .inl h1
        · exact .inr ⟨h1, a :: pre, b, post, rfl,
            List.forall_mem_cons.2 ⟨(reasonActionM_accepts h hw).1 hr, h2⟩, h3⟩
      · rw [if_pos hn]
        exact .inl (.ok _)
    · rw [hr]
      exact .inl (.err c m)
    · rw [hr]
      exact .inr ⟨rfl, [], a, as, rfl, by simp, hd⟩

include h hw in
theorem actionsCrash_crash {pre post : List RtAction} {a : RtAction} (hpre : ∀ b ∈ pre, ActionAccepted sys.inetPton6 p b)
    (hd : ∃ d ∈ p.actions, d.preamble.id = a.actionId ∧ ActionCrash sys.inetPton6 d a) :
    reasonActionM x a ci = .crash ∧ reasonActionSetM x ci (pre ++ a :: post) = .crash := by
  have ha : reasonActionM x a ci = .crash := by
    obtain ⟨d, h1, h2, h3⟩ := hd
    obtain ⟨ai, h4, h5⟩ := action_declared h h1
    rw [h2] at h4
    rw [reasonActionM_found h4]
    exact actionCrash_crash h5 (hw.2 d h1) h3
  refine ⟨ha, ?_⟩
  induction pre with
  | nil => rw [List.nil_append, reasonActionSetM, ha]; rfl
  | cons b pre ih =>
    rw [List.cons_append, reasonActionSetM, (reasonActionM_accepts h hw).2 (hpre b (by simp)), MRes.ok_bind,
      if_neg (by simp)]
    exact ih fun b hb => hpre b (by simp [hb])

include h hw in
theorem reasonM_cases (entry : RtEntry) : Answers (reasonEntryViolatesConstraintM x entry ci) ∨
    reasonEntryViolatesConstraintM x entry ci = .crash ∧ EntryCrash sys.inetPton6 p entry := by
  cases hl : lookup entry.tableId ci.tables with
  | none =>
    unfold reasonEntryViolatesConstraintM getTableInfo
    rw [hl]
    exact .inl (.err _ _)
  | some ti =>
    obtain ⟨d, h1, h2, h3⟩ := (table_of_info h).1 hl
    rw [reasonM_found hl]
    rcases tableReasonM_cases (x := x) (entry := entry) h3 (hw.1 d h1) with (⟨r, hr⟩ | ⟨c, m, hr⟩) | ⟨hr, hd⟩
    · rw [hr, MRes.ok_bind]
      by_cases hn : r = []
      · subst hn
        rw [if_neg (by simp)]
        have hpass := tablePasses_iff.1 (tableReasonM_nil h3 (hw.1 d h1) hr)
        unfold reasonTableActionM
        cases ha : entry.action with
        | none => exact .inl (.ok _)
        | some ta =>
          cases ta with
          | action a =>
            rcases reasonActionM_cases (x := x) h hw a with h4 | ⟨h4, h5⟩
            · exact .inl h4
            · exact .inr ⟨h4, d, h1, h2, .inr ⟨hpass, [], a, [], by rw [ha]; rfl, by simp, h5⟩⟩
          | memberId n | groupId n | notSet => exact .inl (.err _ _)
          | actionSet as =>
            rcases reasonActionSetM_cases (x := x) h hw as with h4 | ⟨h4, pre, a, post, rfl, h5, h6⟩
            · exact .inl h4
            · exact .inr ⟨h4, d, h1, h2, .inr ⟨hpass, pre, a, post, by rw [ha]; rfl, h5, h6⟩⟩
      · rw [if_pos hn]
        exact .inl (.ok _)
    · rw [hr]
      exact .inl (.err c m)
    · rw [hr]
      exact .inr ⟨rfl, d, h1, h2, .inl hd⟩

include h hw in
theorem entryCrash_crash {entry : RtEntry} (hf : EntryCrash sys.inetPton6 p entry) :
    reasonEntryViolatesConstraintM x entry ci = .crash := by
  obtain ⟨d, h1, h2, hf⟩ := hf
  obtain ⟨ti, g1, g2⟩ := table_declared h h1
  rw [h2] at g1
  rw [reasonM_found g1]
  rcases hf with hf | ⟨hpass, pre, a, post, has, hpre, hd⟩
  · rw [tableCrash_crash g2 (hw.1 d h1) hf]
    rfl
  · rw [tableReasonM_ok g2 (hw.1 d h1) (tablePasses_iff.2 hpass), MRes.ok_bind, if_neg (by simp)]
    obtain ⟨k1, k2⟩ := actionsCrash_crash (x := x) (post := post) h hw hpre hd
    unfold reasonTableActionM
    cases hact : entry.action with
    | none => rw [hact] at has; cases pre <;> cases has
    | some ta =>
      rw [hact] at has
      cases ta with
      | action b =>
        simp only [actionsOf, Option.some.injEq] at has
        cases pre with
        | nil => cases has; exact k1
        | cons b' pre =>
          simp only [List.cons_append, List.cons.injEq] at has
          have := congrArg List.length has.2
          simp at this
      | actionSet as => cases has; exact k2
      | _ => cases has

end

/-! ### Errors -/

section
variable {x : EntryTexts} {sys : Sys} {d : TableDecl} {ti : TableInfo} (h : parseTableInfo sys d = .ok ti)
  (hw : ∀ f ∈ d.matchFields, 0 ≤ f.bitwidth)
  {entry : RtEntry}

include h hw in
theorem tableError_err {c : Code} {text : Str} (hf : TableError x sys.inetPton6 d entry c text) :
    ∃ c' m, tableReasonM x entry ti = .err c' m := by
  rcases tableReasonM_cases (x := x) (entry := entry) h hw with (⟨r, hr⟩ | he) | ⟨hr, vs, src, e, s, ρ, a, b, h1, h2, h3, h4, h5, h6⟩
  · exact (tableError_not_ok h hw hf hr).elim
  · exact he
  · exfalso
    cases hf with
    | nonBoolean g1 g2 g3 g4 =>
      cases each_unique (R := KeyDecl) (fun _ _ _ => keyDecl_unique) h1 g1
      cases readConstraint_unique h2 g2
      exact g3 rfl
    | entry g1 g2 g3 =>
      cases each_unique (R := KeyDecl) (fun _ _ _ => keyDecl_unique) h1 g1
      obtain ⟨vs', k1, k2, _⟩ := parseTableInfo_parts h
      cases each_unique (R := KeyDecl) (fun _ _ _ => keyDecl_unique) h1 k1
      exact matchesFault_not_fits k2 g3 h3
    | judge g1 g2 g3 g4 g5 =>
      have := tableReasonM_fault h hw g1 g2 g3 g4 g5
      rw [hr] at this
      cases this

end

section
variable {x : EntryTexts} {sys : Sys} {d : ActionDecl} {ai : ActionInfo} (h : parseActionInfo sys d = .ok ai)
  (hw : ∀ f ∈ d.params, 0 ≤ f.bitwidth)
  {a : RtAction}

include h hw in
theorem actionError_err {c : Code} {text : Str} (hf : ActionError x sys.inetPton6 d a c text) :
    ∃ c' m, actionReasonM x a ai = .err c' m := by
  rcases actionReasonM_cases (x := x) (a := a) h hw with (⟨r, hr⟩ | he) | ⟨hr, vs, src, e, s, ρ, b, b', h1, h2, h3, h4, h5, h6⟩
  · exact (actionError_not_ok h hw hf hr).elim
  · exact he
  · exfalso
    cases hf with
    | nonBoolean g1 g2 g3 g4 =>
      cases each_unique (R := ParamIs) (fun _ _ _ => paramIs_unique) h1 g1
      cases readConstraint_unique h2 g2
      exact g3 rfl
    | entry g1 g2 g3 =>
      cases each_unique (R := ParamIs) (fun _ _ _ => paramIs_unique) h1 g1
      exact argsFault_not_fits g3 h3
    | judge g1 g2 g3 g4 g5 =>
      have := actionReasonM_fault h hw g1 g2 g3 g4 g5
      rw [hr] at this
      cases this

theorem actionPasses_iff {pton : Str → Option Bytes} :
    ActionPasses pton d a ↔ Attached .action d.preamble none ∨ ActionValue pton d a true := by
  constructor
  · intro h
    cases h with
    | unconstrained h => exact .inl h
    | satisfied h1 h2 h3 h4 h5 => exact .inr ⟨_, _, _, _, _, h1, h2, h3, h4, h5⟩
  · rintro (h | ⟨_, _, _, _, _, h1, h2, h3, h4, h5⟩)
    · exact .unconstrained h
    · exact .satisfied h1 h2 h3 h4 h5

end

section
variable {x : EntryTexts} {sys : Sys} {p : P4Info} {ci : ConstraintInfo} (h : p4ToConstraintInfo sys p = .ok ci)
  (hw : NonNegProgram p)

include h hw in
theorem actionsError_err {as : List RtAction} {c : Code} {text : Str} (hf : ActionsError x sys.inetPton6 p as c text) :
    (∃ c' m, reasonActionSetM x ci as = .err c' m) ∧ ∀ a, as = [a] → ∃ c' m, reasonActionM x a ci = .err c' m := by
  have key : ∀ {pre post : List RtAction} {a : RtAction},
      (∀ b ∈ pre, ∃ d ∈ p.actions, d.preamble.id = b.actionId ∧ ActionPasses sys.inetPton6 d b) →
      (∃ c m, reasonActionM x a ci = .err c m) → (∃ c' m, reasonActionSetM x ci (pre ++ a :: post) = .err c' m) ∧
        ∀ b, pre ++ a :: post = [b] → ∃ c' m, reasonActionM x b ci = .err c' m := by
    intro pre post a hpre ⟨c, m, ha⟩
    constructor
    · induction pre with
      | nil => exact ⟨c, m, by rw [List.nil_append, reasonActionSetM, ha]; rfl⟩
      | cons b pre ih =>
        obtain ⟨c', m', hi⟩ := ih fun b hb => hpre b (by simp [hb])
        obtain ⟨d, h1, h2, h3⟩ := hpre b (by simp)
        have := (reasonActionM_accepts (x := x) h hw).2 ⟨d, h1, h2, actionPasses_iff.1 h3⟩
        exact ⟨c', m', by rw [List.cons_append, reasonActionSetM, this, MRes.ok_bind, if_neg (by simp)]; exact hi⟩
    · intro b hb
      cases pre with
      | nil => cases hb; exact ⟨c, m, ha⟩
      | cons b' pre =>
        simp only [List.cons_append, List.cons.injEq] at hb
        have := congrArg List.length hb.2
        simp at this
  cases hf with
  | @unknown pre post a s h1 h2 h3 =>
    refine key h1 ?_
    cases hl : lookup a.actionId ci.actions with
    | none =>
      unfold reasonActionM getActionInfo
      rw [hl]
      exact ⟨_, _, rfl⟩
    | some ai =>
      obtain ⟨d, g1, g2, _⟩ := (action_of_info h).1 hl
      exact (h2 d g1 g2).elim
  | @error pre post a d c' text h1 h2 h3 h4 =>
    refine key h1 ?_
    obtain ⟨ai, g1, g2⟩ := action_declared h h2
    rw [h3] at g1
    rw [reasonActionM_found g1]
    exact actionError_err g2 (hw.2 d h2) h4

include h hw in
theorem entryError_err {entry : RtEntry} {c : Code} {text : Str} (hf : EntryError x sys.inetPton6 p entry c text) :
    ∃ c' m, reasonEntryViolatesConstraintM x entry ci = .err c' m := by
  have key : ∀ {d : TableDecl}, d ∈ p.tables → d.preamble.id = entry.tableId → TablePasses sys.inetPton6 d entry →
      (∃ c' m, reasonTableActionM x ci entry = .err c' m) → ∃ c' m, reasonEntryViolatesConstraintM x entry ci = .err c' m := by
    intro d h1 h2 hp h3
    obtain ⟨ti, g1, g2⟩ := table_declared h h1
    rw [h2] at g1
    rw [reasonM_found g1, tableReasonM_ok g2 (hw.1 d h1) hp, MRes.ok_bind, if_neg (by simp)]
    exact h3
  cases hf with
  | unknown h1 h2 =>
    cases hl : lookup entry.tableId ci.tables with
    | none =>
      unfold reasonEntryViolatesConstraintM getTableInfo
      rw [hl]
      exact ⟨_, _, rfl⟩
    | some ti =>
      obtain ⟨d, g1, g2, _⟩ := (table_of_info h).1 hl
      exact (h1 d g1 g2).elim
  | @table d c' text h1 h2 h3 =>
    obtain ⟨ti, g1, g2⟩ := table_declared h h1
    rw [h2] at g1
    obtain ⟨c'', m, hm⟩ := tableError_err g2 (hw.1 d h1) h3
    rw [reasonM_found g1, hm]
    exact ⟨_, _, rfl⟩
  | reference h1 h2 h3 h4 =>
    refine key h1 h2 h3 ?_
    unfold reasonTableActionM
    rcases h4 with h4 | h4 <;> rw [h4] <;> exact ⟨_, _, rfl⟩
  | empty h1 h2 h3 h4 =>
    refine key h1 h2 h3 ?_
    unfold reasonTableActionM
    rw [h4]
    exact ⟨_, _, rfl⟩
  | @actions d as c' text h1 h2 h3 h4 h5 =>
    refine key h1 h2 h3 ?_
    obtain ⟨k1, k2⟩ := actionsError_err h hw h5
    unfold reasonTableActionM
    cases ha : entry.action with
    | none =>
      rw [ha] at h4
      cases h4
      generalize hn : ([] : List RtAction) = as at h5
      cases h5 <;> simp at hn
    | some ta =>
      rw [ha] at h4
      cases ta with
      | action a => cases h4; exact k2 a rfl
      | actionSet as => cases h4; exact k1
      | _ => cases h4

end

/-! ### Constraints on one line -/

/-- If the text has no line break, the nodes of the constraint are on one line. -/
theorem node_onLine {sys : Sys} {k : ConstraintKind} {src : ConstraintSource} {e u : Expr}
    (hp : parseConstraint sys k src = .ok e) (hn : '\n' ∉ src.str ∧ '\r' ∉ src.str) (hu : NodeOf u e) :
    u.start.line = src.loc.line ∧ u.stop.line = src.loc.line := by
  obtain ⟨toks, last, h1, h2, h3⟩ := parseConstraint_split.1 hp
  obtain ⟨toks', last', h4, h5, _, h6⟩ := lexed_ordered (tokenize_lexed src)
  rw [h1] at h4
  obtain ⟨rfl, _⟩ := List.append_inj' h4 rfl
  have hcr : CrLf src.str := fun a b h => (hn.2 (by rw [h]; simp)).elim
  have hpl := lexed_placed (tokenize_lexed src) hcr
  have key : ∀ t ∈ toks, t.start.line = src.loc.line ∧ t.stop.line = src.loc.line := by
    intro t ht
    obtain ⟨p1, p2, p3, p4, p5, p6, p7⟩ := hpl t (by rw [h1]; simp [ht])
    obtain ⟨a, b, hab, _, hle⟩ := p7 (fun he => by
      have := h5.1 t ht
      unfold LocLt at this
      rw [he] at this
      omega)
    have : a.count '\n' = 0 := by
      rw [List.count_eq_zero]
      intro hm
      exact hn.1 (by rw [hab]; simp [hm])
    omega
  obtain ⟨⟨t, ht, hts⟩, w, hw, hws⟩ := G_ends h3 u hu
  rw [hts, hws]
  exact ⟨(key t ht).1, (key w hw).2⟩

theorem node_oneLine {sys : Sys} {k : ConstraintKind} {src : ConstraintSource} {e u : Expr}
    (hp : parseConstraint sys k src = .ok e) (hn : '\n' ∉ src.str ∧ '\r' ∉ src.str) (hu : NodeOf u e) :
    u.start.line = u.stop.line := by
  obtain ⟨h1, h2⟩ := node_onLine hp hn hu
  rw [h1, h2]

theorem quotedPart_node {name : Str} {Γ : Sig} {ρ : Env} {e : Expr} {a b : Loc} (h : QuotedPart name Γ ρ e a b) :
    ∃ u, NodeOf u e ∧ a = u.start ∧ b = u.stop := by
  cases h with
  | stuck h => exact stuck_node h
  | operand _ h => exact unexplained_node h
  | violation _ h => exact ⟨_, skeleton_node h.skeleton, rfl, rfl⟩

theorem oneLine_quotable {pton : Str → Option Bytes} {k : ConstraintKind} {Γ : Sig} {p : Preamble} {src : ConstraintSource}
    {e : Expr} {s : SExpr} {t : Ty} (hr : ReadConstraint pton k Γ p (some (src, e, s, t)))
    (hn : '\n' ∉ src.str ∧ '\r' ∉ src.str) {name : Str} {Γ' : Sig} {ρ : Env} {a b : Loc} (hq : QuotedPart name Γ' ρ e a b) :
    ¬ Unquotable src a b := by
  obtain ⟨u, hu, rfl, rfl⟩ := quotedPart_node hq
  cases hr with
  | some h1 h2 h3 h4 h5 =>
    rw [← tokenize_iff] at h2
    subst h2
    rw [show pton = (⟨pton⟩ : Sys).inetPton6 from rfl, ← parseConstraint_iff] at h3
    exact fun h => h.1 (node_oneLine h3 hn hu)

theorem oneLine_no_crash {pton : Str → Option Bytes} {p : P4Info} (hn : OneLineProgram p)
    (entry : RtEntry) : ¬ EntryCrash pton p entry := by
  rintro ⟨d, h1, h2, ⟨vs, src, e, s, ρ, a, b, _, k2, _, _, k5, k6⟩ | ⟨_, pre, i, post, _, _, da, h3, h4,
    vs, src, e, s, ρ, a, b, _, k2, _, _, k5, k6⟩⟩
  · have ha : Attached .table d.preamble (some src) := by cases k2; assumption
    exact oneLine_quotable k2 (hn.1 d h1 src ha) k5 k6
  · have ha : Attached .action da.preamble (some src) := by cases k2; assumption
    exact oneLine_quotable k2 (hn.2 da h3 src ha) k5 k6

end P4C
