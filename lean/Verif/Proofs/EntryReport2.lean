import Verif.Proofs.EntryReport

/-
The error about a constraint that cannot be judged is determined by the constraint and the entry.
-/

namespace P4C

open Spec

theorem readConstraint_attached {pton : Str → Option Bytes} {k : ConstraintKind} {Γ : Sig} {p : Preamble}
    {src : ConstraintSource} {e : Expr} {s : SExpr} {t : Ty} (h : ReadConstraint pton k Γ p (some (src, e, s, t))) :
    Attached k p (some src) := by
  cases h
  assumption

theorem Judged.passes {x : EntryTexts} {sys : Sys} {k : ConstraintKind} {src : ConstraintSource} {sc : Scope} {ctx : EvalCtx}
    {name : Str} {e e' : Expr} {s : SExpr} (h : Judged sys k src sc ctx name e e' s)
    (hev : Evaluates (sigOf sc) (envOf ctx) s .boolean (.bool true)) : judgeM x ctx e' = .ok [] := by
  rcases h.outcome (x := x) with ⟨b, hb, hev'⟩ | ⟨a, b, text, h1, _⟩
  · have := (evaluates_unique hev hev').2
    simp at this
    subst this
    obtain ⟨ec, h1, h2⟩ := toBoolCM_ok (x := x) .root (correct_empty ctx e') hb
    unfold judgeM
    rw [h1, MRes.ok_bind]
    rfl
  · exact (stuck_no_value h1 h.meant hev).elim

section
variable {x : EntryTexts} {sys : Sys} {d : TableDecl} {ti : TableInfo} (h : parseTableInfo sys d = .ok ti)
  (hw : ∀ f ∈ d.matchFields, 0 ≤ f.bitwidth)
  {entry : RtEntry}

include h hw in
/-- The check of an entry that fits the table. -/
theorem tableReasonM_judged {vs : List VarInfo} {src : ConstraintSource} {e : Expr} {s : SExpr} {ρ : Env}
    (hk : Each KeyDecl d.matchFields vs) (hr : ReadConstraint sys.inetPton6 .table (keySig vs) d.preamble (some (src, e, s, .boolean)))
    (hf : EntryFits vs entry) (hm : EntryMeans vs entry ρ) : ∃ (c : Expr) (ctx : EvalCtx) (sc : Scope),
    Judged sys .table src sc ctx d.preamble.name e c s ∧ sigOf sc = keySig vs ∧ envOf ctx = ρ ∧
      tableReasonM x entry ti = judgeM x ctx c := by
  have hwf := parseTableInfo_wf h
  unfold tableReasonM
  cases hc : ti.constraint with
  | none =>
    obtain ⟨vs, _, _, _, h4⟩ := parseTableInfo_parts h
    rw [hc] at h4
    have ha := parseAndCheck_none h4
    cases hr with
    | some h1 => cases attached_unique ha h1
  | some k =>
    obtain ⟨vs', e', s', r⟩ := table_read h hc
    cases each_unique (R := KeyDecl) (fun _ _ _ => keyDecl_unique) r.keys hk
    have hu := readConstraint_unique r.read hr
    simp only [Option.some.injEq, Prod.mk.injEq] at hu
    obtain ⟨rfl, rfl, rfl, hb⟩ := hu
    obtain ⟨ctx, hp⟩ := (parseTableEntry_iff hwf entry).2 ((entryOk_fits r.maps).2 hf)
    obtain ⟨hj, _, hmean⟩ := r.judged h hb hw hp
    refine ⟨k, ctx, _, hj, sig_keys r.maps, entryEnv_unique ((entryEnv_means r.maps).2 hmean) ((entryEnv_means r.maps).2 hm), ?_⟩
    dsimp only
    rw [checkConstraintM_eq hb]
    have hp' : parseTableEntryM x entry ti = .ok ctx := by rw [erased, erase_parseTableEntry]; exact hp
    rw [hp']
    rfl

include h hw in
theorem tableReasonM_fault {vs : List VarInfo} {src : ConstraintSource} {e : Expr} {s : SExpr} {ρ : Env} {c : Code} {m : Str}
    (hk : Each KeyDecl d.matchFields vs) (hr : ReadConstraint sys.inetPton6 .table (keySig vs) d.preamble (some (src, e, s, .boolean)))
    (hf : EntryFits vs entry) (hm : EntryMeans vs entry ρ) (hj : JudgeFault x d.preamble.name src (keySig vs) ρ e c m) :
    tableReasonM x entry ti = .err c m := by
  obtain ⟨c', ctx, sc, h1, h2, h3, h4⟩ := tableReasonM_judged (x := x) h hw hk hr hf hm
  rw [h4]
  rw [← h2, ← h3] at hj
  exact h1.fault_err hj

include h hw in
theorem tableReasonM_ok (hp : TablePasses sys.inetPton6 d entry) : tableReasonM x entry ti = .ok [] := by
  cases hp with
  | unconstrained ha =>
    unfold tableReasonM
    cases hc : ti.constraint with
    | none => rfl
    | some k =>
      obtain ⟨vs', e', s', r⟩ := table_read h hc
      cases attached_unique ha r.attached
  | satisfied hk hr hf hm hev =>
    obtain ⟨c', ctx, sc, h1, h2, h3, h4⟩ := tableReasonM_judged (x := x) h hw hk hr hf hm
    rw [h4]
    rw [← h2, ← h3] at hev
    exact h1.passes hev

end

section
variable {x : EntryTexts} {sys : Sys} {d : ActionDecl} {ai : ActionInfo} (h : parseActionInfo sys d = .ok ai)
  (hw : ∀ f ∈ d.params, 0 ≤ f.bitwidth)
  {a : RtAction}

include h hw in
theorem actionReasonM_judged {vs : List VarInfo} {src : ConstraintSource} {e : Expr} {s : SExpr} {ρ : Env}
    (hk : Each ParamIs d.params vs) (hr : ReadConstraint sys.inetPton6 .action (paramSig vs) d.preamble (some (src, e, s, .boolean)))
    (hf : ArgsFit vs a.params) (hm : ActionMeans vs a ρ) : ∃ (c : Expr) (ctx : EvalCtx) (sc : Scope),
    Judged sys .action src sc ctx d.preamble.name e c s ∧ sigOf sc = paramSig vs ∧ envOf ctx = ρ ∧
      actionReasonM x a ai = judgeM x ctx c := by
  unfold actionReasonM
  cases hc : ai.constraint with
  | none =>
    obtain ⟨vs, _, _, _, h4⟩ := parseActionInfo_parts h
    rw [hc] at h4
    have ha := parseAndCheck_none h4
    cases hr with
    | some h1 => cases attached_unique ha h1
  | some k =>
    obtain ⟨vs', e', s', r⟩ := action_read h hc
    cases each_unique (R := ParamIs) (fun _ _ _ => paramIs_unique) r.params hk
    have hu := readConstraint_unique r.read hr
    simp only [Option.some.injEq, Prod.mk.injEq] at hu
    obtain ⟨rfl, rfl, rfl, hb⟩ := hu
    rcases parseActionM_outcome (a := a) r.distinct r.maps with ⟨text, _, h2⟩ | ⟨ctx, hp, _⟩
    · exact (argsFault_not_fits h2 hf).elim
    · obtain ⟨hj, _, hmean⟩ := r.judged h hb hw hp
      refine ⟨k, ctx, _, hj, sig_params r.maps, actionEnv_unique ((actionEnv_means r.maps).2 hmean) ((actionEnv_means r.maps).2 hm), ?_⟩
      dsimp only
      rw [checkConstraintM_eq hb, hp]
      rfl

include h hw in
theorem actionReasonM_fault {vs : List VarInfo} {src : ConstraintSource} {e : Expr} {s : SExpr} {ρ : Env} {c : Code} {m : Str}
    (hk : Each ParamIs d.params vs) (hr : ReadConstraint sys.inetPton6 .action (paramSig vs) d.preamble (some (src, e, s, .boolean)))
    (hf : ArgsFit vs a.params) (hm : ActionMeans vs a ρ) (hj : JudgeFault x d.preamble.name src (paramSig vs) ρ e c m) :
    actionReasonM x a ai = .err c m := by
  obtain ⟨c', ctx, sc, h1, h2, h3, h4⟩ := actionReasonM_judged (x := x) h hw hk hr hf hm
  rw [h4]
  rw [← h2, ← h3] at hj
  exact h1.fault_err hj

include h hw in
theorem actionReasonM_ok (hp : ActionPasses sys.inetPton6 d a) : actionReasonM x a ai = .ok [] := by
  cases hp with
  | unconstrained ha =>
    unfold actionReasonM
    cases hc : ai.constraint with
    | none => rfl
    | some k =>
      obtain ⟨vs', e', s', r⟩ := action_read h hc
      cases attached_unique ha r.attached
  | satisfied hk hr hf hm hev =>
    obtain ⟨c', ctx, sc, h1, h2, h3, h4⟩ := actionReasonM_judged (x := x) h hw hk hr hf hm
    rw [h4]
    rw [← h2, ← h3] at hev
    exact h1.passes hev

end

section
variable {x : EntryTexts} {sys : Sys} {p : P4Info} {ci : ConstraintInfo} (h : p4ToConstraintInfo sys p = .ok ci)
  (hw : NonNegProgram p)

include h hw in
theorem reasonM_table_fault {entry : RtEntry} {d : TableDecl} {vs : List VarInfo} {src : ConstraintSource} {e : Expr} {s : SExpr}
    {ρ : Env} {c : Code} {m : Str} (hd : d ∈ p.tables) (hid : d.preamble.id = entry.tableId)
    (hk : Each KeyDecl d.matchFields vs) (hr : ReadConstraint sys.inetPton6 .table (keySig vs) d.preamble (some (src, e, s, .boolean)))
    (hf : EntryFits vs entry) (hm : EntryMeans vs entry ρ) (hj : JudgeFault x d.preamble.name src (keySig vs) ρ e c m) :
    reasonEntryViolatesConstraintM x entry ci = .err c m := by
  obtain ⟨ti, g1, g2⟩ := table_declared h hd
  rw [hid] at g1
  rw [reasonM_found g1, tableReasonM_fault g2 (hw.1 d hd) hk hr hf hm hj]
  rfl

include h hw in
theorem reasonM_action_fault {entry : RtEntry} {d : TableDecl} {pre post : List RtAction} {a : RtAction} {da : ActionDecl}
    {vs : List VarInfo} {src : ConstraintSource} {e : Expr} {s : SExpr} {ρ : Env} {c : Code} {m : Str}
    (hd : d ∈ p.tables) (hid : d.preamble.id = entry.tableId) (hpass : TablePasses sys.inetPton6 d entry)
    (has : actionsOf entry.action = some (pre ++ a :: post))
    (hpre : ∀ b ∈ pre, ∃ d ∈ p.actions, d.preamble.id = b.actionId ∧ ActionPasses sys.inetPton6 d b)
    (hda : da ∈ p.actions) (hida : da.preamble.id = a.actionId)
    (hk : Each ParamIs da.params vs) (hr : ReadConstraint sys.inetPton6 .action (paramSig vs) da.preamble (some (src, e, s, .boolean)))
    (hf : ArgsFit vs a.params) (hm : ActionMeans vs a ρ) (hj : JudgeFault x da.preamble.name src (paramSig vs) ρ e c m) :
    reasonEntryViolatesConstraintM x entry ci = .err c m := by
  have ha : reasonActionM x a ci = .err c m := by
    obtain ⟨ai, g1, g2⟩ := action_declared h hda
    rw [hida] at g1
    rw [reasonActionM_found g1]
    exact actionReasonM_fault g2 (hw.2 da hda) hk hr hf hm hj
  have hset : reasonActionSetM x ci (pre ++ a :: post) = .err c m := by
    clear has
    induction pre with
    | nil => rw [List.nil_append, reasonActionSetM, ha]; rfl
    | cons b pre ih =>
      obtain ⟨db, k1, k2, k3⟩ := hpre b (by simp)
      obtain ⟨ai, g1, g2⟩ := action_declared h k1
      rw [k2] at g1
      rw [List.cons_append, reasonActionSetM, reasonActionM_found g1, actionReasonM_ok g2 (hw.2 db k1) k3,
        MRes.ok_bind, if_neg (by simp)]
      exact ih fun b hb => hpre b (by simp [hb])
  obtain ⟨ti, g1, g2⟩ := table_declared h hd
  rw [hid] at g1
  rw [reasonM_found g1, tableReasonM_ok g2 (hw.1 d hd) hpass, MRes.ok_bind, if_neg (by simp)]
  unfold reasonTableActionM
  cases hact : entry.action with
  | none => rw [hact] at has; cases pre <;> cases has
  | some ta =>
    rw [hact] at has
    cases ta with
    | action b =>
      simp only [actionsOf, Option.some.injEq] at has
      cases pre with
      | nil => cases has; exact ha
      | cons b' pre =>
        simp only [List.cons_append, List.cons.injEq] at has
        have := congrArg List.length has.2
        simp at this
    | actionSet as => cases has; exact hset
    | _ => cases has

include h hw in
theorem table_explained_or {d : TableDecl} {entry : RtEntry} {vs : List VarInfo} {src : ConstraintSource} {e : Expr} {s : SExpr}
    {ρ : Env} (hd : d ∈ p.tables) (hk : Each KeyDecl d.matchFields vs)
    (hr : ReadConstraint sys.inetPton6 .table (keySig vs) d.preamble (some (src, e, s, .boolean)))
    (hf : EntryFits vs entry) (hm : EntryMeans vs entry ρ) (hv : Valued (keySig vs) ρ e false) :
    (∃ y, Explained (keySig vs) ρ e y) ∨ ∃ f, Unexplained d.preamble.name (keySig vs) ρ e f := by
  obtain ⟨ti, g1, g2⟩ := table_declared h hd
  have x : EntryTexts := ⟨fun _ _ _ => [], fun _ _ _ => [], fun _ => [], fun _ => [], fun _ => [], fun _ => [], fun _ => [],
    fun _ => [], fun _ => []⟩
  obtain ⟨c', ctx, sc, h1, h2, h3, _⟩ := tableReasonM_judged (x := x) g2 (hw.1 d hd) hk hr hf hm
  rw [← h2, ← h3] at hv ⊢
  exact h1.explained_or hv

include h hw in
theorem action_explained_or {d : ActionDecl} {a : RtAction} {vs : List VarInfo} {src : ConstraintSource} {e : Expr} {s : SExpr}
    {ρ : Env} (hd : d ∈ p.actions) (hk : Each ParamIs d.params vs)
    (hr : ReadConstraint sys.inetPton6 .action (paramSig vs) d.preamble (some (src, e, s, .boolean)))
    (hf : ArgsFit vs a.params) (hm : ActionMeans vs a ρ) (hv : Valued (paramSig vs) ρ e false) :
    (∃ y, Explained (paramSig vs) ρ e y) ∨ ∃ f, Unexplained d.preamble.name (paramSig vs) ρ e f := by
  obtain ⟨ai, g1, g2⟩ := action_declared h hd
  have x : EntryTexts := ⟨fun _ _ _ => [], fun _ _ _ => [], fun _ => [], fun _ => [], fun _ => [], fun _ => [], fun _ => [],
    fun _ => [], fun _ => []⟩
  obtain ⟨c', ctx, sc, h1, h2, h3, _⟩ := actionReasonM_judged (x := x) g2 (hw.2 d hd) hk hr hf hm
  rw [← h2, ← h3] at hv ⊢
  exact h1.explained_or hv

end

end P4C
