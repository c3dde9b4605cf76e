import Verif.Proofs.EntryReport
import Verif.Spec.Accept
/-!
# Which entries are accepted
-/
namespace P4C
open Spec

section
variable {sys : Sys} {d : TableDecl} {ti : TableInfo} (h : parseTableInfo sys d = .ok ti)
  (hw : ∀ f ∈ d.matchFields, 0 ≤ f.bitwidth) {entry : RtEntry}

theorem TableRead.value {vs : List VarInfo} {c e : Expr} {s : SExpr}
    (r : TableRead sys d ti vs c e s) (h : parseTableInfo sys d = .ok ti) (hb : c.ty = .boolean)
    (hw : ∀ f ∈ d.matchFields, 0 ≤ f.bitwidth) {ctx : EvalCtx} (hp : parseTableEntry entry ti = .ok ctx) (b : Bool) :
    (evalBoolP ctx c = .ok b ↔ Evaluates (keySig vs) (envOf ctx) s .boolean (.bool b)) ∧
    EntryFits vs entry ∧ EntryMeans vs entry (envOf ctx) := by
  have hwf := parseTableInfo_wf h
  obtain ⟨henv, hsrc, _⟩ := parseTableEntry_env hwf hp
  have hok := (parseTableEntry_iff hwf entry).1 ⟨ctx, hp⟩
  have hcons := entry_consistent hwf hok henv
  refine ⟨?_, (entryOk_fits r.maps).1 hok, (entryEnv_means r.maps).1 henv⟩
  have := evalBoolP_evaluates (name := []) ⟨fun n t => hcons.1 n t, fun n t z hn => by simp [sigOf] at hn⟩
    (by rw [sig_keys r.maps]; exact keySig_widths r.keys hw) (.inr fun n => rfl) r.typed r.meant hb b
  rw [sig_keys r.maps] at this
  exact this

include h hw in
theorem tableReason_value {m : Str} (he : tableReason entry ti = .ok m) :
    (m = [] → Attached .table d.preamble none ∨ TableValue sys.inetPton6 d entry true) ∧
    (m ≠ [] → TableValue sys.inetPton6 d entry false) := by
  unfold tableReason at he
  cases hc : ti.constraint with
  | none =>
    obtain ⟨vs, h1, h2, h3, h4⟩ := parseTableInfo_parts h
    rw [hc] at h4 he
    cases he
    exact ⟨fun _ => .inl (parseAndCheck_none h4), fun h => (h rfl).elim⟩
  | some k =>
    rw [hc] at he
    dsimp only at he
    obtain ⟨vs, e, s, r⟩ := table_read h hc
    refine ⟨fun hm => ?_, fun hm => ?_⟩
    · subst hm
      obtain ⟨hb, ctx, hp, hv⟩ := checkConstraint_satisfied.1 he
      obtain ⟨h1, h2, h3⟩ := r.value h hb hw hp true
      exact .inr ⟨vs, _, _, _, _, r.keys, hb ▸ r.read, h2, h3, h1.1 hv⟩
    · obtain ⟨hb, ctx, _, hp, hv, _⟩ := checkConstraint_violated hm he
      obtain ⟨h1, h2, h3⟩ := r.value h hb hw hp false
      exact ⟨vs, _, _, _, _, r.keys, hb ▸ r.read, h2, h3, h1.1 hv⟩

include h hw in
theorem tableReason_accepts :
    tableReason entry ti = .ok [] ↔ Attached .table d.preamble none ∨ TableValue sys.inetPton6 d entry true := by
  refine ⟨fun he => (tableReason_value h hw he).1 rfl, fun hp => ?_⟩
  unfold tableReason
  cases hc : ti.constraint with
  | none => rfl
  | some k =>
    dsimp only
    obtain ⟨vs, e, s, r⟩ := table_read h hc
    rcases hp with ha | ⟨vs', src', e', s', ρ', g1, g2, g3, g4, g5⟩
    · cases attached_unique ha r.attached
    · cases each_unique (R := KeyDecl) (fun _ _ _ => keyDecl_unique) r.keys g1
      have hu := readConstraint_unique r.read g2
      simp only [Option.some.injEq, Prod.mk.injEq] at hu
      obtain ⟨rfl, rfl, rfl, hb⟩ := hu
      obtain ⟨ctx, hp⟩ := (parseTableEntry_iff (parseTableInfo_wf h) entry).2 ((entryOk_fits r.maps).2 g3)
      obtain ⟨h1, h2, h3⟩ := r.value h hb hw hp true
      rw [checkConstraint_satisfied]
      refine ⟨hb, ctx, hp, h1.2 ?_⟩
      rw [entryEnv_unique ((entryEnv_means r.maps).2 h3) ((entryEnv_means r.maps).2 g4)]
      exact g5

end

section
variable {sys : Sys} {d : ActionDecl} {ai : ActionInfo} (h : parseActionInfo sys d = .ok ai)
  (hw : ∀ f ∈ d.params, 0 ≤ f.bitwidth) {a : RtAction}

theorem ActionRead.value {vs : List VarInfo} {c e : Expr} {s : SExpr}
    (r : ActionRead sys d ai vs c e s) (h : parseActionInfo sys d = .ok ai) (hb : c.ty = .boolean)
    (hw : ∀ f ∈ d.params, 0 ≤ f.bitwidth) {ctx : EvalCtx} (hp : parseAction a ai = .ok ctx) (b : Bool) :
    (evalBoolP ctx c = .ok b ↔ Evaluates (paramSig vs) (envOf ctx) s .boolean (.bool b)) ∧
    ArgsFit vs a.params ∧ ActionMeans vs a (envOf ctx) := by
  have hwf := parseActionInfo_wf h
  have hfit : ArgsFit vs a.params := by
    rcases parseActionM_outcome (a := a) r.distinct r.maps with ⟨text, h1, _⟩ | ⟨_, _, h2⟩
    · rw [← erase_parseAction, h1] at hp; cases hp
    · exact h2
  obtain ⟨henv, hsrc, ps, hv, _⟩ := parseAction_env hwf hp
  refine ⟨?_, hfit, (actionEnv_means r.maps).1 henv⟩
  have := evalBoolP_evaluates (name := ai.name) (ctx := ctx) (sc := .action ai.paramsByName)
    ⟨fun n t hn => by simp [sigOf] at hn, fun n t z hn hs _ => by
      simp only [sigOf, Option.map_eq_some_iff] at hn
      obtain ⟨pi, hpi, rfl⟩ := hn
      obtain ⟨w, hw⟩ := parseActionInfo_bits h _ _ (hwf.lookup_name.1 hpi) hs
      rw [hw]
      exact .bit _ _⟩
    (by rw [sig_params r.maps]; exact paramSig_widths r.params hw) (.inl ⟨_, hv, rfl⟩) r.typed r.meant hb b
  rw [sig_params r.maps] at this
  exact this

/-- The check of an action. -/
def actionReason (a : RtAction) (ai : ActionInfo) : Res Str :=
  match ai.constraint with
  | none => .ok []
  | some c => checkConstraint c (parseAction a ai)

theorem reasonAction_info {a : RtAction} {ci : ConstraintInfo} {ai : ActionInfo}
    (h : lookup a.actionId ci.actions = some ai) : reasonAction a ci = actionReason a ai := by
  unfold reasonAction getActionInfo actionReason
  rw [h]
  dsimp only
  cases ai.constraint <;> rfl

include h hw in
theorem actionReason_value {m : Str} (he : actionReason a ai = .ok m) :
    (m = [] → Attached .action d.preamble none ∨ ActionValue sys.inetPton6 d a true) ∧
    (m ≠ [] → ActionValue sys.inetPton6 d a false) := by
  unfold actionReason at he
  cases hc : ai.constraint with
  | none =>
    obtain ⟨vs, h1, h2, h3, h4⟩ := parseActionInfo_parts h
    rw [hc] at h4 he
    cases he
    exact ⟨fun _ => .inl (parseAndCheck_none h4), fun h => (h rfl).elim⟩
  | some k =>
    rw [hc] at he
    dsimp only at he
    obtain ⟨vs, e, s, r⟩ := action_read h hc
    refine ⟨fun hm => ?_, fun hm => ?_⟩
    · subst hm
      obtain ⟨hb, ctx, hp, hv⟩ := checkConstraint_satisfied.1 he
      obtain ⟨h1, h2, h3⟩ := r.value h hb hw hp true
      exact .inr ⟨vs, _, _, _, _, r.params, hb ▸ r.read, h2, h3, h1.1 hv⟩
    · obtain ⟨hb, ctx, _, hp, hv, _⟩ := checkConstraint_violated hm he
      obtain ⟨h1, h2, h3⟩ := r.value h hb hw hp false
      exact ⟨vs, _, _, _, _, r.params, hb ▸ r.read, h2, h3, h1.1 hv⟩

include h hw in
theorem actionReason_accepts :
    actionReason a ai = .ok [] ↔ Attached .action d.preamble none ∨ ActionValue sys.inetPton6 d a true := by
  refine ⟨fun he => (actionReason_value h hw he).1 rfl, fun hp => ?_⟩
  unfold actionReason
  cases hc : ai.constraint with
  | none => rfl
  | some k =>
    dsimp only
    obtain ⟨vs, e, s, r⟩ := action_read h hc
    rcases hp with ha | ⟨vs', src', e', s', ρ', g1, g2, g3, g4, g5⟩
    · cases attached_unique ha r.attached
    · cases each_unique (R := ParamIs) (fun _ _ _ => paramIs_unique) r.params g1
      have hu := readConstraint_unique r.read g2
      simp only [Option.some.injEq, Prod.mk.injEq] at hu
      obtain ⟨rfl, rfl, rfl, hb⟩ := hu
      have hp : ∃ ctx, parseAction a ai = .ok ctx := by
        rcases parseActionM_outcome (a := a) r.distinct r.maps with ⟨text, _, hf⟩ | ⟨ctx, h2, _⟩
        · exact (argsFault_not_fits hf g3).elim
        · exact ⟨ctx, by rw [← erase_parseAction, h2]; rfl⟩
      obtain ⟨ctx, hp⟩ := hp
      obtain ⟨h1, h2, h3⟩ := r.value h hb hw hp true
      rw [checkConstraint_satisfied]
      refine ⟨hb, ctx, hp, h1.2 ?_⟩
      rw [actionEnv_unique ((actionEnv_means r.maps).2 h3) ((actionEnv_means r.maps).2 g4)]
      exact g5

end

section
variable {sys : Sys} {p : P4Info} {ci : ConstraintInfo} (h : p4ToConstraintInfo sys p = .ok ci) (hw : NonNegProgram p)

include h hw in
theorem reasonAction_accepts {a : RtAction} : reasonAction a ci = .ok [] ↔ ActionAccepted sys.inetPton6 p a := by
  cases hl : lookup a.actionId ci.actions with
  | none =>
    have := unknown_action h hl
    unfold reasonAction getActionInfo
    rw [hl]
    constructor
    · intro h; cases h
    · rintro ⟨d, h1, h2, _⟩
      exact (this d h1 h2).elim
  | some ai =>
    obtain ⟨d, h1, h2, h3⟩ := (action_of_info h).1 hl
    rw [reasonAction_info hl, actionReason_accepts h3 (hw.2 d h1)]
    constructor
    · exact fun hp => ⟨d, h1, h2, hp⟩
    · rintro ⟨d', h1', h2', hp⟩
      obtain ⟨ai', h4, h5⟩ := action_declared h h1'
      rw [h2', hl] at h4
      cases h4
      rw [← actionReason_accepts h3 (hw.2 d h1)]
      exact (actionReason_accepts h5 (hw.2 d' h1')).2 hp

include h hw in
theorem reason_accepts {entry : RtEntry} :
    reasonEntryViolatesConstraint entry ci = .ok [] ↔ Accepted sys.inetPton6 p entry := by
  have hact : reasonTableAction ci entry.action = .ok [] ↔ ActionsAccepted sys.inetPton6 p entry.action := by
    cases entry.action with
    | none => simp [reasonTableAction, ActionsAccepted.none]
    | some ta =>
      cases ta with
      | action a =>
        unfold reasonTableAction
        rw [reasonAction_accepts h hw]
        exact ⟨.one, fun h => by cases h with | one h => exact h⟩
      | actionSet as =>
        unfold reasonTableAction
        rw [reasonActionSet_nil]
        simp only [reasonAction_accepts h hw]
        exact ⟨.set, fun h => by cases h with | set h => exact h⟩
      | memberId | groupId | notSet => exact ⟨fun h => (by cases h), fun h => (by cases h)⟩
  cases hl : lookup entry.tableId ci.tables with
  | none =>
    have := unknown_table h hl
    unfold reasonEntryViolatesConstraint getTableInfo
    rw [hl]
    constructor
    · intro h; cases h
    · rintro ⟨d, h1, h2, _⟩
      exact (this d h1 h2).elim
  | some ti =>
    obtain ⟨d, h1, h2, h3⟩ := (table_of_info h).1 hl
    rw [reason_nil hl, hact]
    constructor
    · exact fun ⟨hp, ha⟩ => ⟨d, h1, h2, (tableReason_accepts h3 (hw.1 d h1)).1 hp, ha⟩
    · rintro ⟨d', h1', h2', hp, ha⟩
      obtain ⟨ti', h4, h5⟩ := table_declared h h1'
      rw [h2', hl] at h4
      cases h4
      exact ⟨(tableReason_accepts h5 (hw.1 d' h1')).2 hp, ha⟩

end

end P4C
