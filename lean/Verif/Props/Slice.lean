import Verif.Proofs.Slice
import Verif.Proofs.Unexplained
import Verif.Props.Explain

/-
What is quoted in a message, read by itself: property C62.
-/

namespace P4C

open Spec

/-- C62, for any part of a constraint: there is a text between the locations of the part; it is accepted as a
constraint exactly if every parenthesis in it has a partner, and then it is read as the part. Full statement: it is
always accepted; this fails (`C62_fails`). String literals must not span lines, since locations are wrong then
(`C20_fails`). -/
theorem C62_reads_partial {sys : Sys} {k : ConstraintKind} {src : ConstraintSource} {e x : Expr}
    (h : parseConstraint sys k src = .ok e)
    (ho : ∀ t ∈ tokenize src, t.kind = .string → ∀ c ∈ t.text, c ≠ '\r' ∧ c ≠ '\n') (hx : NodeOf x e) :
    (∃ m, m ≠ [] ∧ Between src x.start x.stop m) ∧ ∀ m, Between src x.start x.stop m → ∀ loc,
      (Balanced ((tokenize ⟨m, loc⟩).map (·.kind)) ↔ ∃ e', parseConstraint sys k ⟨m, loc⟩ = .ok e') ∧
      ∀ e', parseConstraint sys k ⟨m, loc⟩ = .ok e' → abs e' = abs x := by
  obtain ⟨_, _, _, m, hm, hne, _⟩ := node_part h ho hx
  exact ⟨⟨m, hne, hm⟩, fun m hm loc => node_reads h ho hx hm loc⟩

/-- C62: in a constraint without parentheses every part is accepted. -/
theorem C62_plain {sys : Sys} {k : ConstraintKind} {src : ConstraintSource} {e x : Expr}
    (h : parseConstraint sys k src = .ok e)
    (ho : ∀ t ∈ tokenize src, t.kind = .string → ∀ c ∈ t.text, c ≠ '\r' ∧ c ≠ '\n') (hx : NodeOf x e)
    (hp : ∀ t ∈ tokenize src, t.kind ≠ .lpar ∧ t.kind ≠ .rpar) {m : Str} (hm : Between src x.start x.stop m) (loc : Loc) :
    ∃ e', parseConstraint sys k ⟨m, loc⟩ = .ok e' ∧ abs e' = abs x := by
  obtain ⟨h1, h2⟩ := node_reads h ho hx hm loc
  obtain ⟨e', he'⟩ := h1.1 (node_plain h ho hx hp hm loc)
  exact ⟨e', he', h2 e' he'⟩

/-- A part that an explanation consists of. -/
theorem explanation_reads {sys : Sys} {k : ConstraintKind} {src : ConstraintSource} {sc : Scope} {ctx : EvalCtx}
    {e c : Expr} {s : SExpr} {n : Node} {cs : Caches} {v : Bool} (hc : Consistent (sigOf sc) (envOf ctx))
    (hw : WidthsOk (sigOf sc)) (hp : AttrFree s ∨ (envOf ctx).priority ≠ none)
    (ho : ∀ t ∈ tokenize src, t.kind = .string → ∀ c ∈ t.text, c ≠ '\r' ∧ c ≠ '\n')
    (hparse : parseConstraint sys k src = .ok e) (hi : inferAndCheck src sc e = .ok c) (ha : abs e = some s)
    (hmin : minimalSub ctx c [] ([], []) = .ok (n, cs)) (hv : Val ctx n.1 v) :
    (∃ m, m ≠ [] ∧ Between src n.1.start n.1.stop m) ∧
      ∀ m, Between src n.1.start n.1.stop m → ∀ loc, Balanced ((tokenize ⟨m, loc⟩).map (·.kind)) →
        ∃ e s', parseConstraint sys k ⟨m, loc⟩ = .ok e ∧ abs e = some s' ∧
          (v = true → Holds (sigOf sc) (envOf ctx) s') ∧ (v = false → Fails (sigOf sc) (envOf ctx) s') := by
  have hmin' : minP ctx c [] = .ok n := by
    have h1 := (minimalSub_cache (ctx := ctx) (root := c) (e := c) (p := []) (m := []) (n := []) rfl
      (C04_empty ctx c).1 (C04_empty ctx c).2).1
    rw [hmin] at h1
    exact h1.symm
  obtain ⟨y, hsk, hiy⟩ := infer_skeleton (justifies_skeleton (minP_best c [] n hmin').1) hi
  obtain ⟨sy, hsy, _, hat⟩ := skeleton_abs hsk ha
  obtain ⟨l1, l2⟩ := infer_span hiy
  obtain ⟨h1, h2, _⟩ := check_means hc hw (hp.imp hat id) hiy hsy
  obtain ⟨hm, hall⟩ := C62_reads_partial hparse ho (skeleton_node hsk)
  rw [l1, l2]
  refine ⟨hm, fun m hm loc hb => ?_⟩
  obtain ⟨e', he'⟩ := (hall m hm loc).1.1 hb
  refine ⟨e', sy, he', ((hall m hm loc).2 e' he').trans hsy, ?_, ?_⟩
  · rintro rfl; exact h1 (val_boolP.2 hv)
  · rintro rfl; exact h2 (val_boolP.2 hv)

/-- C62: a violation message quotes a part `m` of the constraint of the table and says whether it holds of the entry.
If parentheses match in it, `m` is accepted as a constraint, and it does (not) hold of the entry, as the message says.
Full statement: without the hypothesis about parentheses; it fails then (`C62_fails`). -/
theorem C62_table_partial {sys : Sys} {p : P4Info} {ci : ConstraintInfo} {entry : RtEntry} {ti : TableInfo}
    {s : SExpr} {ρ : Env} {msg : Str} (hci : p4ToConstraintInfo sys p = .ok ci) (h : TableCase ci entry ti s ρ)
    (ho : ∀ t ∈ tokenize ti.source, t.kind = .string → ∀ c ∈ t.text, c ≠ '\r' ∧ c ≠ '\n')
    (hf : Fails (sigOf (.table ti.keysByName)) ρ s) (hr : reasonEntryViolatesConstraint entry ci = .ok msg) :
    ∃ a b v text, quoteSub ti.source a b = .ok text ∧
      (c!"All entries must " ++ (if v then c!"not satisfy:\n\n" else c!"satisfy:\n\n") ++ text) <+: msg ∧
      (∃ m, m ≠ [] ∧ Between ti.source a b m) ∧
      ∀ m, Between ti.source a b m → ∀ loc, Balanced ((tokenize ⟨m, loc⟩).map (·.kind)) →
        ∃ e s', parseConstraint sys .table ⟨m, loc⟩ = .ok e ∧ abs e = some s' ∧
          (v = true → Holds (sigOf (.table ti.keysByName)) ρ s') ∧
          (v = false → Fails (sigOf (.table ti.keysByName)) ρ s') := by
  obtain ⟨c, ctx, n, cs, v, text, prio, lines, hc, hctx, hmin, hv, hq, hmsg, _⟩ := C42_message h hf hr
  obtain ⟨d, hd, hid, hti⟩ := (table_of_info hci).1 h.found
  obtain ⟨hx, e, s', hparse, hi, ha⟩ := tableInfo_constraint hti hc
  obtain ⟨henv, _, _, _, _⟩ := parseTableEntry_env h.wf hctx
  have hρ : envOf ctx = ρ := entryEnv_unique henv h.env
  have := explanation_reads (entry_consistent h.wf h.ok henv) h.widths (.inr (by rw [henv.priority]; simp)) ho hparse
    hi ha hmin hv
  rw [hρ] at this
  refine ⟨n.1.start, n.1.stop, v, text, hq, ?_, this⟩
  rw [hmsg]
  repeat first | exact List.prefix_rfl | refine List.IsPrefix.trans ?_ (List.prefix_append _ _)

/-- C62 for the constraint of an action. The constraint must not refer to the priority, which only entries have. -/
theorem C62_action_partial {sys : Sys} {p : P4Info} {ci : ConstraintInfo} {a : RtAction} {ai : ActionInfo}
    {s : SExpr} {ρ : Env} {msg : Str} (hci : p4ToConstraintInfo sys p = .ok ci) (h : ActionCase ci a ai s ρ)
    (ho : ∀ t ∈ tokenize ai.source, t.kind = .string → ∀ c ∈ t.text, c ≠ '\r' ∧ c ≠ '\n')
    (hs : AttrFree s) (hne : msg ≠ []) (hr : reasonAction a ci = .ok msg) :
    ∃ x y v text, quoteSub ai.source x y = .ok text ∧
      (c!"All actions must " ++ (if v then c!"not satisfy:\n\n" else c!"satisfy:\n\n") ++ text) <+: msg ∧
      (∃ m, m ≠ [] ∧ Between ai.source x y m) ∧
      ∀ m, Between ai.source x y m → ∀ loc, Balanced ((tokenize ⟨m, loc⟩).map (·.kind)) →
        ∃ e s', parseConstraint sys .action ⟨m, loc⟩ = .ok e ∧ abs e = some s' ∧
          (v = true → Holds (sigOf (.action ai.paramsByName)) ρ s') ∧
          (v = false → Fails (sigOf (.action ai.paramsByName)) ρ s') := by
  obtain ⟨c, ctx, n, cs, v, text, lines, hc, hctx, hmin, hv, hq, hmsg, _⟩ := C42_action_message h hne hr
  obtain ⟨d, hd, hid, hti⟩ := (action_of_info hci).1 h.found
  obtain ⟨hx, e, s', hparse, hi, _⟩ := actionInfo_constraint hti hc
  have ha : abs e = some s := by
    obtain ⟨c', hc', hch⟩ := h.checked
    cases hc.symm.trans hc'
    exact checked_abs hch hi
  obtain ⟨henv, _, _⟩ := parseAction_env h.wf hctx
  have hρ : envOf ctx = ρ := actionEnv_unique henv h.env
  have := explanation_reads (action_consistent h.wf h.complete henv h.bits) h.widths
    (.inl hs) ho hparse hi ha hmin hv
  rw [hρ] at this
  refine ⟨n.1.start, n.1.stop, v, text, hq, ?_, this⟩
  rw [hmsg]
  repeat first | exact List.prefix_rfl | refine List.IsPrefix.trans ?_ (List.prefix_append _ _)

/-- The constraint `(ex == 6) || (ex == 7)`. -/
def Ex.par : Str := c!"(ex == 6) || (ex == 7)"

/-- C62 fails as stated: the two outer parentheses of `(ex == 6) || (ex == 7)` do not belong to the part that is quoted,
`ex == 6) || (ex == 7`, which is not a constraint. -/
theorem C62_fails : ∃ sys p ci entry ti s ρ msg a b text m, p4ToConstraintInfo sys p = .ok ci ∧
    TableCase ci entry ti s ρ ∧ (∀ t ∈ tokenize ti.source, t.kind = .string → ∀ c ∈ t.text, c ≠ '\r' ∧ c ≠ '\n') ∧
    Fails (sigOf (.table ti.keysByName)) ρ s ∧ reasonEntryViolatesConstraint entry ci = .ok msg ∧
    quoteSub ti.source a b = .ok text ∧ (c!"All entries must satisfy:\n\n" ++ text) <+: msg ∧
    Between ti.source a b m ∧ m = c!"ex == 6) || (ex == 7" ∧
    parseConstraint sys .table ⟨m, ti.source.loc⟩ = .err .invalidArgument :=
  ⟨Ex.sys, Ex.p4info Ex.par c!"true", Ex.ci Ex.par c!"true", Ex.entry 5, Ex.ti Ex.par,
    .conn .or (.cmp .eq (.key c!"ex") (.int 6)) (.cmp .eq (.key c!"ex") (.int 7)), envOf (Ex.ctx Ex.par (Ex.entry 5)),
    Ex.get [] (reasonEntryViolatesConstraint (Ex.entry 5) (Ex.ci Ex.par c!"true")),
    advance (Ex.ti Ex.par).source.loc c!"(", advance (Ex.ti Ex.par).source.loc c!"(ex == 6) || (ex == 7",
    Ex.get [] (quoteSub (Ex.ti Ex.par).source (advance (Ex.ti Ex.par).source.loc c!"(")
      (advance (Ex.ti Ex.par).source.loc c!"(ex == 6) || (ex == 7")), _,
    Ex.get_of_isOk (d := ⟨[], []⟩) (by decide +kernel), Ex.tableCase (by decide +kernel), by decide +kernel,
    Ex.fails (ac := c!"true") (by decide +kernel) (by decide +kernel), Ex.get_of_isOk (by decide +kernel),
    Ex.get_of_isOk (by decide +kernel), by decide +kernel, ⟨c!"(", c!")", by decide +kernel, rfl, rfl⟩, rfl,
    by decide +kernel⟩

/-- The hypotheses of `C62_table_partial`, and parentheses that match in what is quoted, a part of the constraint. -/
example : ∃ msg, p4ToConstraintInfo Ex.sys (Ex.p4info c!"(ex == 5) && (ex == 6 || ex == 7)" c!"true") =
      .ok (Ex.ci c!"(ex == 5) && (ex == 6 || ex == 7)" c!"true") ∧
    reasonEntryViolatesConstraint (Ex.entry 5) (Ex.ci c!"(ex == 5) && (ex == 6 || ex == 7)" c!"true") = .ok msg ∧
    (c!"All entries must satisfy:\n\n" ++ Ex.get [] (quoteSub (Ex.ti c!"(ex == 5) && (ex == 6 || ex == 7)").source
      (advance (Ex.ti c!"(ex == 5) && (ex == 6 || ex == 7)").source.loc c!"(ex == 5) && (")
      (advance (Ex.ti c!"(ex == 5) && (ex == 6 || ex == 7)").source.loc c!"(ex == 5) && (ex == 6 || ex == 7"))) <+: msg ∧
    Ex.isOk (parseConstraint Ex.sys .table ⟨c!"ex == 6 || ex == 7", {}⟩) = true ∧
    Fails (sigOf (.table (Ex.ti c!"(ex == 5) && (ex == 6 || ex == 7)").keysByName))
      (envOf (Ex.ctx c!"(ex == 5) && (ex == 6 || ex == 7)" (Ex.entry 5)))
      (.conn .and (.cmp .eq (.key c!"ex") (.int 5))
        (.conn .or (.cmp .eq (.key c!"ex") (.int 6)) (.cmp .eq (.key c!"ex") (.int 7)))) :=
  ⟨_, Ex.get_of_isOk (d := ⟨[], []⟩) (by decide +kernel), Ex.get_of_isOk (d := []) (by decide +kernel),
    by decide +kernel, by decide +kernel, Ex.fails (ac := c!"true") (by decide +kernel) (by decide +kernel)⟩

/-- The hypotheses of `C62_action_partial`. -/
example : p4ToConstraintInfo Ex.sys (Ex.p4info Ex.tc1 Ex.ac1) = .ok (Ex.ci Ex.tc1 Ex.ac1) ∧
    (∀ t ∈ tokenize (Ex.ai Ex.ac1).source, t.kind = .string → ∀ c ∈ t.text, c ≠ '\r' ∧ c ≠ '\n') ∧ AttrFree Ex.s2 ∧
    ActionCase (Ex.ci Ex.tc1 Ex.ac1) (Ex.action 9 4) (Ex.ai Ex.ac1) Ex.s2 (envOf (Ex.actx Ex.ac1 (Ex.action 9 4))) ∧
    ∃ msg, msg ≠ [] ∧ reasonAction (Ex.action 9 4) (Ex.ci Ex.tc1 Ex.ac1) = .ok msg :=
  ⟨Ex.get_of_isOk (by decide +kernel), by decide +kernel, by simp [Ex.s2, AttrFree], Ex.actionCase (by decide +kernel),
    Ex.get [] (reasonAction (Ex.action 9 4) (Ex.ci Ex.tc1 Ex.ac1)), by decide +kernel, Ex.get_of_isOk (by decide +kernel)⟩

/-- A constraint without parentheses, as for `C62_plain`. -/
example : Ex.isOk (parseConstraint Ex.sys .table ⟨c!"ex == 5 -> ex::value == 6", {}⟩) = true ∧
    ∀ t ∈ tokenize ⟨c!"ex == 5 -> ex::value == 6", {}⟩, t.kind ≠ .lpar ∧ t.kind ≠ .rpar ∧ t.kind ≠ .string := by
  decide +kernel

end P4C
