import Verif.Proofs.Explain4
import Verif.Proofs.ValueText
import Verif.Props.Quoting

/-
Explanations of violated constraints: properties C03, C04, C05, C06, C41, C42.
-/

namespace P4C

open Spec

/-! ### C04: caches are transparent -/

/-- C04: evaluating the node at address `p` of `root` with a correct cache has the outcome of evaluating it
without one, and leaves a correct cache. -/
theorem C04_cache_transparent {ctx : EvalCtx} {root e : Expr} {p : Path} {m : EvalCache}
    (hp : nodeAt root p = some e) (hm : CorrectValues ctx root m) :
    (Prod.fst <$> eval ctx e p (some m) = Prod.fst <$> eval ctx e [] none ∧
      ∀ v c, eval ctx e p (some m) = .ok (v, c) → ∃ m', c = some m' ∧ CorrectValues ctx root m') ∧
    (Prod.fst <$> evalToBool ctx e p (some m) = Prod.fst <$> evalToBool ctx e [] none ∧
      ∀ v c, evalToBool ctx e p (some m) = .ok (v, c) → ∃ m', c = some m' ∧ CorrectValues ctx root m') :=
  ⟨eval_cache hp hm, evalToBool_cache hp hm⟩

/-- C04 for the search of explanations: it gives the same node, or error, whatever correct caches it starts
with, and leaves correct caches. -/
theorem C04_search_transparent {ctx : EvalCtx} {root e : Expr} {p : Path} {m m' : EvalCache} {n n' : SizeCache}
    (hp : nodeAt root p = some e) (hm : CorrectValues ctx root m) (hn : CorrectSizes root n)
    (hm' : CorrectValues ctx root m') (hn' : CorrectSizes root n') :
    Prod.fst <$> minimalSub ctx e p (m, n) = Prod.fst <$> minimalSub ctx e p (m', n') ∧
    ∀ v c, minimalSub ctx e p (m, n) = .ok (v, c) → CorrectValues ctx root c.1 ∧ CorrectSizes root c.2 :=
  ⟨(minimalSub_cache hp hm hn).1.trans (minimalSub_cache hp hm' hn').1.symm, (minimalSub_cache hp hm hn).2⟩

/-- C04: the empty cache is correct, so that starting from it is unobservable. -/
theorem C04_empty (ctx : EvalCtx) (root : Expr) : CorrectValues ctx root [] ∧ CorrectSizes root [] :=
  ⟨nofun, nofun⟩

/-- The constraint and a cache with one of its values. -/
example : ∃ m, CorrectValues (Ex.ctx Ex.tc1 (Ex.entry 6)) ((Ex.ti Ex.tc1).constraint.getD (.notSet {})) m ∧
    nodeAt ((Ex.ti Ex.tc1).constraint.getD (.notSet {})) [0, 0] ≠ none ∧ lookup [0, 0] m = some false := by
  have h : Ex.isOk (evalToBool (Ex.ctx Ex.tc1 (Ex.entry 6)) ((Ex.ti Ex.tc1).constraint.getD (.notSet {})) []
    (some [])) = true := by decide +kernel
  generalize hr : evalToBool (Ex.ctx Ex.tc1 (Ex.entry 6)) ((Ex.ti Ex.tc1).constraint.getD (.notSet {})) []
    (some []) = r at h
  cases r with
  | ok x =>
    obtain ⟨b, c⟩ := x
    obtain ⟨m, rfl, hm⟩ := (C04_cache_transparent (p := []) rfl (C04_empty _ _).1).2.2 _ _ hr
    refine ⟨m, hm, by decide +kernel, ?_⟩
    have : (Prod.snd <$> evalToBool (Ex.ctx Ex.tc1 (Ex.entry 6)) ((Ex.ti Ex.tc1).constraint.getD (.notSet {})) []
      (some [])) = .ok (some m) := by rw [hr]; rfl
    have h2 : (fun o : Option EvalCache => o.bind (lookup [0, 0])) <$> (Prod.snd <$> evalToBool
      (Ex.ctx Ex.tc1 (Ex.entry 6)) ((Ex.ti Ex.tc1).constraint.getD (.notSet {})) [] (some [])) =
        .ok (some false) := by decide +kernel
    rw [this] at h2
    injection h2
  | _ => cases h

/-! ### C05: explanations are sufficient -/

/-- C05: let the search for an explanation of the value of `e` in `ctx` give the node `n`, which has the value
`v`. In every other context in which `n` has the value `v` and `e` has a value, `e` has the same value. -/
theorem C05_sufficient {ctx ctx' : EvalCtx} {root e : Expr} {p : Path} {m : EvalCache} {sz : SizeCache}
    {n : Node} {cs : Caches} (hp : nodeAt root p = some e) (hm : CorrectValues ctx root m)
    (hs : CorrectSizes root sz) (h : minimalSub ctx e p (m, sz) = .ok (n, cs)) {b b' v : Bool}
    (hb : Val ctx e b) (hv : Val ctx n.1 v) (hv' : Val ctx' n.1 v) (hb' : Val ctx' e b') : b' = b := by
  have h1 := (minimalSub_cache hp hm hs).1
  rw [h] at h1
  exact justifies_sufficient (minP_best e p n h1.symm).1 hb hv hv' hb'

/-- In two entries, which differ in every key, the explanation `ex == 5` is false, and so the constraint is. -/
example : ∃ n cs, minimalSub (Ex.ctx Ex.tc1 (Ex.entry 6)) ((Ex.ti Ex.tc1).constraint.getD (.notSet {})) [] ([], []) =
      .ok (n, cs) ∧ Val (Ex.ctx Ex.tc1 (Ex.entry 6)) n.1 false ∧ Val (Ex.ctx Ex.tc1 (Ex.entry 7)) n.1 false ∧
    Val (Ex.ctx Ex.tc1 (Ex.entry 7)) ((Ex.ti Ex.tc1).constraint.getD (.notSet {})) false ∧ n.2 = [0, 0] := by
  have h : Ex.isOk (minimalSub (Ex.ctx Ex.tc1 (Ex.entry 6)) ((Ex.ti Ex.tc1).constraint.getD (.notSet {})) []
    ([], [])) = true := by decide +kernel
  refine ⟨_, _, Ex.get_of_isOk (d := (((.notSet {}), []), ([], []))) h, ?_, ?_, ?_, ?_⟩ <;>
    (try unfold Val) <;> decide +kernel

/-! ### C06: explanations are boolean and minimal among the justifying nodes -/

/-- C06: the node found is the node of the constraint at its address; it has type boolean and is a comparison, a
constant or a connective, so not a negation; it lies on a justifying path; no node on such a path is smaller, and
those of the same size are to its right. -/
theorem C06_minimal {ctx : EvalCtx} {root e : Expr} {p : Path} {m : EvalCache} {sz : SizeCache}
    {n : Node} {cs : Caches} (hp : nodeAt root p = some e) (hm : CorrectValues ctx root m)
    (hs : CorrectSizes root sz) (h : minimalSub ctx e p (m, sz) = .ok (n, cs)) {b : Bool} (hb : Val ctx e b) :
    nodeAt root n.2 = some n.1 ∧ n.1.ty = .boolean ∧ Explains n.1 ∧ Justifies ctx (e, p) n ∧
      ∀ k, Justifies ctx (e, p) k → weight n.1 ≤ weight k.1 ∧
        (weight k.1 = weight n.1 → k = n ∨ LeftOf n.2 k.2) := by
  have h1 := (minimalSub_cache hp hm hs).1
  rw [h] at h1
  have h2 := minP_best e p n h1.symm
  refine ⟨sub_nodeAt.1 (minP_sub e p n (sub_nodeAt.2 hp) h1.symm), ?_, h2.2.1, h2.1, h2.2.2⟩
  obtain ⟨v, hv⟩ := justifies_val h2.1 hb
  exact evalP_bool_ty (evalP_val.2 hv)

/-! ### C03: a violation is explained -/

/-- C03 for tables whose constraint is written on one line. Full statement: without the hypotheses `hn`,
`h1`, `h2`; it fails then (`C03_fails_order`, `C03_fails_crash`, `C03_fails_cr`). -/
theorem C03_explained_partial {sys : Sys} {p : P4Info} {ci : ConstraintInfo} {entry : RtEntry} {ti : TableInfo}
    {s : SExpr} {ρ : Env} (hci : p4ToConstraintInfo sys p = .ok ci) (h : TableCase ci entry ti s ρ)
    (hn : NoOrderedExact (sigOf (.table ti.keysByName)) s) (h1 : '\n' ∉ ti.source.str) (h2 : '\r' ∉ ti.source.str)
    (hf : Fails (sigOf (.table ti.keysByName)) ρ s) :
    ∃ msg, msg ≠ [] ∧ reasonEntryViolatesConstraint entry ci = .ok msg := by
  obtain ⟨c, ctx, e, n, v, y, _, _, hp, hset, hcol, hy, _, _, _, _, hr⟩ := table_explained hci h hn hf
  obtain ⟨text, _, _, h3, _⟩ := quote_node hp (oneLine_of h1 h2) hy (crLf_of h2) hset hcol (node_line h1 h2 hp hy)
  rw [hr, h3, Res.ok_bind]
  exact ⟨_, violationText_ne_nil _ _ _ _, rfl⟩

/-- C03 for tables whose constraint may span lines: there is a non-empty explanation, except that the checker
crashes if the explaining node starts on one line, ends on another, and the first of them is too short. -/
theorem C03_multiline_partial {sys : Sys} {p : P4Info} {ci : ConstraintInfo} {entry : RtEntry} {ti : TableInfo}
    {s : SExpr} {ρ : Env} (hci : p4ToConstraintInfo sys p = .ok ci) (h : TableCase ci entry ti s ρ)
    (hn : NoOrderedExact (sigOf (.table ti.keysByName)) s) (h1 : CrLf ti.source.str)
    (h2 : ∀ t ∈ tokenize ti.source, t.kind = .string → ∀ c ∈ t.text, c ≠ '\r' ∧ c ≠ '\n')
    (hf : Fails (sigOf (.table ti.keysByName)) ρ s) :
    (∃ msg, msg ≠ [] ∧ reasonEntryViolatesConstraint entry ci = .ok msg) ∨
    (reasonEntryViolatesConstraint entry ci = .crash ∧ ∃ e y line at_, parseConstraint sys .table ti.source = .ok e ∧
      NodeOf y e ∧ y.start.line ≠ y.stop.line ∧
      LineOf ti.source.str (y.start.line - ti.source.loc.line).toNat line at_ ∧
      ∃ num, IntNumeral (y.start.line + 1) num ∧ line.length < num.length + 3 + y.start.col.toNat) := by
  obtain ⟨c, ctx, e, n, v, y, _, _, hp, hset, hcol, hy, _, _, _, _, hr⟩ := table_explained hci h hn hf
  by_cases hl : y.start.line = y.stop.line
  · obtain ⟨text, _, _, h3, _⟩ := quote_node hp h2 hy h1 hset hcol hl
    left
    rw [hr, h3, Res.ok_bind]
    exact ⟨_, violationText_ne_nil _ _ _ _, rfl⟩
  · obtain ⟨line, at_, num, k1, k0, k2, k3⟩ := C29_multiline_partial hp hy ⟨h1, h2, hset, by omega⟩ hl
    by_cases hlen : line.length < num.length + 3 + y.start.col.toNat
    · right
      rw [hr, k2 hlen]
      exact ⟨rfl, e, y, line, at_, hp, hy, hl, k1, num, k0, hlen⟩
    · left
      obtain ⟨text, h3, _⟩ := k3 (by omega)
      rw [hr, h3, Res.ok_bind]
      exact ⟨_, violationText_ne_nil _ _ _ _, rfl⟩

/-- C03 for actions whose constraint is written on one line: there is a non-empty explanation, or else an
InvalidArgument error, and this only if some connective has two operands each of which forces its value.
Full statement: without the second case; it does occur (`C03_fails_size`). -/
theorem C03_action_partial {sys : Sys} {p : P4Info} {ci : ConstraintInfo} {a : RtAction} {ai : ActionInfo}
    {s : SExpr} {ρ : Env} (hci : p4ToConstraintInfo sys p = .ok ci) (h : ActionCase ci a ai s ρ) (hs : AttrFree s)
    (h1 : '\n' ∉ ai.source.str) (h2 : '\r' ∉ ai.source.str) (hf : Fails (sigOf (.action ai.paramsByName)) ρ s) :
    (∃ msg, msg ≠ [] ∧ reasonAction a ci = .ok msg) ∨
    (reasonAction a ci = .err .invalidArgument ∧
      ∃ c ctx, ai.constraint = some c ∧ parseAction a ai = .ok ctx ∧ ¬ NoTie ctx (c, [])) := by
  obtain ⟨c, ctx, e, hc, hctx, hp, hset, hcol, ⟨n, v, y, hy, _, _, _, _, hr⟩ | ⟨hr, ht⟩⟩ := action_explained hci h hs hf
  · obtain ⟨text, _, _, h3, _⟩ := quote_node hp (oneLine_of h1 h2) hy (crLf_of h2) hset hcol (node_line h1 h2 hp hy)
    left
    rw [hr, h3, Res.ok_bind]
    exact ⟨_, violationText_ne_nil _ _ _ _, rfl⟩
  · exact .inr ⟨hr, c, ctx, hc, hctx, ht⟩

theorem Ex.fails {tc ac : Str} {e : RtEntry} {s : SExpr} (h : caseOk tc ac e s = true)
    (hc : ((ti tc).constraint.map fun c => decide (evalBoolP (ctx tc e) c = .ok false)) = some true) :
    Fails (sigOf (.table (ti tc).keysByName)) (envOf (ctx tc e)) s := by
  obtain ⟨c, x, h1, _, h2, _, _, h3, _⟩ := (tableCase h).check
  simp only [caseOk, Bool.and_eq_true, decide_eq_true_eq] at h
  have h4 := get_of_isOk (d := ⟨.table ⟨[], 0, []⟩, {}⟩) h.2
  rw [h1] at hc
  simp only [Option.map_some, Option.some.injEq, decide_eq_true_eq] at hc
  have h5 := h2.symm.trans h4
  injection h5 with h5
  rw [h5] at h3
  exact h3 hc

theorem Ex.afails {tc ac : Str} {a : RtAction} {s : SExpr} (h : acaseOk tc ac a s = true) (hs : AttrFree s)
    (hc : ((ai ac).constraint.map fun c => decide (evalBoolP (actx ac a) c = .ok false)) = some true) :
    Fails (sigOf (.action (ai ac).paramsByName)) (envOf (actx ac a)) s := by
  obtain ⟨c, x, h1, _, h2, _, _, h3, _⟩ := (actionCase h).check hs
  simp only [acaseOk, Bool.and_eq_true, decide_eq_true_eq] at h
  have h4 := get_of_isOk (d := ⟨.table ⟨[], 0, []⟩, {}⟩) h.1.2
  rw [h1] at hc
  simp only [Option.map_some, Option.some.injEq, decide_eq_true_eq] at hc
  have h5 := h2.symm.trans h4
  injection h5 with h5
  rw [h5] at h3
  exact h3 hc

/-- The hypotheses of `C03_explained_partial` are met by the example constraint and an entry violating it. -/
example : p4ToConstraintInfo Ex.sys (Ex.p4info Ex.tc1 Ex.ac1) = .ok (Ex.ci Ex.tc1 Ex.ac1) ∧
    '\n' ∉ (Ex.ti Ex.tc1).source.str ∧ '\r' ∉ (Ex.ti Ex.tc1).source.str ∧
    Fails (sigOf (.table (Ex.ti Ex.tc1).keysByName)) (envOf (Ex.ctx Ex.tc1 (Ex.entry 6))) Ex.s1 :=
  ⟨Ex.get_of_isOk (by decide +kernel), by decide +kernel, by decide +kernel, Ex.fails (ac := Ex.ac1)
    (by decide +kernel) (by decide +kernel)⟩

/-- C03 fails as stated (1): the explanation of a violation also evaluates operands that evaluation has not
reached. Here the constraint is false, as `ex` is 5; but the comparison `ex < 7` cannot be evaluated, and the
violation is reported as an Internal error. -/
theorem C03_fails_order : ∃ sys p ci entry ti s ρ, p4ToConstraintInfo sys p = .ok ci ∧ TableCase ci entry ti s ρ ∧
    Fails (sigOf (.table ti.keysByName)) ρ s ∧ reasonEntryViolatesConstraint entry ci = .err .internal :=
  ⟨Ex.sys, Ex.p4info c!"ex == 6 && ex < 7" c!"true", Ex.ci c!"ex == 6 && ex < 7" c!"true", Ex.entry 5, Ex.ti c!"ex == 6 && ex < 7",
    .conn .and (.cmp .eq (.key c!"ex") (.int 6)) (.cmp .lt (.key c!"ex") (.int 7)), envOf (Ex.ctx c!"ex == 6 && ex < 7" (Ex.entry 5)),
    Ex.get_of_isOk (d := ⟨[], []⟩) (by decide +kernel), Ex.tableCase (by decide +kernel),
    Ex.fails (ac := c!"true") (by decide +kernel) (by decide +kernel), by decide +kernel⟩

/-- C03 fails as stated (2): explaining the violation of a constraint that spans lines can crash. -/
theorem C03_fails_crash : ∃ sys p ci entry ti s ρ, p4ToConstraintInfo sys p = .ok ci ∧ TableCase ci entry ti s ρ ∧
    Fails (sigOf (.table ti.keysByName)) ρ s ∧ reasonEntryViolatesConstraint entry ci = .crash :=
  ⟨Ex.sys, Ex.p4info c!"ex\" \"== 6" c!"true", Ex.ci c!"ex\" \"== 6" c!"true", Ex.entry 5, Ex.ti c!"ex\" \"== 6", .cmp .eq (.key c!"ex") (.int 6), envOf (Ex.ctx c!"ex\" \"== 6" (Ex.entry 5)),
    Ex.get_of_isOk (d := ⟨[], []⟩) (by decide +kernel), Ex.tableCase (by decide +kernel),
    Ex.fails (ac := c!"true") (by decide +kernel) (by decide +kernel), by decide +kernel⟩

/-- C03 fails as stated (3): a lone carriage return in the text, which counts as a line break for the lexer but not for
the quoting code, so that the explanation cannot be quoted. -/
theorem C03_fails_cr : ∃ sys p ci entry ti s ρ, p4ToConstraintInfo sys p = .ok ci ∧ TableCase ci entry ti s ρ ∧
    Fails (sigOf (.table ti.keysByName)) ρ s ∧ reasonEntryViolatesConstraint entry ci = .err .invalidArgument :=
  ⟨Ex.sys, Ex.p4info c!"true &&\r ex == 6" c!"true", Ex.ci c!"true &&\r ex == 6" c!"true", Ex.entry 5, Ex.ti c!"true &&\r ex == 6",
    .conn .and (.bool true) (.cmp .eq (.key c!"ex") (.int 6)), envOf (Ex.ctx c!"true &&\r ex == 6" (Ex.entry 5)),
    Ex.get_of_isOk (d := ⟨[], []⟩) (by decide +kernel), Ex.tableCase (by decide +kernel),
    Ex.fails (ac := c!"true") (by decide +kernel) (by decide +kernel), by decide +kernel⟩

/-- C03 fails as stated (4): the size of action parameters is not defined, so that a violation of an action
constraint that has two reasons cannot be explained. -/
theorem C03_fails_size : ∃ sys p ci a ai s ρ, p4ToConstraintInfo sys p = .ok ci ∧ ActionCase ci a ai s ρ ∧
    AttrFree s ∧ Fails (sigOf (.action ai.paramsByName)) ρ s ∧ reasonAction a ci = .err .invalidArgument :=
  ⟨Ex.sys, Ex.p4info c!"true" c!"p != 0 && q != 1", Ex.ci c!"true" c!"p != 0 && q != 1", Ex.action 0 1, Ex.ai c!"p != 0 && q != 1",
    .conn .and (.cmp .ne (.param c!"p") (.int 0)) (.cmp .ne (.param c!"q") (.int 1)), envOf (Ex.actx c!"p != 0 && q != 1" (Ex.action 0 1)),
    Ex.get_of_isOk (d := ⟨[], []⟩) (by decide +kernel), Ex.actionCase (by decide +kernel), by simp [AttrFree],
    Ex.afails (tc := c!"true") (by decide +kernel) (by simp [AttrFree]) (by decide +kernel), by decide +kernel⟩

/-- An action constraint whose violation is explained. -/
example : ∃ msg, msg ≠ [] ∧ reasonAction (Ex.action 9 4) (Ex.ci Ex.tc1 Ex.ac1) = .ok msg :=
  ⟨Ex.get [] (reasonAction (Ex.action 9 4) (Ex.ci Ex.tc1 Ex.ac1)), by decide +kernel, Ex.get_of_isOk (by decide +kernel)⟩

/-! ### C41: dependence on the variables of the constraint -/

/-- C41: `GetVariables` gives exactly the names of the keys and parameters that occur. -/
theorem C41_variables (e : Expr) (n : Str) : n ∈ getVariables e ↔ Mentions e n := getVariables_iff e n

/-- C41: two entries of a table that agree on the keys mentioned in its constraint, on the priority, and on the
action, get the same answer: the same verdict with the same explanation, or the same error. -/
theorem C41_depends {ci : ConstraintInfo} {e₁ e₂ : RtEntry} {ti : TableInfo} {c : Expr} {ρ₁ ρ₂ : Env}
    (hf : lookup e₁.tableId ci.tables = some ti) (hid : e₁.tableId = e₂.tableId) (hwf : TableWF ti)
    (hc : ti.constraint = some c) (h1 : EntryOk ti e₁) (h2 : EntryOk ti e₂) (hρ1 : EntryEnv ti e₁ ρ₁)
    (hρ2 : EntryEnv ti e₂ ρ₂) (hk : ∀ n, Mentions c n → ρ₁.key n = ρ₂.key n) (hp : e₁.priority = e₂.priority)
    (ha : e₁.action = e₂.action) :
    reasonEntryViolatesConstraint e₁ ci = reasonEntryViolatesConstraint e₂ ci := by
  obtain ⟨ctx1, hc1⟩ := (parseTableEntry_iff hwf e₁).2 h1
  obtain ⟨ctx2, hc2⟩ := (parseTableEntry_iff hwf e₂).2 h2
  obtain ⟨he1, hs1, k1, hv1, hn1⟩ := parseTableEntry_env hwf hc1
  obtain ⟨he2, hs2, k2, hv2, hn2⟩ := parseTableEntry_env hwf hc2
  have hlook : ∀ n, Mentions c n → lookup n k1 = lookup n k2 := by
    intro n hn
    have h3 := hk n hn
    rw [← entryEnv_unique he1 hρ1, ← entryEnv_unique he2 hρ2] at h3
    simpa [envOf, hv1, hv2] using h3
  rw [reason_found hf, reason_found (hid ▸ hf), ha]
  unfold tableReason
  rw [hc]
  dsimp only
  rw [hc1, hc2]
  rw [checkConstraint_congr (hs1.trans hs2.symm) (by rw [hv1, hv2]; exact ⟨hp, hlook⟩) fun v text rel hrel => ?_]
  rw [hv1, hv2]
  unfold violationText
  dsimp only
  rw [hp]
  congr 1
  exact listing_congr rel hn1 hn2 _ fun k hk' => hlook k (hrel k hk')

/-- C41 for actions. -/
theorem C41_depends_action {ci : ConstraintInfo} {a₁ a₂ : RtAction} {ai : ActionInfo} {c : Expr} {ρ₁ ρ₂ : Env}
    (hf : lookup a₁.actionId ci.actions = some ai) (hid : a₁.actionId = a₂.actionId) (hwf : ActionWF ai)
    (hc : ai.constraint = some c) (h1 : ActionOk ai a₁) (h2 : ActionOk ai a₂) (hρ1 : ActionEnv ai a₁ ρ₁)
    (hρ2 : ActionEnv ai a₂ ρ₂) (hk : ∀ n, Mentions c n → ρ₁.param n = ρ₂.param n) :
    reasonAction a₁ ci = reasonAction a₂ ci := by
  obtain ⟨ctx1, hc1⟩ := (parseAction_iff hwf a₁).2 h1
  obtain ⟨ctx2, hc2⟩ := (parseAction_iff hwf a₂).2 h2
  obtain ⟨he1, hs1, k1, hv1, hn1⟩ := parseAction_env hwf hc1
  obtain ⟨he2, hs2, k2, hv2, hn2⟩ := parseAction_env hwf hc2
  have hlook : ∀ n, Mentions c n → lookup n k1 = lookup n k2 := by
    intro n hn
    have h3 := hk n hn
    rw [← actionEnv_unique he1 hρ1, ← actionEnv_unique he2 hρ2] at h3
    simpa [envOf, hv1, hv2] using h3
  rw [reasonAction_found hf hc, reasonAction_found (hid ▸ hf) hc, hc1, hc2]
  refine checkConstraint_congr (hs1.trans hs2.symm) (by rw [hv1, hv2]; exact hlook) fun v text rel hrel => ?_
  rw [hv1, hv2]
  unfold violationText
  dsimp only
  congr 1
  exact listing_congr rel hn1 hn2 _ fun k hk' => hlook k (hrel k hk')

/-- Two entries that differ in a key the constraint does not mention. -/
example : ∃ e₁ e₂ : RtEntry, e₁ ≠ e₂ ∧ e₁.priority = e₂.priority ∧
    reasonEntryViolatesConstraint e₁ (Ex.ci Ex.tc1 Ex.ac1) = reasonEntryViolatesConstraint e₂ (Ex.ci Ex.tc1 Ex.ac1) ∧
    ¬ Mentions ((Ex.ti Ex.tc1).constraint.getD (.notSet {})) c!"ran" :=
  ⟨Ex.entry 6, { Ex.entry 6 with matches_ := ⟨4, .range [2] [3]⟩ :: (Ex.entry 6).matches_ }, by decide, rfl,
    by decide +kernel, by rw [← C41_variables]; decide +kernel⟩

/-! ### C42: what the message of a violation says -/

/-- C42: a violation message names the constraint that explains the violation, by a quotation of its text, with
its value; the table; the priority; and then the keys that occur in it, one per line in lexicographic order, with
their values in the entry. -/
theorem C42_message {ci : ConstraintInfo} {entry : RtEntry} {ti : TableInfo} {s : SExpr} {ρ : Env} {msg : Str}
    (h : TableCase ci entry ti s ρ) (hf : Fails (sigOf (.table ti.keysByName)) ρ s)
    (hr : reasonEntryViolatesConstraint entry ci = .ok msg) :
    ∃ c ctx n cs v text prio, ∃ lines : List ((Str × Value) × Str),
      ti.constraint = some c ∧ parseTableEntry entry ti = .ok ctx ∧ minimalSub ctx c [] ([], []) = .ok (n, cs) ∧
      Val ctx n.1 v ∧ quoteSub ti.source n.1.start n.1.stop = .ok text ∧
      msg = c!"All entries must " ++ (if v then c!"not satisfy:\n\n" else c!"satisfy:\n\n") ++ text ++
        (if v then c!"\nBut your entry does.\n" else c!"\nBut your entry does not.\n") ++
        c!">>>Relevant Entry Info<<<\nTable Name: \"" ++ ti.name ++ c!"\"\nPriority:" ++ prio ++
        c!"\n" ++ (lines.map fun l => c!"Field: \"" ++ l.1.1 ++ c!"\" -> Value: " ++ l.2 ++ c!"\n").flatten ∧
      IntNumeral entry.priority prio ∧ (lines.Pairwise fun x y => Before x.1.1 y.1.1) ∧
      (∀ l ∈ lines, ValueText l.1.2 l.2) ∧
      ∀ k a, (k, a) ∈ lines.map Prod.fst ↔ Mentions n.1 k ∧ ρ.key k = some a := by
  have htab : tableReason entry ti = .ok msg ∧ msg ≠ [] := by
    rw [reason_found h.found, Res.bind_eq_ok] at hr
    obtain ⟨r, h1, h2⟩ := hr
    by_cases hm : r = []
    · subst hm
      exact absurd hf (holds_not_fails (h.satisfied h1))
    · rw [if_pos hm] at h2
      injection h2 with h2
      subst h2
      exact ⟨h1, hm⟩
  obtain ⟨htab, hne⟩ := htab
  obtain ⟨c, hc, _⟩ := h.checked
  unfold tableReason at htab
  rw [hc] at htab
  obtain ⟨ctx, n, v, text, hp, _, h1, h2, h3, h4⟩ := checkConstraint_msg hne htab
  obtain ⟨he, hs, keys, hv, hnd⟩ := parseTableEntry_env h.wf hp
  have h5 := (minimalSub_cache (ctx := ctx) (root := c) (p := []) rfl (C04_empty ctx c).1 (C04_empty ctx c).2).1
  rw [h1] at h5
  obtain ⟨lines, l1, l2, l3⟩ := listing_eq (getVariables n.1) hnd fun kv =>
    c!"Field: \"" ++ kv.1 ++ c!"\" -> Value: " ++ evalResultToString kv.2 ++ c!"\n"
  cases h6 : minimalSub ctx c [] ([], []) with
  | ok x =>
    obtain ⟨n', cs⟩ := x
    rw [h6] at h5
    injection h5 with h5
    simp only at h5
    subst h5
    have l4 : ∀ k a, (k, a) ∈ lines ↔ Mentions n'.1 k ∧ ρ.key k = some a := fun k a => by
      rw [l3, getVariables_iff, ← entryEnv_unique he h.env]
      simp [envOf, hv]
    refine ⟨c, ctx, n', cs, v, text, intDec entry.priority, lines.map fun l => (l, evalResultToString l.2), hc, hp, h6, h2,
      hs ▸ h3, ?_, intNumeral_iff.2 rfl, by simpa [List.pairwise_map] using l2, ?_, fun k a => by simpa using l4 k a⟩
    · rw [h4, hv]
      unfold violationText keyListing
      dsimp only
      rw [l1, List.map_map]
      cases v <;> simp only [List.append_assoc, if_true, Bool.false_eq_true, if_false] <;> rfl
    · intro l hl
      obtain ⟨⟨k, a⟩, hk, rfl⟩ := List.mem_map.1 hl
      obtain ⟨ki, _, hki⟩ := (h.env.key k a).1 ((l4 k a).1 hk).2
      exact valueText_of hki
  | _ => rw [h6] at h5; cases h5

/-- C42 for actions. -/
theorem C42_action_message {ci : ConstraintInfo} {a : RtAction} {ai : ActionInfo} {s : SExpr} {ρ : Env} {msg : Str}
    (h : ActionCase ci a ai s ρ) (hne : msg ≠ []) (hr : reasonAction a ci = .ok msg) :
    ∃ c ctx n cs v text, ∃ lines : List ((Str × Int) × Str),
      ai.constraint = some c ∧ parseAction a ai = .ok ctx ∧ minimalSub ctx c [] ([], []) = .ok (n, cs) ∧
      Val ctx n.1 v ∧ quoteSub ai.source n.1.start n.1.stop = .ok text ∧
      msg = c!"All actions must " ++ (if v then c!"not satisfy:\n\n" else c!"satisfy:\n\n") ++ text ++
        (if v then c!"\nBut your entry does.\n" else c!"\nBut your entry does not.\n") ++
        c!">>>Relevant Action Info<<<\nAction Name: \"" ++ ai.name ++ c!"\"\n" ++
        (lines.map fun l => c!"Param name: \"" ++ l.1.1 ++ c!"\" -> Value: " ++ l.2 ++ c!"\n").flatten ∧
      (lines.Pairwise fun x y => Before x.1.1 y.1.1) ∧ (∀ l ∈ lines, IntNumeral l.1.2 l.2) ∧
      ∀ k z, (k, z) ∈ lines.map Prod.fst ↔ Mentions n.1 k ∧ ρ.param k = some z := by
  obtain ⟨c, hc, _⟩ := h.checked
  rw [reasonAction_found h.found hc] at hr
  obtain ⟨ctx, n, v, text, hp, _, h1, h2, h3, h4⟩ := checkConstraint_msg hne hr
  obtain ⟨he, hs, keys, hv, hnd⟩ := parseAction_env h.wf hp
  have h5 := (minimalSub_cache (ctx := ctx) (root := c) (p := []) rfl (C04_empty ctx c).1 (C04_empty ctx c).2).1
  rw [h1] at h5
  obtain ⟨lines, l1, l2, l3⟩ := listing_eq (getVariables n.1) hnd fun kv =>
    c!"Param name: \"" ++ kv.1 ++ c!"\" -> Value: " ++ intDec kv.2 ++ c!"\n"
  cases h6 : minimalSub ctx c [] ([], []) with
  | ok x =>
    obtain ⟨n', cs⟩ := x
    rw [h6] at h5
    injection h5 with h5
    simp only at h5
    subst h5
    refine ⟨c, ctx, n', cs, v, text, lines.map fun l => (l, intDec l.2), hc, hp, h6, h2, hs ▸ h3, ?_,
      by simpa [List.pairwise_map] using l2, ?_, fun k a => ?_⟩
    · rw [h4, hv]
      unfold violationText paramListing
      dsimp only
      rw [l1, List.map_map]
      cases v <;> simp only [List.append_assoc, if_true, Bool.false_eq_true, if_false] <;> rfl
    · intro l hl
      obtain ⟨x, _, rfl⟩ := List.mem_map.1 hl
      exact intNumeral_iff.2 rfl
    · simp only [List.map_map, Function.comp_def, List.map_id']
      rw [l3, getVariables_iff, ← actionEnv_unique he h.env]
      simp [envOf, hv]
  | _ => rw [h6] at h5; cases h5

/-- C42: values of keys that are written alike are alike. -/
theorem C42_values {v w : Value} {s : Str} (h : ValueText v s) (h' : ValueText w s) : v = w := valueText_unique h h'

example : ∃ msg, reasonEntryViolatesConstraint (Ex.entry 6) (Ex.ci Ex.tc1 Ex.ac1) = .ok msg ∧
    c!"Table Name: \"tbl\"\nPriority:10\nField: \"ex\" -> Value: Exact{.value = 6}\n" <:+ msg :=
  ⟨Ex.get [] (reasonEntryViolatesConstraint (Ex.entry 6) (Ex.ci Ex.tc1 Ex.ac1)), Ex.get_of_isOk (by decide +kernel),
    by decide +kernel⟩

end P4C
