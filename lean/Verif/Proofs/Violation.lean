import Verif.Proofs.Accept
import Verif.Proofs.ValueText
import Verif.Spec.Violation
import Verif.Proofs.QuoteAny
/-!
# Reports about violations
-/
namespace P4C
open Spec

/-! ### Positions -/

theorem node_quotation {sys : Sys} {k : ConstraintKind} {src : ConstraintSource} {e y : Expr}
    (hp : parseConstraint sys k src = .ok e) (hline : 0 ≤ src.loc.line) (hcol : 0 ≤ src.loc.col) (hy : NodeOf y e) (q : Str) :
    quoteSub src y.start y.stop = .ok q ↔ Quotation src y.start y.stop q := by
  obtain ⟨toks, last, h1, h2, h3⟩ := parseConstraint_split.1 hp
  obtain ⟨⟨t, ht, hts⟩, w, hw, hws⟩ := G_ends h3 y hy
  have hf := lexed_flat (tokenize_lexed src) hcol
  have hl := lexed_lines (tokenize_lexed src)
  have a1 := hf t (by rw [h1]; simp [ht])
  have a2 := hf w (by rw [h1]; simp [hw])
  have a3 := hl t (by rw [h1]; simp [ht])
  rw [hts, hws]
  exact quoteSub_iff a3 (by omega) a1.2.1 (by omega)

/-! ### Messages -/

theorem checkConstraint_reports {c : Expr} {parse : Res EvalCtx} {msg : Str} :
    (checkConstraint c parse = .ok msg ∧ msg ≠ []) ↔ c.ty = .boolean ∧ ∃ ctx n v text, parse = .ok ctx ∧
      evalBoolP ctx c = .ok false ∧ minP ctx c [] = .ok n ∧ evalBoolP ctx n.1 = .ok v ∧
      quoteSub ctx.src n.1.start n.1.stop = .ok text ∧ msg = violationText ctx.vals v text (getVariables n.1) := by
  constructor
  · rintro ⟨h, hne⟩
    obtain ⟨ht, _⟩ := checkConstraint_violated hne h
    obtain ⟨ctx, n, v, text, h1, h2, h3, h4, h5, h6⟩ := checkConstraint_msg hne h
    exact ⟨ht, ctx, n, v, text, h1, val_boolP.2 h2, h3, val_boolP.2 h4, h5, h6⟩
  · rintro ⟨ht, ctx, n, v, text, rfl, h2, h3, h4, h5, rfl⟩
    obtain ⟨m, hm, hcheck⟩ := checkConstraint_false ht h2
    refine ⟨?_, violationText_ne_nil _ _ _ _⟩
    rw [hcheck, explain_eq (correct_cacheOk.2 hm), h3, Res.ok_bind, h4, Res.ok_bind, h5, Res.ok_bind]

theorem valueText_text {v : Value} {s : Str} (h : ValueText v s) : s = evalResultToString v := by
  cases h with
  | exact h => rw [intNumeral_iff.1 h]; rfl
  | ternary h h' => rw [intNumeral_iff.1 h, intNumeral_iff.1 h']; rfl
  | lpm h h' => rw [intNumeral_iff.1 h, intNumeral_iff.1 h']; rfl
  | range h h' => rw [intNumeral_iff.1 h, intNumeral_iff.1 h']; rfl

/-- Listings, as specified and as printed. -/
theorem listing_iff {α : Type} {rel : List Str} {m : List (Str × α)} (h : (m.map Prod.fst).Nodup) (show_ : α → Str)
    (R : α → Str → Prop) (f : Str → Str → Str) (hR : ∀ {a s}, R a s → s = show_ a)
    (hR' : ∀ k a, lookup k m = some a → R a (show_ a)) (out : Str) :
    out = ((ordered m).map fun kv => if kv.1 ∈ rel then f kv.1 (show_ kv.2) else []).flatten ↔
    ∃ lines : List ((Str × α) × Str), (lines.Pairwise fun x y => Before x.1.1 y.1.1) ∧ (∀ l ∈ lines, R l.1.2 l.2) ∧
      (∀ k a, (k, a) ∈ lines.map Prod.fst ↔ k ∈ rel ∧ lookup k m = some a) ∧
      out = (lines.map fun l => f l.1.1 l.2).flatten := by
  obtain ⟨ls, l1, l2, l3⟩ := listing_eq rel h fun kv => f kv.1 (show_ kv.2)
  rw [l1]
  constructor
  · rintro rfl
    refine ⟨ls.map fun l => (l, show_ l.2), by simpa [List.pairwise_map] using l2, fun l hl => ?_,
      fun k a => by simpa using l3 k a, ?_⟩
    · obtain ⟨⟨k, a⟩, hk, rfl⟩ := List.mem_map.1 hl
      exact hR' k a ((l3 k a).1 hk).2
    · rw [List.map_map]; rfl
  · rintro ⟨lines, k1, k2, k3, rfl⟩
    have : lines.map Prod.fst = ls := by
      refine sorted_ext ?_ (l2.imp fun h => strLt_iff.2 h) fun x => ?_
      · rw [List.pairwise_map]
        exact k1.imp fun h => strLt_iff.2 h
      · rw [k3, l3]
    subst this
    rw [List.map_map]
    congr 1
    refine List.map_congr_left fun l hl => ?_
    simp only [Function.comp_apply]
    rw [← hR (k2 l hl)]

/-- The report about a violation, without the details of the entry. -/
theorem judged_reports {sys : Sys} {k : ConstraintKind} {src : ConstraintSource} {sc : Scope} {ctx : EvalCtx} {name : Str}
    (hc : Provides (sigOf sc) (envOf ctx)) (hw : WidthsOk (sigOf sc)) (hn : Named name (sigOf sc) ctx)
    (hbare : ∀ {y c : Expr}, inferAndCheck src sc y = .ok c → (CorrectSizes.NoBareParam c ↔ CorrectSizes.NoBareParam y))
    (hnb : NoBoolNames (sigOf sc)) {e c : Expr} {s : SExpr} (h : inferAndCheck src sc e = .ok c) (ha : abs e = some s)
    (hb : c.ty = .boolean) (hp : parseConstraint sys k src = .ok e) (hline : 0 ≤ src.loc.line) (hcol : 0 ≤ src.loc.col)
    (hsrc : ctx.src = src) {msg : Str} :
    (∃ n v text, evalBoolP ctx c = .ok false ∧ minP ctx c [] = .ok n ∧ evalBoolP ctx n.1 = .ok v ∧
      quoteSub ctx.src n.1.start n.1.stop = .ok text ∧ msg = violationText ctx.vals v text (getVariables n.1)) ↔
    ∃ y y' v text, Evaluates (sigOf sc) (envOf ctx) s .boolean (.bool false) ∧ Explained (sigOf sc) (envOf ctx) e y ∧
      Valued (sigOf sc) (envOf ctx) y v ∧ Quotation src y.start y.stop text ∧ inferAndCheck src sc y = .ok y' ∧
      msg = violationText ctx.vals v text (getVariables y') := by
  have hval : ∀ {y y' : Expr}, Explained (sigOf sc) (envOf ctx) e y → inferAndCheck src sc y = .ok y' →
      (∀ v, evalBoolP ctx y' = .ok v ↔ Valued (sigOf sc) (envOf ctx) y v) ∧
      ∀ text, quoteSub ctx.src y'.start y'.stop = .ok text ↔ Quotation src y.start y.stop text := by
    intro y y' hy hy'
    obtain ⟨sy, ha', _⟩ := skeleton_abs hy.skeleton ha
    obtain ⟨q, hq⟩ := (minP_explained hc hw hn hbare hnb h ha hb [] y').2 ⟨y, hy, hy'⟩
    have hs := skeleton_boolean (justifies_skeleton (minP_best c [] _ hq).1) (infer_boolShape hnb h hb)
    refine ⟨fun v => boolP_valued hc hw hn hy' ha' (boolShape_ty hy' hs) v, fun text => ?_⟩
    obtain ⟨h1, h2⟩ := infer_span hy'
    rw [hsrc, h1, h2]
    exact node_quotation hp hline hcol (skeleton_node hy.skeleton) text
  have hroot := fun b => evalBoolP_evaluates hc hw hn h ha hb b
  constructor
  · rintro ⟨n, v, text, h1, h2, h3, h4, h5⟩
    obtain ⟨y, g1, g2⟩ := (minP_explained hc hw hn hbare hnb h ha hb [] n.1).1 ⟨n.2, h2⟩
    obtain ⟨k1, k2⟩ := hval g1 g2
    exact ⟨y, n.1, v, text, (hroot _).1 h1, g1, (k1 v).1 h3, (k2 text).1 h4, g2, h5⟩
  · rintro ⟨y, y', v, text, h1, h2, h3, h4, h5, h6⟩
    obtain ⟨k1, k2⟩ := hval h2 h5
    obtain ⟨q, hq⟩ := (minP_explained hc hw hn hbare hnb h ha hb [] y').2 ⟨y, h2, h5⟩
    exact ⟨(y', q), v, text, (hroot _).2 h1, hq, (k1 v).2 h3, (k2 text).2 h4, h6⟩

/-! ### Tables -/

theorem violation_table {t : EntryVals} {v : Bool} {text : Str} {rel : List Str} :
    violationText (.table t) v text rel = violation c!"entries" v text ++
      c!">>>Relevant Entry Info<<<\nTable Name: \"" ++ t.tableName ++ c!"\"\nPriority:" ++ intDec t.priority ++ c!"\n" ++
      keyListing rel t.keys := by
  unfold violationText violation
  cases v <;> simp only [List.append_assoc, if_true, Bool.false_eq_true, if_false] <;> rfl

theorem violation_action {a : ActionVals} {v : Bool} {text : Str} {rel : List Str} :
    violationText (.action a) v text rel = violation c!"actions" v text ++
      c!">>>Relevant Action Info<<<\nAction Name: \"" ++ a.actionName ++ c!"\"\n" ++ paramListing rel a.params := by
  unfold violationText violation
  cases v <;> simp only [List.append_assoc, if_true, Bool.false_eq_true, if_false] <;> rfl

section
variable {sys : Sys} {d : TableDecl} {ti : TableInfo} (h : parseTableInfo sys d = .ok ti)
  (hw : ∀ f ∈ d.matchFields, 0 ≤ f.bitwidth) {entry : RtEntry}

include h hw in
theorem tableReason_reports {m : Str} :
    (tableReason entry ti = .ok m ∧ m ≠ []) ↔ TableReport sys.inetPton6 d entry m := by
  have hwf := parseTableInfo_wf h
  cases hc : ti.constraint with
  | none =>
    obtain ⟨vs, h1, h2, h3, h4⟩ := parseTableInfo_parts h
    rw [hc] at h4
    have ha := parseAndCheck_none h4
    unfold tableReason
    rw [hc]
    constructor
    · rintro ⟨he, hm⟩
      cases he
      exact (hm rfl).elim
    · rintro ⟨vs', src, e, y, s, ρ, v, text, prio, lines, _, hr, _⟩
      cases hr with
      | some ha' => cases attached_unique ha ha'
  | some c =>
    obtain ⟨vs, e, s, r⟩ := table_read h hc
    have hname : ti.name = d.preamble.name := (parseTableInfo_is h).2.1
    obtain ⟨hset, hline, hcol⟩ := attached_named r.attached
    have hsig : sigOf (.table ti.keysByName) = keySig vs := sig_keys r.maps
    have htr : tableReason entry ti = checkConstraint c (parseTableEntry entry ti) := by
      unfold tableReason
      rw [hc]
    rw [htr, checkConstraint_reports]
    have hjudged := fun {ctx : EvalCtx} (hp : parseTableEntry entry ti = .ok ctx) (hb : c.ty = .boolean) =>
      have henv := (parseTableEntry_env hwf hp).1
      have hcons := entry_consistent hwf ((parseTableEntry_iff hwf entry).1 ⟨ctx, hp⟩) henv
      judged_reports (name := []) (ctx := ctx) (k := .table) (src := ti.source) (sc := .table ti.keysByName) (sys := sys)
        ⟨fun n t => hcons.1 n t, fun n t z hn => by simp [sigOf] at hn⟩ (by rw [hsig]; exact keySig_widths r.keys hw)
        (.inr fun n => rfl) (fun hy => ⟨fun _ => infer_bare_table hy, fun _ => infer_noBare hy⟩) (tableInfo_noBool h)
        r.typed r.meant hb r.parsed hline hcol (parseTableEntry_env hwf hp).2.1 (msg := m)
    have hlist := fun {ctx : EvalCtx} (hp : parseTableEntry entry ti = .ok ctx) {y y' : Expr} {v : Bool} {text : Str}
        (hy : inferAndCheck ti.source (.table ti.keysByName) y = .ok y') =>
      show m = violationText ctx.vals v text (getVariables y') ↔ ∃ (prio : Str) (lines : List ((Str × Value) × Str)),
          IntNumeral entry.priority prio ∧ (lines.Pairwise fun x y => Before x.1.1 y.1.1) ∧
          (∀ l ∈ lines, ValueText l.1.2 l.2) ∧ (∀ k a, (k, a) ∈ lines.map Prod.fst ↔ Mentions y k ∧ (envOf ctx).key k = some a) ∧
          m = violation c!"entries" v text ++ c!">>>Relevant Entry Info<<<\nTable Name: \"" ++ d.preamble.name ++
            c!"\"\nPriority:" ++ prio ++ c!"\n" ++
            (lines.map fun l => c!"Field: \"" ++ l.1.1 ++ c!"\" -> Value: " ++ l.2 ++ c!"\n").flatten from by
        obtain ⟨henv, _, keys, hv, hnd⟩ := parseTableEntry_env hwf hp
        have hk : ∀ k, (envOf ctx).key k = lookup k keys := fun k => by simp [envOf, hv]
        have hl := listing_iff (rel := getVariables y') hnd evalResultToString ValueText
          (fun k t => c!"Field: \"" ++ k ++ c!"\" -> Value: " ++ t ++ c!"\n") valueText_text
          (fun k a ha => by
            rw [← hk] at ha
            obtain ⟨ki, _, hki⟩ := (henv.key k a).1 ha
            exact valueText_of hki)
        have hm : ∀ k, k ∈ getVariables y' ↔ Mentions y k := fun k => (getVariables_iff y' k).trans (infer_mentions hy k)
        rw [hv, violation_table]
        dsimp only
        rw [hname]
        constructor
        · rintro rfl
          obtain ⟨lines, l1, l2, l3, l4⟩ := (hl _).1 rfl
          refine ⟨_, lines, intNumeral_iff.2 rfl, l1, l2, fun k a => by rw [l3, hm, hk], ?_⟩
          rw [← l4]
          rfl
        · rintro ⟨prio, lines, l0, l1, l2, l3, rfl⟩
          rw [(hl _).2 ⟨lines, l1, l2, fun k a => by rw [l3, hm, hk], rfl⟩, intNumeral_iff.1 l0]
          rfl
    constructor
    · rintro ⟨hb, ctx, n, v, text, hp, hrest⟩
      obtain ⟨y, y', v, text, h1, h2, h3, h4, h5, h6⟩ := (hjudged hp hb).1 ⟨n, v, text, hrest⟩
      obtain ⟨prio, lines, l0, l1, l2, l3, l4⟩ := (hlist hp h5).1 h6
      obtain ⟨-, g2, g3⟩ := r.value h hb hw hp false
      rw [hsig] at h1 h2 h3
      exact ⟨vs, _, e, y, s, envOf ctx, v, text, prio, lines, r.keys, hb ▸ r.read, g2, g3, h1, h2, h3, h4, l0, l1, l2, l3, l4⟩
    · rintro ⟨vs', src', e', y, s', ρ', v, text, prio, lines, g1, g2, g3, g4, h1, h2, h3, h4, l0, l1, l2, l3, l4⟩
      cases each_unique (R := KeyDecl) (fun _ _ _ => keyDecl_unique) r.keys g1
      have hu := readConstraint_unique r.read g2
      simp only [Option.some.injEq, Prod.mk.injEq] at hu
      obtain ⟨rfl, rfl, rfl, hb⟩ := hu
      obtain ⟨ctx, hp⟩ := (parseTableEntry_iff hwf entry).2 ((entryOk_fits r.maps).2 g3)
      have he := entryEnv_unique (parseTableEntry_env hwf hp).1 ((entryEnv_means r.maps).2 g4)
      rw [← he] at h1 h2 h3 l3
      rw [← hsig] at h1 h2 h3
      obtain ⟨y', hy'⟩ := explained_typed r.typed h2
      obtain ⟨n, v, text, hrest⟩ := (hjudged hp hb).2 ⟨y, y', v, text, h1, h2, h3, h4, hy', (hlist hp hy').2 ⟨prio, lines, l0, l1, l2, l3, l4⟩⟩
      exact ⟨hb, ctx, n, v, text, hp, hrest⟩

end

/-! ### Actions -/

section
variable {sys : Sys} {d : ActionDecl} {ai : ActionInfo} (h : parseActionInfo sys d = .ok ai)
  (hw : ∀ f ∈ d.params, 0 ≤ f.bitwidth) {a : RtAction}

include h hw in
theorem actionReason_reports {m : Str} :
    (actionReason a ai = .ok m ∧ m ≠ []) ↔ ActionReport sys.inetPton6 d a m := by
  have hwf := parseActionInfo_wf h
  cases hc : ai.constraint with
  | none =>
    obtain ⟨vs, h1, h2, h3, h4⟩ := parseActionInfo_parts h
    rw [hc] at h4
    have ha := parseAndCheck_none h4
    unfold actionReason
    rw [hc]
    constructor
    · rintro ⟨he, hm⟩
      cases he
      exact (hm rfl).elim
    · rintro ⟨vs', src, e, y, s, ρ, v, text, lines, _, hr, _⟩
      cases hr with
      | some ha' => cases attached_unique ha ha'
  | some c =>
    obtain ⟨vs, e, s, r⟩ := action_read h hc
    have hname : ai.name = d.preamble.name := (parseActionInfo_is h).2.1
    obtain ⟨hset, hline, hcol⟩ := attached_named r.attached
    have hsig : sigOf (.action ai.paramsByName) = paramSig vs := sig_params r.maps
    have htr : actionReason a ai = checkConstraint c (parseAction a ai) := by
      unfold actionReason
      rw [hc]
    rw [htr, checkConstraint_reports]
    have hbits : ∀ n t, (sigOf (.action ai.paramsByName)).param n = some t → Supported t → ∃ w, t = .fixedUnsigned w := by
      intro n t hn hs
      simp only [sigOf, Option.map_eq_some_iff] at hn
      obtain ⟨pi, hpi, rfl⟩ := hn
      exact parseActionInfo_bits h _ _ (hwf.lookup_name.1 hpi) hs
    have hjudged := fun {ctx : EvalCtx} (hp : parseAction a ai = .ok ctx) (hb : c.ty = .boolean) =>
      judged_reports (name := ai.name) (ctx := ctx) (k := .action) (src := ai.source) (sc := .action ai.paramsByName) (sys := sys)
        ⟨fun n t hn => by simp [sigOf] at hn, fun n t z hn hs _ => by
          obtain ⟨w, rfl⟩ := hbits n t hn hs
          exact .bit _ _⟩
        (by rw [hsig]; exact paramSig_widths r.params hw)
        (.inl ⟨_, (parseAction_env hwf hp).2.2.choose_spec.1, rfl⟩)
        (fun hy => (infer_bare_action hbits hy).1) (actionInfo_noBool h)
        r.typed r.meant hb r.parsed hline hcol (parseAction_env hwf hp).2.1 (msg := m)
    have hlist := fun {ctx : EvalCtx} (hp : parseAction a ai = .ok ctx) {y y' : Expr} {v : Bool} {text : Str}
        (hy : inferAndCheck ai.source (.action ai.paramsByName) y = .ok y') =>
      show m = violationText ctx.vals v text (getVariables y') ↔ ∃ (lines : List ((Str × Int) × Str)),
          (lines.Pairwise fun x y => Before x.1.1 y.1.1) ∧
          (∀ l ∈ lines, IntNumeral l.1.2 l.2) ∧ (∀ k a, (k, a) ∈ lines.map Prod.fst ↔ Mentions y k ∧ (envOf ctx).param k = some a) ∧
          m = violation c!"actions" v text ++ c!">>>Relevant Action Info<<<\nAction Name: \"" ++ d.preamble.name ++ c!"\"\n" ++
            (lines.map fun l => c!"Param name: \"" ++ l.1.1 ++ c!"\" -> Value: " ++ l.2 ++ c!"\n").flatten from by
        obtain ⟨henv, _, keys, hv, hnd⟩ := parseAction_env hwf hp
        have hk : ∀ k, (envOf ctx).param k = lookup k keys := fun k => by simp [envOf, hv]
        have hl := listing_iff (rel := getVariables y') hnd intDec IntNumeral
          (fun k t => c!"Param name: \"" ++ k ++ c!"\" -> Value: " ++ t ++ c!"\n") intNumeral_iff.1
          (fun k a ha => intNumeral_iff.2 rfl)
        have hm : ∀ k, k ∈ getVariables y' ↔ Mentions y k := fun k => (getVariables_iff y' k).trans (infer_mentions hy k)
        rw [hv, violation_action]
        dsimp only
        rw [hname]
        constructor
        · rintro rfl
          obtain ⟨lines, l1, l2, l3, l4⟩ := (hl _).1 rfl
          refine ⟨lines, l1, l2, fun k a => by rw [l3, hm, hk], ?_⟩
          rw [← l4]
          rfl
        · rintro ⟨lines, l1, l2, l3, rfl⟩
          rw [(hl _).2 ⟨lines, l1, l2, fun k a => by rw [l3, hm, hk], rfl⟩]
          rfl
    constructor
    · rintro ⟨hb, ctx, n, v, text, hp, hrest⟩
      obtain ⟨y, y', v, text, h1, h2, h3, h4, h5, h6⟩ := (hjudged hp hb).1 ⟨n, v, text, hrest⟩
      obtain ⟨lines, l1, l2, l3, l4⟩ := (hlist hp h5).1 h6
      obtain ⟨-, g2, g3⟩ := r.value h hb hw hp false
      rw [hsig] at h1 h2 h3
      exact ⟨vs, _, e, y, s, envOf ctx, v, text, lines, r.params, hb ▸ r.read, g2, g3, h1, h2, h3, h4, l1, l2, l3, l4⟩
    · rintro ⟨vs', src', e', y, s', ρ', v, text, lines, g1, g2, g3, g4, h1, h2, h3, h4, l1, l2, l3, l4⟩
      cases each_unique (R := ParamIs) (fun _ _ _ => paramIs_unique) r.params g1
      have hu := readConstraint_unique r.read g2
      simp only [Option.some.injEq, Prod.mk.injEq] at hu
      obtain ⟨rfl, rfl, rfl, hb⟩ := hu
      have hp : ∃ ctx, parseAction a ai = .ok ctx := by
        rcases parseActionM_outcome (a := a) r.distinct r.maps with ⟨text, _, hf⟩ | ⟨ctx, h2, _⟩
        · exact (argsFault_not_fits hf g3).elim
        · exact ⟨ctx, by rw [← erase_parseAction, h2]; rfl⟩
      obtain ⟨ctx, hp⟩ := hp
      have he := actionEnv_unique (parseAction_env hwf hp).1 ((actionEnv_means r.maps).2 g4)
      rw [← he] at h1 h2 h3 l3
      rw [← hsig] at h1 h2 h3
      obtain ⟨y', hy'⟩ := explained_typed r.typed h2
      obtain ⟨n, v, text, hrest⟩ := (hjudged hp hb).2 ⟨y, y', v, text, h1, h2, h3, h4, hy', (hlist hp hy').2 ⟨lines, l1, l2, l3, l4⟩⟩
      exact ⟨hb, ctx, n, v, text, hp, hrest⟩

end

/-! ### Programs -/

section
variable {sys : Sys} {p : P4Info} {ci : ConstraintInfo} (h : p4ToConstraintInfo sys p = .ok ci) (hw : NonNegProgram p)

include h hw

theorem reasonAction_reports {a : RtAction} {m : Str} : (reasonAction a ci = .ok m ∧ m ≠ []) ↔
    ∃ d ∈ p.actions, d.preamble.id = a.actionId ∧ ActionReport sys.inetPton6 d a m := by
  cases hl : lookup a.actionId ci.actions with
  | none =>
    have := unknown_action h hl
    unfold reasonAction getActionInfo
    rw [hl]
    constructor
    · rintro ⟨h, _⟩; cases h
    · rintro ⟨d, h1, h2, _⟩
      exact (this d h1 h2).elim
  | some ai =>
    obtain ⟨d, h1, h2, h3⟩ := (action_of_info h).1 hl
    rw [reasonAction_info hl, actionReason_reports h3 (hw.2 d h1)]
    constructor
    · exact fun hp => ⟨d, h1, h2, hp⟩
    · rintro ⟨d', h1', h2', hp⟩
      obtain ⟨ai', h4, h5⟩ := action_declared h h1'
      rw [h2', hl] at h4
      cases h4
      rw [← actionReason_reports h3 (hw.2 d h1)]
      exact (actionReason_reports h5 (hw.2 d' h1')).2 hp

theorem reasonActionSet_reports {as : List RtAction} {m : Str} : (reasonActionSet ci as = .ok m ∧ m ≠ []) ↔
    ∃ pre a post, as = pre ++ a :: post ∧ (∀ b ∈ pre, ActionAccepted sys.inetPton6 p b) ∧
      ∃ d ∈ p.actions, d.preamble.id = a.actionId ∧ ActionReport sys.inetPton6 d a m := by
  induction as with
  | nil =>
    constructor
    · rintro ⟨he, hm⟩
      cases he
      exact (hm rfl).elim
    · rintro ⟨pre, a, post, he, _⟩
      cases pre <;> cases he
  | cons a as ih =>
    unfold reasonActionSet
    constructor
    · rintro ⟨hr, hm⟩
      obtain ⟨r, h1, h2⟩ := Res.bind_eq_ok.1 hr
      by_cases hn : r = []
      · subst hn
        obtain ⟨pre, b, post, rfl, h4, h5⟩ := ih.1 ⟨by simpa using h2, hm⟩
        refine ⟨a :: pre, b, post, rfl, fun x hx => ?_, h5⟩
        rcases List.mem_cons.1 hx with rfl | hx
        · exact (reasonAction_accepts h hw).1 h1
        · exact h4 x hx
      · rw [if_pos hn] at h2
        cases h2
        exact ⟨[], a, as, rfl, by simp, (reasonAction_reports h hw).1 ⟨h1, hm⟩⟩
    · rintro ⟨pre, b, post, he, h4, h5⟩
      cases pre with
      | nil =>
        cases he
        obtain ⟨h1, hm⟩ := (reasonAction_reports h hw).2 h5
        refine ⟨?_, hm⟩
        rw [h1, Res.ok_bind, if_pos hm]
      | cons x pre =>
        cases he
        have h1 := (reasonAction_accepts h hw).2 (h4 a (by simp))
        obtain ⟨k1, k2⟩ := ih.2 ⟨pre, b, post, rfl, fun y hy => h4 y (by simp [hy]), h5⟩
        refine ⟨?_, k2⟩
        rw [h1, Res.ok_bind]
        simpa using k1

theorem reason_reports {entry : RtEntry} {m : Str} : (reasonEntryViolatesConstraint entry ci = .ok m ∧ m ≠ []) ↔
    ReportsViolation sys.inetPton6 p entry m := by
  have hact : (reasonTableAction ci entry.action = .ok m ∧ m ≠ []) ↔
      ∃ pre a post, actionsOf entry.action = some (pre ++ a :: post) ∧ (∀ b ∈ pre, ActionAccepted sys.inetPton6 p b) ∧
        ∃ da ∈ p.actions, da.preamble.id = a.actionId ∧ ActionReport sys.inetPton6 da a m := by
    have hset : ∀ as, (reasonActionSet ci as = .ok m ∧ m ≠ []) ↔
        ∃ pre a post, some as = some (pre ++ a :: post) ∧ (∀ b ∈ pre, ActionAccepted sys.inetPton6 p b) ∧
          ∃ da ∈ p.actions, da.preamble.id = a.actionId ∧ ActionReport sys.inetPton6 da a m := fun as => by
      rw [reasonActionSet_reports h hw]
      simp only [Option.some.injEq]
    cases entry.action with
    | none => exact hset []
    | some ta =>
      cases ta with
      | action a =>
        refine Iff.trans ?_ (hset [a])
        have : reasonActionSet ci [a] = reasonAction a ci := by
          unfold reasonActionSet reasonActionSet
          cases hr : reasonAction a ci with
          | ok r =>
            rw [Res.ok_bind]
            by_cases hn : r = []
            · rw [if_neg (by simp [hn]), hn]
            · rw [if_pos hn]
          | _ => rfl
        rw [this]
        rfl
      | actionSet as => exact hset as
      | memberId | groupId | notSet =>
        constructor
        · rintro ⟨h, _⟩; cases h
        · rintro ⟨_, _, _, h, _⟩; cases h
  cases hl : lookup entry.tableId ci.tables with
  | none =>
    have := unknown_table h hl
    unfold reasonEntryViolatesConstraint getTableInfo
    rw [hl]
    constructor
    · rintro ⟨h, _⟩; cases h
    · rintro ⟨d, h1, h2, _⟩
      exact (this d h1 h2).elim
  | some ti =>
    obtain ⟨d, h1, h2, h3⟩ := (table_of_info h).1 hl
    rw [reason_found hl]
    constructor
    · rintro ⟨hr, hm⟩
      obtain ⟨r, g1, g2⟩ := Res.bind_eq_ok.1 hr
      refine ⟨d, h1, h2, ?_⟩
      by_cases hn : r = []
      · subst hn
        simp only [ne_eq, not_true, if_false] at g2
        exact .inr ⟨(tableReason_accepts h3 (hw.1 d h1)).1 g1, hact.1 ⟨g2, hm⟩⟩
      · rw [if_pos hn] at g2
        cases g2
        exact .inl ((tableReason_reports h3 (hw.1 d h1)).1 ⟨g1, hm⟩)
    · rintro ⟨d', h1', h2', hp⟩
      obtain ⟨ti', h4, h5⟩ := table_declared h h1'
      rw [h2', hl] at h4
      cases h4
      rcases hp with hp | ⟨hp, ha⟩
      · obtain ⟨k1, k2⟩ := (tableReason_reports h5 (hw.1 d' h1')).2 hp
        rw [k1, Res.ok_bind, if_pos k2]
        exact ⟨rfl, k2⟩
      · obtain ⟨k1, k2⟩ := hact.2 ha
        rw [(tableReason_accepts h5 (hw.1 d' h1')).2 hp, Res.ok_bind]
        exact ⟨by simpa using k1, k2⟩

end

end P4C
