import Verif.Proofs.Judge
import Verif.Proofs.Report
import Verif.Proofs.Verdict

/-
Entries for the tables of a program: when there is an error instead of a verdict, and which one.
-/

namespace P4C

open Spec MRes

theorem readConstraint_unique {pton : Str → Option Bytes} {k : ConstraintKind} {Γ : Sig} {p : Preamble}
    {r r' : Option (ConstraintSource × Expr × SExpr × Ty)} (h : ReadConstraint pton k Γ p r)
    (h' : ReadConstraint pton k Γ p r') : r = r' := by
  cases h with
  | none h1 =>
    cases h' with
    | none => rfl
    | some h2 => cases attached_unique h1 h2
  | @some src ts e s t h1 h2 h3 h4 h5 =>
    cases h' with
    | none h6 => cases attached_unique h1 h6
    | @some src' ts' e' s' t' g1 g2 g3 g4 g5 =>
      cases attached_unique h1 g1
      rw [← tokenize_iff] at h2 g2
      subst h2; subst g2
      rw [show pton = (⟨pton⟩ : Sys).inetPton6 from rfl, ← parseConstraint_iff] at h3 g3
      rw [h3] at g3
      cases g3
      rw [h4] at g4
      cases g4
      rw [hasTy_unique h5 g5]

/-- What is stored of a constraint, and where it comes from. -/
theorem parseAndCheck_stored {sys : Sys} {k : ConstraintKind} {p : Preamble} {sc : Scope} {c : Expr} {src : ConstraintSource}
    (h : parseAndCheck sys k p sc = .ok (some c, src)) :
    ∃ e s, Attached k p (some src) ∧ parseConstraint sys k src = .ok e ∧ abs e = some s ∧ inferAndCheck src sc e = .ok c ∧
      ReadConstraint sys.inetPton6 k (sigOf sc) p (some (src, e, s, c.ty)) := by
  rcases parseAndCheck_iff.1 h with ⟨_, h2, _⟩ | ⟨e, c', s, h1, h2, h3, h4, h5⟩
  · cases h2
  · cases h5
    exact ⟨e, s, h1, parseConstraint_iff.2 h2, h3, h4, .some h1 (tokenize_iff.1 rfl) h2 h3 (infer_sound h4 h3)⟩

theorem parseAndCheck_none {sys : Sys} {k : ConstraintKind} {p : Preamble} {sc : Scope} {src : ConstraintSource}
    (h : parseAndCheck sys k p sc = .ok (none, src)) : Attached k p none := by
  rcases parseAndCheck_iff.1 h with ⟨h1, _, _⟩ | ⟨e, c', s, h1, h2, h3, h4, h5⟩
  · exact h1
  · cases h5

theorem keyDecl_kind {fs : List MatchField} {vs : List VarInfo} (h : Each KeyDecl fs vs) (hw : ∀ f ∈ fs, 0 ≤ f.bitwidth) :
    ∀ ki ∈ vs, MatchKind ki.ty ∨ ∃ k, ki.ty = .unsupported k := by
  intro ki hki
  obtain ⟨f, hf', hf⟩ := each_mem h ki hki
  have hn := hw f hf'
  cases hf with
  | other => exact .inr ⟨_, rfl⟩
  | exact _ _ w | ternary _ _ w | lpm _ _ w | range _ _ w | optional _ _ w =>
    obtain ⟨n, rfl⟩ := Int.eq_ofNat_of_zero_le hn
    exact .inl (by constructor)

/-- The message of an error while parsing an entry. -/
theorem annotate_err {α : Type} {t : Str} {r : MRes α} {c : Code} {m : Str} (h : r.annotate t = .err c m) :
    ∃ m', r = .err c m' ∧ (m' ≠ [] → m = m' ++ c!"; " ++ t) := by
  cases r with
  | err c' m' =>
    unfold MRes.annotate at h
    cases h
    exact ⟨m', rfl, fun hn => if_neg hn⟩
  | _ => cases h

theorem annotate_eq_ok {α : Type} {t : Str} {r : MRes α} {a : α} : r.annotate t = .ok a ↔ r = .ok a := by
  cases r <;> simp [MRes.annotate]

/-- `checkConstraintM` in terms of `judgeM`. -/
theorem checkConstraintM_eq {x : EntryTexts} {kind name : Str} {e : Expr} {parse : MRes EvalCtx} (hb : e.ty = .boolean) :
    checkConstraintM x kind name e parse =
      (parse.annotate (c!" while parsing P4RT table entry for " ++ kind ++ c!" '" ++ name ++ c!"':") >>= fun ctx => judgeM x ctx e) := by
  unfold checkConstraintM
  rw [if_neg (by simp [hb])]
  rfl

theorem matchesFault_ne {x : EntryTexts} {vs : List VarInfo} {ms : List FieldMatch} {c : Code} {text : Str}
    (h : MatchesFault x vs ms c text) : text ≠ [] := by
  cases h with
  | bad _ h => cases h <;> simp
  | _ => simp

theorem argsFault_ne {vs : List VarInfo} {ps : List (Nat × Bytes)} {text : Str} (h : ArgsFault vs ps text) : text ≠ [] := by
  cases h <;> simp

/-! ### Tables -/

/-- The table part of the check. -/
def tableReasonM (x : EntryTexts) (entry : RtEntry) (ti : TableInfo) : MRes Str :=
  match ti.constraint with
  | none => .ok []
  | some c => checkConstraintM x c!"table" ti.name c (parseTableEntryM x entry ti)

/-- The constraint of a table, before and after reading. -/
structure TableRead (sys : Sys) (d : TableDecl) (ti : TableInfo) (vs : List VarInfo) (c e : Expr) (s : SExpr) : Prop where
  keys : Each KeyDecl d.matchFields vs
  distinct : Distinct vs
  maps : Maps vs ti.keysById ti.keysByName
  parsed : parseConstraint sys .table ti.source = .ok e
  meant : abs e = some s
  typed : inferAndCheck ti.source (.table ti.keysByName) e = .ok c
  attached : Attached .table d.preamble (some ti.source)
  read : ReadConstraint sys.inetPton6 .table (keySig vs) d.preamble (some (ti.source, e, s, c.ty))

theorem table_read {sys : Sys} {d : TableDecl} {ti : TableInfo} {c : Expr} (h : parseTableInfo sys d = .ok ti)
    (hc : ti.constraint = some c) : ∃ vs e s, TableRead sys d ti vs c e s := by
  obtain ⟨vs, h1, h2, h3, h4⟩ := parseTableInfo_parts h
  rw [hc] at h4
  obtain ⟨e, s, g1, g2, g3, g4, g5⟩ := parseAndCheck_stored h4
  rw [sig_keys h3] at g5
  exact ⟨vs, e, s, h1, h2, h3, g2, g3, g4, g1, g5⟩

theorem TableRead.judged {sys : Sys} {d : TableDecl} {ti : TableInfo} {vs : List VarInfo} {c e : Expr} {s : SExpr}
    (r : TableRead sys d ti vs c e s) (h : parseTableInfo sys d = .ok ti) (hb : c.ty = .boolean)
    (hw : ∀ f ∈ d.matchFields, 0 ≤ f.bitwidth)
    {entry : RtEntry} {ctx : EvalCtx} (hp : parseTableEntry entry ti = .ok ctx) :
    Judged sys .table ti.source (.table ti.keysByName) ctx d.preamble.name e c s ∧
    EntryFits vs entry ∧ EntryMeans vs entry (envOf ctx) := by
  have hwf := parseTableInfo_wf h
  obtain ⟨henv, hsrc, _⟩ := parseTableEntry_env hwf hp
  have hok := (parseTableEntry_iff hwf entry).1 ⟨ctx, hp⟩
  have hcons := entry_consistent hwf hok henv
  obtain ⟨hset, hline, hcol⟩ := attached_named r.attached
  refine ⟨⟨r.parsed, r.typed, r.meant, hb, tableInfo_noBool h, hset, hline, hcol, hsrc,
    ⟨fun n t => ?_, fun n t z hn => ?_⟩, ?_, .inr fun n => rfl, paramsBare_table⟩, (entryOk_fits r.maps).1 hok, (entryEnv_means r.maps).1 henv⟩
  · exact hcons.1 n t
  · simp [sigOf] at hn
  · rw [sig_keys r.maps]
    exact keySig_widths r.keys hw

section
variable {x : EntryTexts} {sys : Sys} {d : TableDecl} {ti : TableInfo} (h : parseTableInfo sys d = .ok ti)
  (hw : ∀ f ∈ d.matchFields, 0 ≤ f.bitwidth)
  {entry : RtEntry}

include h hw in
theorem tableReasonM_err {c : Code} {m : Str} (he : tableReasonM x entry ti = .err c m) :
    TableError x sys.inetPton6 d entry c m := by
  have hname : ti.name = d.preamble.name := (parseTableInfo_is h).2.1
  unfold tableReasonM at he
  cases hc : ti.constraint with
  | none => rw [hc] at he; cases he
  | some k =>
    rw [hc] at he
    dsimp only at he
    obtain ⟨vs, e, s, r⟩ := table_read h hc
    by_cases hb : k.ty = .boolean
    · have hread := r.read
      rw [hb] at hread
      rw [checkConstraintM_eq hb, mbind_err] at he
      rcases he with he | ⟨ctx, hp, he⟩
      · obtain ⟨m', hp, hm⟩ := annotate_err he
        have hf := parseTableEntryM_err r.distinct r.maps (keyDecl_kind r.keys hw) hp
        rw [hm (matchesFault_ne hf), hname]
        have := TableError.entry (x := x) (entry := entry) r.keys hread hf
        simpa using this
      · rw [annotate_eq_ok, erased, erase_parseTableEntry] at hp
        obtain ⟨hj, hfit, hmean⟩ := r.judged h hb hw hp
        have := hj.err he
        rw [sig_keys r.maps] at this
        exact .judge r.keys hread hfit hmean this
    · unfold checkConstraintM at he
      rw [if_pos (by simpa using hb)] at he
      cases he
      rw [hname]
      obtain ⟨h1, h2⟩ := infer_strip r.typed
      exact .nonBoolean r.keys r.read hb ⟨h1, h2, rfl⟩

include h hw in
theorem tableReasonM_nil (he : tableReasonM x entry ti = .ok []) : TablePasses sys.inetPton6 d entry := by
  unfold tableReasonM at he
  cases hc : ti.constraint with
  | none =>
    obtain ⟨vs, h1, h2, h3, h4⟩ := parseTableInfo_parts h
    rw [hc] at h4
    exact .unconstrained (parseAndCheck_none h4)
  | some k =>
    rw [hc] at he
    dsimp only at he
    obtain ⟨vs, e, s, r⟩ := table_read h hc
    by_cases hb : k.ty = .boolean
    · rw [checkConstraintM_eq hb, mbind_ok] at he
      obtain ⟨ctx, hp, he⟩ := he
      rw [annotate_eq_ok, erased, erase_parseTableEntry] at hp
      obtain ⟨hj, hfit, hmean⟩ := r.judged h hb hw hp
      obtain ⟨b, hev, hiff, _⟩ := hj.ok he
      have := hiff.1 rfl
      subst this
      have hread := r.read
      rw [hb] at hread
      rw [sig_keys r.maps] at hev
      exact .satisfied r.keys hread hfit hmean hev
    · unfold checkConstraintM at he
      rw [if_pos (by simpa using hb)] at he
      cases he

include h hw in
theorem tableReasonM_passes (hp : TablePasses sys.inetPton6 d entry) {m : Str} (he : tableReasonM x entry ti = .ok m) :
    m = [] := by
  unfold tableReasonM at he
  cases hc : ti.constraint with
  | none => rw [hc] at he; cases he; rfl
  | some k =>
    rw [hc] at he
    dsimp only at he
    obtain ⟨vs, e, s, r⟩ := table_read h hc
    cases hp with
    | unconstrained ha => cases attached_unique ha r.attached
    | @satisfied vs' src' e' s' ρ' g1 g2 g3 g4 g5 =>
      cases each_unique (R := KeyDecl) (fun _ _ _ => keyDecl_unique) r.keys g1
      have hu := readConstraint_unique r.read g2
      simp only [Option.some.injEq, Prod.mk.injEq] at hu
      obtain ⟨rfl, rfl, rfl, hb⟩ := hu
      rw [checkConstraintM_eq hb, mbind_ok] at he
      obtain ⟨ctx, hp, he⟩ := he
      rw [annotate_eq_ok, erased, erase_parseTableEntry] at hp
      obtain ⟨hj, hfit, hmean⟩ := r.judged h hb hw hp
      have hρ := entryEnv_unique ((entryEnv_means r.maps).2 hmean) ((entryEnv_means r.maps).2 g4)
      obtain ⟨b, hev, hiff, _⟩ := hj.ok he
      rw [sig_keys r.maps, hρ] at hev
      have := (evaluates_unique hev g5).2
      simp at this
      exact hiff.2 this

include h hw in
theorem tableError_not_ok {c : Code} {text : Str} (hf : TableError x sys.inetPton6 d entry c text) {m : Str} : tableReasonM x entry ti ≠ .ok m := by
  intro he
  unfold tableReasonM at he
  cases hc : ti.constraint with
  | none =>
    obtain ⟨vs, _, _, _, h4⟩ := parseTableInfo_parts h
    rw [hc] at h4
    have ha := parseAndCheck_none h4
    have : ∀ {Γ src e s t}, ReadConstraint sys.inetPton6 .table Γ d.preamble (some (src, e, s, t)) → False := by
      intro Γ src e s t hr
      cases hr with
      | some h1 => cases attached_unique ha h1
    cases hf with
    | nonBoolean _ h | entry _ h | judge _ h => exact this h
  | some k =>
    rw [hc] at he
    dsimp only at he
    obtain ⟨vs, e, s, r⟩ := table_read h hc
    cases hf with
    | @nonBoolean vs' src' e' e'' s' t' g1 g2 g3 g4 =>
      cases each_unique (R := KeyDecl) (fun _ _ _ => keyDecl_unique) r.keys g1
      have hu := readConstraint_unique r.read g2
      simp only [Option.some.injEq, Prod.mk.injEq] at hu
      obtain ⟨rfl, rfl, rfl, hb⟩ := hu
      unfold checkConstraintM at he
      rw [if_pos (by rw [hb]; exact g3)] at he
      cases he
    | @entry vs' src' e' s' c' text' g1 g2 g3 =>
      cases each_unique (R := KeyDecl) (fun _ _ _ => keyDecl_unique) r.keys g1
      have hu := readConstraint_unique r.read g2
      simp only [Option.some.injEq, Prod.mk.injEq] at hu
      obtain ⟨rfl, rfl, rfl, hb⟩ := hu
      rw [checkConstraintM_eq hb, mbind_ok] at he
      obtain ⟨ctx, hp, he⟩ := he
      rw [annotate_eq_ok, erased, erase_parseTableEntry] at hp
      exact matchesFault_not_fits r.distinct g3 (r.judged h hb hw hp).2.1
    | @judge vs' src' e' s' ρ' c' text' g1 g2 g3 g4 g5 =>
      cases each_unique (R := KeyDecl) (fun _ _ _ => keyDecl_unique) r.keys g1
      have hu := readConstraint_unique r.read g2
      simp only [Option.some.injEq, Prod.mk.injEq] at hu
      obtain ⟨rfl, rfl, rfl, hb⟩ := hu
      rw [checkConstraintM_eq hb, mbind_ok] at he
      obtain ⟨ctx, hp, he⟩ := he
      rw [annotate_eq_ok, erased, erase_parseTableEntry] at hp
      obtain ⟨hj, hfit, hmean⟩ := r.judged h hb hw hp
      have hρ := entryEnv_unique ((entryEnv_means r.maps).2 hmean) ((entryEnv_means r.maps).2 g4)
      rw [← hρ, ← sig_keys r.maps] at g5
      exact hj.fault_not_ok g5 he

end

/-! ### Actions -/

/-- The check of an action. -/
def actionReasonM (x : EntryTexts) (a : RtAction) (ai : ActionInfo) : MRes Str :=
  match ai.constraint with
  | none => .ok []
  | some c => checkConstraintM x c!"action" ai.name c (parseActionM a ai)

/-- The constraint of an action, before and after reading. -/
structure ActionRead (sys : Sys) (d : ActionDecl) (ai : ActionInfo) (vs : List VarInfo) (c e : Expr) (s : SExpr) : Prop where
  params : Each ParamIs d.params vs
  distinct : Distinct vs
  maps : Maps vs ai.paramsById ai.paramsByName
  parsed : parseConstraint sys .action ai.source = .ok e
  meant : abs e = some s
  typed : inferAndCheck ai.source (.action ai.paramsByName) e = .ok c
  attached : Attached .action d.preamble (some ai.source)
  read : ReadConstraint sys.inetPton6 .action (paramSig vs) d.preamble (some (ai.source, e, s, c.ty))

theorem action_read {sys : Sys} {d : ActionDecl} {ai : ActionInfo} {c : Expr} (h : parseActionInfo sys d = .ok ai)
    (hc : ai.constraint = some c) : ∃ vs e s, ActionRead sys d ai vs c e s := by
  obtain ⟨vs, h1, h2, h3, h4⟩ := parseActionInfo_parts h
  rw [hc] at h4
  obtain ⟨e, s, g1, g2, g3, g4, g5⟩ := parseAndCheck_stored h4
  rw [sig_params h3] at g5
  exact ⟨vs, e, s, h1, h2, h3, g2, g3, g4, g1, g5⟩

theorem ActionRead.judged {sys : Sys} {d : ActionDecl} {ai : ActionInfo} {vs : List VarInfo} {c e : Expr} {s : SExpr}
    (r : ActionRead sys d ai vs c e s) (h : parseActionInfo sys d = .ok ai) (hb : c.ty = .boolean)
    (hw : ∀ f ∈ d.params, 0 ≤ f.bitwidth)
    {a : RtAction} {ctx : EvalCtx} (hp : parseActionM a ai = .ok ctx) :
    Judged sys .action ai.source (.action ai.paramsByName) ctx d.preamble.name e c s ∧
    ArgsFit vs a.params ∧ ActionMeans vs a (envOf ctx) := by
  have hwf := parseActionInfo_wf h
  have hfit : ArgsFit vs a.params := by
    rcases parseActionM_outcome (a := a) r.distinct r.maps with ⟨text, h1, _⟩ | ⟨_, _, h2⟩
    · rw [hp] at h1; cases h1
    · exact h2
  rw [erased, erase_parseAction] at hp
  obtain ⟨henv, hsrc, ps, hv, _⟩ := parseAction_env hwf hp
  obtain ⟨hset, hline, hcol⟩ := attached_named r.attached
  have hbits : ∀ n t, (sigOf (.action ai.paramsByName)).param n = some t → Supported t → ∃ w, t = .fixedUnsigned w := by
    intro n t hn hs
    simp only [sigOf, Option.map_eq_some_iff] at hn
    obtain ⟨pi, hpi, rfl⟩ := hn
    exact parseActionInfo_bits h _ _ (hwf.lookup_name.1 hpi) hs
  refine ⟨⟨r.parsed, r.typed, r.meant, hb, actionInfo_noBool h, hset, hline, hcol, hsrc,
    ⟨fun n t hn => ?_, fun n t z hn hs _ => ?_⟩, ?_, .inl ⟨_, hv, (parseActionInfo_is h).2.1⟩, paramsBare_action hbits⟩, hfit,
    (actionEnv_means r.maps).1 henv⟩
  · simp [sigOf] at hn
  · obtain ⟨w, rfl⟩ := hbits n t hn hs
    exact .bit _ _
  · rw [sig_params r.maps]
    exact paramSig_widths r.params hw

section
variable {x : EntryTexts} {sys : Sys} {d : ActionDecl} {ai : ActionInfo} (h : parseActionInfo sys d = .ok ai)
  (hw : ∀ f ∈ d.params, 0 ≤ f.bitwidth)
  {a : RtAction}

include h hw in
theorem actionReasonM_err {c : Code} {m : Str} (he : actionReasonM x a ai = .err c m) :
    ActionError x sys.inetPton6 d a c m := by
  have hname : ai.name = d.preamble.name := (parseActionInfo_is h).2.1
  unfold actionReasonM at he
  cases hc : ai.constraint with
  | none => rw [hc] at he; cases he
  | some k =>
    rw [hc] at he
    dsimp only at he
    obtain ⟨vs, e, s, r⟩ := action_read h hc
    by_cases hb : k.ty = .boolean
    · have hread := r.read
      rw [hb] at hread
      rw [checkConstraintM_eq hb, mbind_err] at he
      rcases he with he | ⟨ctx, hp, he⟩
      · obtain ⟨m', hp, hm⟩ := annotate_err he
        rcases parseActionM_outcome (a := a) r.distinct r.maps with ⟨text, h1, hf⟩ | ⟨ctx, h1, _⟩
        · rw [h1] at hp
          cases hp
          rw [hm (argsFault_ne hf), hname]
          have := ActionError.entry (x := x) r.params hread hf
          simpa using this
        · rw [h1] at hp; cases hp
      · rw [annotate_eq_ok] at hp
        obtain ⟨hj, hfit, hmean⟩ := r.judged h hb hw hp
        have := hj.err he
        rw [sig_params r.maps] at this
        exact .judge r.params hread hfit hmean this
    · unfold checkConstraintM at he
      rw [if_pos (by simpa using hb)] at he
      cases he
      rw [hname]
      obtain ⟨h1, h2⟩ := infer_strip r.typed
      exact .nonBoolean r.params r.read hb ⟨h1, h2, rfl⟩

include h hw in
theorem actionReasonM_nil (he : actionReasonM x a ai = .ok []) : ActionPasses sys.inetPton6 d a := by
  unfold actionReasonM at he
  cases hc : ai.constraint with
  | none =>
    obtain ⟨vs, h1, h2, h3, h4⟩ := parseActionInfo_parts h
    rw [hc] at h4
    exact .unconstrained (parseAndCheck_none h4)
  | some k =>
    rw [hc] at he
    dsimp only at he
    obtain ⟨vs, e, s, r⟩ := action_read h hc
    by_cases hb : k.ty = .boolean
    · rw [checkConstraintM_eq hb, mbind_ok] at he
      obtain ⟨ctx, hp, he⟩ := he
      rw [annotate_eq_ok] at hp
      obtain ⟨hj, hfit, hmean⟩ := r.judged h hb hw hp
      obtain ⟨b, hev, hiff, _⟩ := hj.ok he
      have := hiff.1 rfl
      subst this
      have hread := r.read
      rw [hb] at hread
      rw [sig_params r.maps] at hev
      exact .satisfied r.params hread hfit hmean hev
    · unfold checkConstraintM at he
      rw [if_pos (by simpa using hb)] at he
      cases he

include h hw in
theorem actionReasonM_passes (hp : ActionPasses sys.inetPton6 d a) {m : Str} (he : actionReasonM x a ai = .ok m) :
    m = [] := by
  unfold actionReasonM at he
  cases hc : ai.constraint with
  | none => rw [hc] at he; cases he; rfl
  | some k =>
    rw [hc] at he
    dsimp only at he
    obtain ⟨vs, e, s, r⟩ := action_read h hc
    cases hp with
    | unconstrained ha => cases attached_unique ha r.attached
    | @satisfied vs' src' e' s' ρ' g1 g2 g3 g4 g5 =>
      cases each_unique (R := ParamIs) (fun _ _ _ => paramIs_unique) r.params g1
      have hu := readConstraint_unique r.read g2
      simp only [Option.some.injEq, Prod.mk.injEq] at hu
      obtain ⟨rfl, rfl, rfl, hb⟩ := hu
      rw [checkConstraintM_eq hb, mbind_ok] at he
      obtain ⟨ctx, hp, he⟩ := he
      rw [annotate_eq_ok] at hp
      obtain ⟨hj, hfit, hmean⟩ := r.judged h hb hw hp
      have hρ := actionEnv_unique ((actionEnv_means r.maps).2 hmean) ((actionEnv_means r.maps).2 g4)
      obtain ⟨b, hev, hiff, _⟩ := hj.ok he
      rw [sig_params r.maps, hρ] at hev
      have := (evaluates_unique hev g5).2
      simp at this
      exact hiff.2 this

include h hw in
theorem actionError_not_ok {c : Code} {text : Str} (hf : ActionError x sys.inetPton6 d a c text) {m : Str} : actionReasonM x a ai ≠ .ok m := by
  intro he
  unfold actionReasonM at he
  cases hc : ai.constraint with
  | none =>
    obtain ⟨vs, _, _, _, h4⟩ := parseActionInfo_parts h
    rw [hc] at h4
    have ha := parseAndCheck_none h4
    have : ∀ {Γ src e s t}, ReadConstraint sys.inetPton6 .action Γ d.preamble (some (src, e, s, t)) → False := by
      intro Γ src e s t hr
      cases hr with
      | some h1 => cases attached_unique ha h1
    cases hf with
    | nonBoolean _ h | entry _ h | judge _ h => exact this h
  | some k =>
    rw [hc] at he
    dsimp only at he
    obtain ⟨vs, e, s, r⟩ := action_read h hc
    cases hf with
    | @nonBoolean vs' src' e' e'' s' t' g1 g2 g3 g4 =>
      cases each_unique (R := ParamIs) (fun _ _ _ => paramIs_unique) r.params g1
      have hu := readConstraint_unique r.read g2
      simp only [Option.some.injEq, Prod.mk.injEq] at hu
      obtain ⟨rfl, rfl, rfl, hb⟩ := hu
      unfold checkConstraintM at he
      rw [if_pos (by rw [hb]; exact g3)] at he
      cases he
    | @entry vs' src' e' s' text' g1 g2 g3 =>
      cases each_unique (R := ParamIs) (fun _ _ _ => paramIs_unique) r.params g1
      have hu := readConstraint_unique r.read g2
      simp only [Option.some.injEq, Prod.mk.injEq] at hu
      obtain ⟨rfl, rfl, rfl, hb⟩ := hu
      rw [checkConstraintM_eq hb, mbind_ok] at he
      obtain ⟨ctx, hp, he⟩ := he
      rw [annotate_eq_ok] at hp
      exact argsFault_not_fits g3 (r.judged h hb hw hp).2.1
    | @judge vs' src' e' s' ρ' c' text' g1 g2 g3 g4 g5 =>
      cases each_unique (R := ParamIs) (fun _ _ _ => paramIs_unique) r.params g1
      have hu := readConstraint_unique r.read g2
      simp only [Option.some.injEq, Prod.mk.injEq] at hu
      obtain ⟨rfl, rfl, rfl, hb⟩ := hu
      rw [checkConstraintM_eq hb, mbind_ok] at he
      obtain ⟨ctx, hp, he⟩ := he
      rw [annotate_eq_ok] at hp
      obtain ⟨hj, hfit, hmean⟩ := r.judged h hb hw hp
      have hρ := actionEnv_unique ((actionEnv_means r.maps).2 hmean) ((actionEnv_means r.maps).2 g4)
      rw [← hρ, ← sig_params r.maps] at g5
      exact hj.fault_not_ok g5 he

end

/-! ### Programs -/

theorem reasonActionM_found {x : EntryTexts} {ci : ConstraintInfo} {a : RtAction} {ai : ActionInfo}
    (h : lookup a.actionId ci.actions = some ai) : reasonActionM x a ci = actionReasonM x a ai := by
  unfold reasonActionM getActionInfo actionReasonM
  rw [h]
  dsimp only
  cases ai.constraint <;> rfl

theorem reasonM_found {x : EntryTexts} {entry : RtEntry} {ci : ConstraintInfo} {ti : TableInfo}
    (h : lookup entry.tableId ci.tables = some ti) :
    reasonEntryViolatesConstraintM x entry ci =
      (tableReasonM x entry ti >>= fun r => if r ≠ [] then .ok r else reasonTableActionM x ci entry) := by
  unfold reasonEntryViolatesConstraintM getTableInfo tableReasonM
  rw [h]
  dsimp only
  cases ti.constraint <;> rfl

section
variable {x : EntryTexts} {sys : Sys} {p : P4Info} {ci : ConstraintInfo} (h : p4ToConstraintInfo sys p = .ok ci)
  (hw : NonNegProgram p)

include h in
theorem unknown_action {id : Nat} (hl : lookup id ci.actions = none) : ∀ d ∈ p.actions, d.preamble.id ≠ id := by
  intro d hd he
  obtain ⟨ai, h1, _⟩ := action_declared h hd
  rw [he, hl] at h1
  cases h1

include h in
theorem unknown_table {id : Nat} (hl : lookup id ci.tables = none) : ∀ d ∈ p.tables, d.preamble.id ≠ id := by
  intro d hd he
  obtain ⟨ai, h1, _⟩ := table_declared h hd
  rw [he, hl] at h1
  cases h1

include h hw in
theorem reasonActionM_err {a : RtAction} {c : Code} {m : Str} (he : reasonActionM x a ci = .err c m) :
    ActionsError x sys.inetPton6 p [a] c m := by
  cases hl : lookup a.actionId ci.actions with
  | none =>
    unfold reasonActionM getActionInfo at he
    rw [hl] at he
    cases he
    exact .unknown (pre := []) (post := []) (by simp) (unknown_action h hl) (idText_iff.2 rfl)
  | some ai =>
    obtain ⟨d, h1, h2, h3⟩ := (action_of_info h).1 hl
    rw [reasonActionM_found hl] at he
    exact .error (pre := []) (post := []) (by simp) h1 h2 (actionReasonM_err h3 (hw.2 d h1) he)

include h hw in
theorem reasonActionM_nil {a : RtAction} (he : reasonActionM x a ci = .ok []) :
    ∃ d ∈ p.actions, d.preamble.id = a.actionId ∧ ActionPasses sys.inetPton6 d a := by
  cases hl : lookup a.actionId ci.actions with
  | none =>
    unfold reasonActionM getActionInfo at he
    rw [hl] at he
    cases he
  | some ai =>
    obtain ⟨d, h1, h2, h3⟩ := (action_of_info h).1 hl
    rw [reasonActionM_found hl] at he
    exact ⟨d, h1, h2, actionReasonM_nil h3 (hw.2 d h1) he⟩

theorem actionsError_cons {pton : Str → Option Bytes} {a : RtAction} {as : List RtAction} {c : Code} {m : Str}
    (ha : ∃ d ∈ p.actions, d.preamble.id = a.actionId ∧ ActionPasses pton d a) (he : ActionsError x pton p as c m) :
    ActionsError x pton p (a :: as) c m := by
  cases he with
  | @unknown pre post b s h1 h2 h3 =>
    exact .unknown (pre := a :: pre) (List.forall_mem_cons.2 ⟨ha, h1⟩) h2 h3
  | @error pre post b d c' text h1 h2 h3 h4 =>
    exact .error (pre := a :: pre) (List.forall_mem_cons.2 ⟨ha, h1⟩) h2 h3 h4

theorem actionsError_append {pton : Str → Option Bytes} {as bs : List RtAction} {c : Code} {m : Str}
    (he : ActionsError x pton p as c m) : ActionsError x pton p (as ++ bs) c m := by
  cases he with
  | @unknown pre post b s h1 h2 h3 =>
    rw [List.append_assoc, List.cons_append]
    exact .unknown h1 h2 h3
  | @error pre post b d c' text h1 h2 h3 h4 =>
    rw [List.append_assoc, List.cons_append]
    exact .error h1 h2 h3 h4

include h hw in
theorem reasonActionSetM_err {c : Code} {m : Str} : ∀ {as : List RtAction}, reasonActionSetM x ci as = .err c m →
    ActionsError x sys.inetPton6 p as c m
  | [], he => by cases he
  | a :: as, he => by
    unfold reasonActionSetM at he
    rcases mbind_err.1 he with he | ⟨r, hr, he⟩
    · exact actionsError_append (as := [a]) (reasonActionM_err h hw he)
    · by_cases hn : r = []
      · subst hn
        rw [if_neg (by simp)] at he
        exact actionsError_cons (reasonActionM_nil h hw hr) (reasonActionSetM_err he)
      · rw [if_pos hn] at he; cases he

include h hw in
theorem reasonM_err {entry : RtEntry} {c : Code} {m : Str} (he : reasonEntryViolatesConstraintM x entry ci = .err c m) :
    EntryError x sys.inetPton6 p entry c m := by
  cases hl : lookup entry.tableId ci.tables with
  | none =>
    unfold reasonEntryViolatesConstraintM getTableInfo at he
    rw [hl] at he
    cases he
    exact .unknown (unknown_table h hl) (idText_iff.2 rfl)
  | some ti =>
    obtain ⟨d, h1, h2, h3⟩ := (table_of_info h).1 hl
    rw [reasonM_found hl] at he
    rcases mbind_err.1 he with he | ⟨r, hr, he⟩
    · exact .table h1 h2 (tableReasonM_err h3 (hw.1 d h1) he)
    · by_cases hn : r = []
      · subst hn
        rw [if_neg (by simp)] at he
        have hp := tableReasonM_nil h3 (hw.1 d h1) hr
        unfold reasonTableActionM at he
        cases ha : entry.action with
        | none => rw [ha] at he; cases he
        | some ta =>
          rw [ha] at he
          cases ta with
          | action a => exact .actions h1 h2 hp (by rw [ha]; rfl) (reasonActionM_err h hw he)
          | memberId n => cases he; exact .reference h1 h2 hp (.inl ha)
          | groupId n => cases he; exact .reference h1 h2 hp (.inr ha)
          | actionSet as => exact .actions h1 h2 hp (by rw [ha]; rfl) (reasonActionSetM_err h hw he)
          | notSet => cases he; exact .empty h1 h2 hp ha
      · rw [if_pos hn] at he; cases he

include h hw in
theorem reasonActionM_passes {a : RtAction}
    (hp : ∃ d ∈ p.actions, d.preamble.id = a.actionId ∧ ActionPasses sys.inetPton6 d a) {m : Str}
    (he : reasonActionM x a ci = .ok m) : m = [] := by
  obtain ⟨d, h1, h2, h3⟩ := hp
  obtain ⟨ai, h4, h5⟩ := action_declared h h1
  rw [h2] at h4
  rw [reasonActionM_found h4] at he
  exact actionReasonM_passes h5 (hw.2 d h1) h3 he

include h hw in
theorem actionsError_not_ok {c : Code} {text : Str} {as : List RtAction} (hf : ActionsError x sys.inetPton6 p as c text) {m : Str} : reasonActionSetM x ci as ≠ .ok m := by
  have key : ∀ {pre post : List RtAction} {a : RtAction},
      (∀ b ∈ pre, ∃ d ∈ p.actions, d.preamble.id = b.actionId ∧ ActionPasses sys.inetPton6 d b) →
      (∀ m, reasonActionM x a ci ≠ .ok m) → ∀ m, reasonActionSetM x ci (pre ++ a :: post) ≠ .ok m := by
    intro pre post a hpre ha
    induction pre with
    | nil =>
      intro m he
      obtain ⟨r, hr, _⟩ := mbind_ok.1 he
      exact ha r hr
    | cons b pre ih =>
      intro m he
      obtain ⟨r, hr, he⟩ := mbind_ok.1 he
      have := reasonActionM_passes h hw (hpre b (by simp)) hr
      subst this
      rw [if_neg (by simp)] at he
      exact ih (fun b hb => hpre b (by simp [hb])) m he
  cases hf with
  | @unknown pre post a s h1 h2 h3 =>
    refine key h1 (fun m he => ?_) m
    cases hl : lookup a.actionId ci.actions with
    | none =>
      unfold reasonActionM getActionInfo at he
      rw [hl] at he
      cases he
    | some ai =>
      obtain ⟨d, g1, g2, _⟩ := (action_of_info h).1 hl
      exact h2 d g1 g2
  | @error pre post a d c' text h1 h2 h3 h4 =>
    refine key h1 (fun m he => ?_) m
    obtain ⟨ai, g1, g2⟩ := action_declared h h2
    rw [h3] at g1
    rw [reasonActionM_found g1] at he
    exact actionError_not_ok g2 (hw.2 d h2) h4 he

theorem reasonActionM_set {a : RtAction} {m : Str} (he : reasonActionM x a ci = .ok m) : reasonActionSetM x ci [a] = .ok m := by
  unfold reasonActionSetM
  rw [he, MRes.ok_bind]
  by_cases hn : m = []
  · subst hn; rfl
  · rw [if_pos hn]

include h hw in
theorem entryError_not_ok {entry : RtEntry} {c : Code} {text : Str} (hf : EntryError x sys.inetPton6 p entry c text) {m : Str} :
    reasonEntryViolatesConstraintM x entry ci ≠ .ok m := by
  intro he
  have key : ∀ {d : TableDecl}, d ∈ p.tables → d.preamble.id = entry.tableId → TablePasses sys.inetPton6 d entry →
      reasonTableActionM x ci entry = .ok m := by
    intro d h1 h2 hp
    obtain ⟨ti, g1, g2⟩ := table_declared h h1
    rw [h2] at g1
    rw [reasonM_found g1] at he
    obtain ⟨r, hr, he⟩ := mbind_ok.1 he
    have := tableReasonM_passes g2 (hw.1 d h1) hp hr
    subst this
    rwa [if_neg (by simp)] at he
  cases hf with
  | unknown h1 h2 =>
    cases hl : lookup entry.tableId ci.tables with
    | none =>
      unfold reasonEntryViolatesConstraintM getTableInfo at he
      rw [hl] at he
      cases he
    | some ti =>
      obtain ⟨d, g1, g2, _⟩ := (table_of_info h).1 hl
      exact h1 d g1 g2
  | @table d c' text h1 h2 h3 =>
    obtain ⟨ti, g1, g2⟩ := table_declared h h1
    rw [h2] at g1
    rw [reasonM_found g1] at he
    obtain ⟨r, hr, he⟩ := mbind_ok.1 he
    exact tableError_not_ok g2 (hw.1 d h1) h3 hr
  | reference h1 h2 h3 h4 =>
    have := key h1 h2 h3
    unfold reasonTableActionM at this
    rcases h4 with h4 | h4 <;> rw [h4] at this <;> cases this
  | empty h1 h2 h3 h4 =>
    have := key h1 h2 h3
    unfold reasonTableActionM at this
    rw [h4] at this
    cases this
  | @actions d as c' text h1 h2 h3 h4 h5 =>
    have := key h1 h2 h3
    unfold reasonTableActionM at this
    cases ha : entry.action with
    | none =>
      rw [ha] at h4
      cases h4
      generalize hn : ([] : List RtAction) = as at h5
      cases h5 <;> simp at hn
    | some ta =>
      rw [ha] at h4 this
      cases ta with
      | action a => cases h4; exact actionsError_not_ok h hw h5 (reasonActionM_set this)
      | actionSet as => cases h4; exact actionsError_not_ok h hw h5 this
      | _ => cases h4

end

end P4C
