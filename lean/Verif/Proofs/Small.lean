import Verif.Spec.Small
import Verif.Proofs.Compare
import Verif.Proofs.StuckValue

/-
Constraint solvers and entries of which constraints order only bit strings whose most significant bit is not set (C72, C106).
-/

namespace P4C

open Spec

/-- Constraints that do not order exact keys evaluate to what they mean. -/
theorem means_evaluates_noExact {Γ : Sig} {ρ : Env} {s : SExpr} {t : Ty} {v : Value} (h : Means Γ ρ s t v) (ht : HasTy Γ s t)
    (ho : NoOrderedExact Γ s) : Evaluates Γ ρ s t v := by
  induction h with
  | bool b => exact .bool b
  | int z => exact .int z
  | key h1 h2 => exact .key h1 h2
  | param h1 h2 => exact .param h1 h2
  | priority h => exact .priority h
  | not _ ih =>
    cases ht with
    | not ht => exact .not (ih ht ho)
  | neg _ ih =>
    cases ht with
    | neg ht => exact .neg (ih ht ho)
  | conn _ _ ih1 ih2 =>
    cases ht with
    | conn t1 t2 => exact .conn (ih1 t1 ho.1) (ih2 t2 ho.2)
  | cmp h1 h2 hj hc ih1 ih2 =>
    cases ht with
    | cmp t1 t2 _ _ =>
      cases means_hasTy h1 _ t1
      cases means_hasTy h2 _ t2
      refine .cmp (ih1 t1 ho.1) (ih2 t2 ho.2.1) hj (fun hio n hx => ?_) hc
      rcases isJoin_cases hj with rfl | rfl
      · exact (ho.2.2 hio n).1 (hx ▸ t1)
      · exact (ho.2.2 hio n).2 (hx ▸ t2)
  | field h0 h1 h2 ih =>
    cases ht with
    | field t1 _ =>
      cases means_hasTy h0 _ t1
      exact .field (ih t1 ho) h1 h2

section
variable {sys : Sys} {p : P4Info} {ci : ConstraintInfo} (h : p4ToConstraintInfo sys p = .ok ci) {d : TableDecl}
  (hd : d ∈ p.tables)

include h hd in
/-- Every well-typed constraint means something for an entry that fits. -/
theorem typed_means {vs : List VarInfo} (hk : Each KeyDecl d.matchFields vs) {entry : RtEntry} (hf : EntryFits vs entry) {ρ : Env}
    (hρ : EntryMeans vs entry ρ) {s : SExpr} (ht : HasTy (keySig vs) s .boolean) : ∃ b, Means (keySig vs) ρ s .boolean (.bool b) := by
  obtain ⟨ti, _, hp⟩ := table_declared h hd
  obtain ⟨vs', g1, _, g3, _⟩ := parseTableInfo_parts hp
  cases keys_same hk g1
  have hc := entry_consistent (parseTableInfo_wf hp) ((entryOk_fits g3).2 hf) ((entryEnv_means g3).2 hρ)
  rw [sig_keys g3] at hc
  obtain ⟨v, hv, hs⟩ := hasTy_means hc hρ.priority ht
  cases hs with
  | bool b => exact ⟨b, hv⟩

include h hd in
theorem true_signed {entry : RtEntry} {s : SExpr} (ht : ∀ vs, Each KeyDecl d.matchFields vs → HasTy (keySig vs) s .boolean)
    (ho : OrdersSmall d entry s) (hs : TrueOf d entry s) : SignedTrueOf d entry s := by
  obtain ⟨vs, ρ, hk, hf, hρ, he⟩ := hs
  obtain ⟨b, hb⟩ := typed_means h hd hk hf hρ (ht vs hk)
  obtain ⟨_, hx⟩ := evaluates_means he hb
  cases hx
  exact ⟨vs, ρ, hk, hf, hρ, means_signed hb (ho vs ρ hk hρ).1⟩

theorem signed_true {entry : RtEntry} {s : SExpr} (ht : ∀ vs, Each KeyDecl d.matchFields vs → HasTy (keySig vs) s .boolean)
    (ho : OrdersSmall d entry s) (hs : SignedTrueOf d entry s) : TrueOf d entry s := by
  obtain ⟨vs, ρ, hk, hf, hρ, he⟩ := hs
  obtain ⟨h1, h2⟩ := ho vs ρ hk hρ
  exact ⟨vs, ρ, hk, hf, hρ, means_evaluates_noExact (signed_means he h1) (ht vs hk) h2⟩

end

theorem tableSays_typed {pton : Str → Option Bytes} {d : TableDecl} {s : SExpr} (h : TableSays pton d s) :
    ∀ vs, Each KeyDecl d.matchFields vs → HasTy (keySig vs) s .boolean := by
  obtain ⟨vs, src, e, hk, hr⟩ := h
  intro vs' hk'
  cases keys_same hk hk'
  exact (read_parts hr).2.2.2

theorem textSays_typed {pton : Str → Option Bytes} {d : TableDecl} {text : Str} {s : SExpr} (h : TextSays pton d text s) :
    ∀ vs, Each KeyDecl d.matchFields vs → HasTy (keySig vs) s .boolean := by
  obtain ⟨vs, ts, e, hk, _, _, _, ht⟩ := h
  intro vs' hk'
  cases keys_same hk hk'
  exact ht

section
variable {sys : Sys} {p : P4Info} {ci : ConstraintInfo} (h : p4ToConstraintInfo sys p = .ok ci) {d : TableDecl}
  (hd : d ∈ p.tables) {skip : Str → Bool} {texts : List Str} {entry : RtEntry}

include h hd in
/-- For such entries, the two notions of solution agree. -/
theorem small_solution (hsm : SmallFor sys.inetPton6 d texts entry) (hs : Solution sys.inetPton6 p d skip texts entry) :
    SignedSolution sys.inetPton6 d skip texts entry := by
  refine ⟨hs.canonical, ?_, fun t ht => ?_⟩
  · refine (accepted_of_table h hd hs.canonical.1 hs.accepted).imp id ?_
    rintro ⟨vs, src, e, s, ρ, h1, h2, h3, h4, h5⟩
    have hsay : TableSays sys.inetPton6 d s := ⟨vs, src, e, h1, h2⟩
    exact ⟨s, hsay, true_signed h hd (tableSays_typed hsay) (hsm.table s hsay) ⟨vs, ρ, h1, h3, h4, h5⟩⟩
  · obtain ⟨s, h1, h2⟩ := hs.texts t ht
    exact ⟨s, h1, true_signed h hd (textSays_typed h1) (hsm.texts t ht s h1) h2⟩

include hd in
theorem solution_small (hsm : SmallFor sys.inetPton6 d texts entry) (hact : entry.action = none)
    (hs : SignedSolution sys.inetPton6 d skip texts entry) : Solution sys.inetPton6 p d skip texts entry := by
  refine ⟨hs.canonical, table_accepted hd hs.canonical.1 hact (hs.table.imp id ?_), fun t ht => ?_⟩
  · rintro ⟨s, hsay, hs⟩
    obtain ⟨vs, ρ, h1, h3, h4, h5⟩ := signed_true (tableSays_typed hsay) (hsm.table s hsay) hs
    obtain ⟨vs', src, e, h6, h7⟩ := hsay
    cases keys_same h1 h6
    exact ⟨vs, src, e, s, ρ, h1, h7, h3, h4, h5⟩
  · obtain ⟨s, h1, h2⟩ := hs.texts t ht
    exact ⟨s, h1, signed_true (textSays_typed h1) (hsm.texts t ht s h1) h2⟩

end

section
variable {sys : Sys} {p p' : P4Info} {ci ci' : ConstraintInfo} (h : p4ToConstraintInfo sys p = .ok ci)
  (h' : p4ToConstraintInfo sys p' = .ok ci') {d d' : TableDecl} (hd : d ∈ p.tables) (hd' : d' ∈ p'.tables)
  (hk : SameTableKeys d d') (hact : p.actions = p'.actions) {ti : TableInfo} (hti : lookup d.preamble.id ci.tables = some ti)
  {b : Str} (hb : Says .table d'.preamble b) (hcl : Closed b)
  (hw : NonNegProgram p) (hw' : NonNegProgram p') (hs : Solvable d fun _ => false) {z : Z3Oracle} (hz : z.Sound)

include h hd hti h' hd' hk hb hcl in
theorem negated_small {texts : List Str} {entry : RtEntry} (h1 : SmallFor sys.inetPton6 d texts entry)
    (h2 : SmallFor sys.inetPton6 d' [] entry) : SmallFor sys.inetPton6 d (negated b :: texts) entry := by
  refine ⟨h1.table, fun t ht se hse => ?_⟩
  rcases List.mem_cons.1 ht with rfl | ht
  · intro vs ρ hv hρ
    obtain ⟨src, e, u, t, hr, _, h3⟩ := other_negated h h' hd hd' hk hti hb hcl hv
    obtain ⟨rfl, rfl⟩ := h3 se hse
    exact h2.table u ⟨vs, src, e, hk.keys ▸ hv, hr⟩ vs ρ (hk.keys ▸ hv) hρ
  · exact h1.texts t ht se hse

include h hd hti h' hd' hk hb hcl hs hact in
/-- Entries accepted by one program only satisfy the negation of the other constraint. -/
theorem other_holds_small {entry : RtEntry} (hsup : AllSupported d fun _ => false) (hc : CanonicalFor d (fun _ => false) entry)
    (hu : ∃ se, TextSays sys.inetPton6 d (negated b) se) (hsm : SmallFor sys.inetPton6 d' [] entry)
    (ha : Accepted sys.inetPton6 p entry) (hn : ¬ Accepted sys.inetPton6 p' entry) :
    TextHolds sys.inetPton6 d (negated b) entry := by
  obtain ⟨vs, _, hv, _, hf, _⟩ := canonical_env h hd hti hs hsup hc
  obtain ⟨src, e, u, t, hr, _, h6⟩ := other_negated h h' hd hd' hk hti hb hcl hv
  obtain ⟨se, hse⟩ := hu
  obtain ⟨rfl, rfl⟩ := h6 se hse
  obtain ⟨_, _, _, h4⟩ := read_parts hr
  obtain ⟨ρ, h7⟩ := means_exists h hd hv hf
  obtain ⟨c, h8⟩ := typed_means h hd hv hf h7 h4
  have hno := (hsm.table u ⟨vs, src, e, hk.keys ▸ hv, hr⟩ vs ρ (hk.keys ▸ hv) h7).2
  have h9 := means_evaluates_noExact h8 h4 hno
  cases c with
  | true =>
    refine (hn ((accepted_table h' hd' (hc.1.trans hk.ids)).2 ⟨.inr ⟨vs, src, e, u, ρ, hk.keys ▸ hv, hr, hf, h7, h9⟩, ?_⟩)).elim
    obtain ⟨_, _, _, _, h9⟩ := ha
    exact actionsAccepted_congr hact h9
  | false => exact ⟨_, hse, vs, ρ, hv, hf, h7, evaluates_not (b := false).2 h9⟩

include h hd hti h' hd' hk hact hb hcl hw hw' hs hz in
theorem compare_small (hdec : Z3Oracle.Decides z) {s : Solver} {texts : List Str} (hr : SolverRun z sys ti (fun _ => false) s texts)
    (ha : (s.addConstraintStr z sys (negated b)).1 = .ok false) {entry : RtEntry} (he : RuntimeEntry d entry)
    (h1 : SmallFor sys.inetPton6 d texts entry) (h2 : SmallFor sys.inetPton6 d' [] entry)
    (ht : ∀ t ∈ texts, TextHolds sys.inetPton6 d t entry) (hv : reasonEntryViolatesConstraint entry ci = .ok []) :
    reasonEntryViolatesConstraint entry ci' = .ok [] := by
  rw [reason_accepts h hw] at hv
  rw [reason_accepts h' hw']
  refine Classical.byContradiction fun hn => ?_
  obtain ⟨g1, g2⟩ := signed_add_solves h hd hti hs hz hdec hr (text := negated b)
  have hu := g1.1 ⟨_, ha⟩
  have hsup := run_supported h hd hti hr
  obtain ⟨vs, hvs, hdist, _⟩ := parseTableInfo_parts (declared_parse h hd hti)
  have hc := runtime_canonicalFor hvs hsup he
  have hneg := other_holds_small h h' hd hd' hk hact hti hb hcl hs hsup hc (hu.imp fun _ h => h.1) h2 hv hn
  have hsol : Solution sys.inetPton6 p d (fun _ => false) (negated b :: texts) entry := by
    refine ⟨hc, hv, fun t hm => ?_⟩
    rcases List.mem_cons.1 hm with rfl | hm
    · exact hneg
    · exact ht t hm
  have := g2.2 ⟨hu, entry, small_solution h hd (negated_small h h' hd hd' hk hti hb hcl h1 h2) hsol⟩
  rw [ha] at this
  cases this

include h hd hti h' hd' hk hb hcl hw hw' hs hz in
theorem witness_small {s s' s'' : Solver} {texts : List Str} {entry : RtEntry} (hr : SolverRun z sys ti (fun _ => false) s texts)
    (ha : s.addConstraintStr z sys (negated b) = (.ok true, s')) (hc : s'.concretize z = (.ok entry, s''))
    (h1 : SmallFor sys.inetPton6 d texts entry) (h2 : SmallFor sys.inetPton6 d' [] entry) :
    RuntimeEntry d entry ∧ (∀ t ∈ texts, TextHolds sys.inetPton6 d t entry) ∧
      reasonEntryViolatesConstraint entry ci = .ok [] ∧ reasonEntryViolatesConstraint entry ci' ≠ .ok [] := by
  obtain ⟨hsig, hno⟩ := signed_concretize_solves h hd hti hs hz (.accepted hr ha) hc
  have hsol := solution_small (p := p) hd (negated_small h h' hd hd' hk hti hb hcl h1 h2) hno hsig
  have hsup := run_supported h hd hti hr
  obtain ⟨vs, hv, hdist, _⟩ := parseTableInfo_parts (declared_parse h hd hti)
  rw [reason_accepts h hw, Ne, reason_accepts h' hw']
  exact ⟨(canonicalFor_runtime hv hdist hsol.canonical).2 ⟨fun _ _ _ => rfl, fun ⟨f, hf, hx⟩ => (no_range hsup hv f hf hx).elim⟩,
    fun t ht => hsol.texts t (List.mem_cons_of_mem _ ht), hsol.accepted,
    other_rejects h h' hd hd' hk hti hb hcl hsol.canonical.1 (hsol.texts _ List.mem_cons_self)⟩

end

end P4C
