import Verif.Spec.Compare
import Verif.Proofs.Compare
import Verif.Proofs.EntryReport2
import Verif.Proofs.Crash
import Verif.Props.Explain
import Verif.Props.Violation

/-
Finding entries that violate a constraint by means of a constraint solver (C107).
-/

namespace P4C

open Spec

section
variable {sys : Sys} {p : P4Info} {ci : ConstraintInfo} (h : p4ToConstraintInfo sys p = .ok ci) (hw : NonNegProgram p)
  {d : TableDecl} (hd : d ∈ p.tables)

include h hw hd in
/-- Entries that fit a table with a boolean constraint are of the kind that C01 and C03 are about. -/
theorem declared_case {entry : RtEntry} (hid : entry.tableId = d.preamble.id) {vs : List VarInfo} {src : ConstraintSource}
    {e : Expr} {s : SExpr} {ρ : Env} (hk : Each KeyDecl d.matchFields vs)
    (hr : ReadConstraint sys.inetPton6 .table (keySig vs) d.preamble (some (src, e, s, .boolean)))
    (hf : EntryFits vs entry) (hm : EntryMeans vs entry ρ) :
    ∃ ti, TableCase ci entry ti s ρ ∧ sigOf (.table ti.keysByName) = keySig vs ∧ ti.source = src := by
  obtain ⟨ti, g1, g2⟩ := table_declared h hd
  cases hc : ti.constraint with
  | none =>
    obtain ⟨_, _, _, _, h4⟩ := parseTableInfo_parts g2
    rw [hc] at h4
    have ha := parseAndCheck_none h4
    cases hr with
    | some h1 => cases attached_unique ha h1
  | some c =>
    obtain ⟨vs', e', s', r⟩ := table_read g2 hc
    cases keys_same r.keys hk
    have hu := readConstraint_unique r.read hr
    simp only [Option.some.injEq, Prod.mk.injEq] at hu
    obtain ⟨rfl, rfl, rfl, hb⟩ := hu
    refine ⟨ti, ⟨hid ▸ g1, parseTableInfo_wf g2, ?_, ⟨c, hc, _, _, r.typed, r.meant⟩, hb ▸ infer_sound r.typed r.meant,
      (entryOk_fits r.maps).2 hf, (entryEnv_means r.maps).2 hm⟩, sig_keys r.maps, rfl⟩
    rw [sig_keys r.maps]
    exact keySig_widths r.keys (hw.1 d hd)

include h hw hd in
/-- Violations of a constraint on one line that orders no exact keys are reported. -/
theorem violation_explained {entry : RtEntry} (hid : entry.tableId = d.preamble.id) {b : Str} (hb : Says .table d.preamble b)
    (hl : '\n' ∉ b ∧ '\r' ∉ b) (hx : ∀ se, TableSays sys.inetPton6 d se → ∀ vs, Each KeyDecl d.matchFields vs → NoOrderedExact (keySig vs) se)
    (hv : TableValue sys.inetPton6 d entry false) :
    ∃ m, m ≠ [] ∧ reasonEntryViolatesConstraint entry ci = .ok m ∧ TableReport sys.inetPton6 d entry m := by
  have hv' := hv
  obtain ⟨vs, src, e, s, ρ, h1, h2, h3, h4, h5⟩ := hv
  obtain ⟨ti, hcase, hsig, hsrc⟩ := declared_case h hw hd hid h1 h2 h3 h4
  have hstr : src.str = b := by
    obtain ⟨src', k1, rfl⟩ := hb
    cases h2 with
    | some k2 => cases attached_unique k1 k2; rfl
  have ho := hx s ⟨vs, src, e, h1, h2⟩ vs h1
  have hc := entry_consistent hcase.wf hcase.ok hcase.env
  obtain ⟨v, hm, _⟩ := hasTy_means hc hcase.env.priority hcase.boolean
  have hm' := hm
  rw [hsig] at hm'
  cases (evaluates_means h5 hm').2
  obtain ⟨m, hne, hre⟩ := C03_explained_partial h hcase (by rw [hsig]; exact ho)
    (by rw [hsrc, hstr]; exact hl.1) (by rw [hsrc, hstr]; exact hl.2) hm
  refine ⟨m, hne, hre, ?_⟩
  obtain ⟨d', hd', hid', hrep⟩ := (C69_report h hw entry m).1 ⟨hre, hne⟩
  obtain ⟨_, _, _, _, h6, _⟩ := p4ToConstraintInfo_ok.1 h
  cases inj_of_nodup_map h6 hd' hd (hid'.trans hid)
  rcases hrep with hrep | ⟨ha | ha, _⟩
  · exact hrep
  · exact (says_attached hb ha).elim
  · exact (tableValue_unique ⟨ha, hv'⟩).elim

include h hw hd in
/-- Violations of a constraint on one line that orders only integers are reported. -/
theorem violation_reported {entry : RtEntry} (hid : entry.tableId = d.preamble.id) {b : Str} (hb : Says .table d.preamble b)
    (hl : '\n' ∉ b ∧ '\r' ∉ b) (hp : ∀ se, TableSays sys.inetPton6 d se → PlainOrder d se)
    (hv : TableValue sys.inetPton6 d entry false) :
    ∃ m, m ≠ [] ∧ reasonEntryViolatesConstraint entry ci = .ok m ∧ TableReport sys.inetPton6 d entry m :=
  violation_explained h hw hd hid hb hl (fun se hse vs hv => noOrderedBits_exact (hp se hse vs hv)) hv

end

section
variable {sys : Sys} {p p' : P4Info} {ci ci' : ConstraintInfo} (h : p4ToConstraintInfo sys p = .ok ci)
  (h' : p4ToConstraintInfo sys p' = .ok ci') (hw : NonNegProgram p) (hw' : NonNegProgram p') {d d' : TableDecl} {b : Str}
  (hv : Versions p p' d d' b) (hl : '\n' ∉ b ∧ '\r' ∉ b) {ti : TableInfo} (hti : lookup d.preamble.id ci.tables = some ti)
  {skip : Str → Bool} (hs : Solvable d skip) {z : Z3Oracle} (hz : z.Sound)
  (hp : ∀ se, TableSays sys.inetPton6 d se → PlainOrder d se) (hp' : ∀ se, TableSays sys.inetPton6 d' se → PlainOrder d' se)

include h h' hv hti in
/-- The constraint is false of entries for which its negation holds. -/
theorem negated_value {entry : RtEntry} (hh : TextHolds sys.inetPton6 d (negated b) entry) :
    TableValue sys.inetPton6 d' entry false := by
  obtain ⟨se, h1, vs, ρ, h2, h3, h4, h5⟩ := hh
  obtain ⟨src, e, u, t, hr, _, h6⟩ := other_negated h h' hv.here hv.there hv.same hti hv.text hv.closed h2
  obtain ⟨rfl, rfl⟩ := h6 se h1
  exact ⟨vs, src, e, u, ρ, hv.same.keys ▸ h2, hr, h3, h4, evaluates_not.1 (by simpa using h5)⟩

include h h' hw hw' hv hl hti hs hz hp hp' in
theorem found_reported {s s' s'' : Solver} {texts : List Str} {entry : RtEntry} (hr : SolverRun z sys ti skip s texts)
    (hpt : ∀ t ∈ texts, ∀ se, TextSays sys.inetPton6 d t se → PlainOrder d se)
    (ha : s.addConstraintStr z sys (negated b) = (.ok true, s')) (hc : s'.concretize z = (.ok entry, s'')) :
    CanonicalFor d skip entry ∧ (∀ t ∈ texts, TextHolds sys.inetPton6 d t entry) ∧
      reasonEntryViolatesConstraint entry ci = .ok [] ∧
      ∃ m, m ≠ [] ∧ reasonEntryViolatesConstraint entry ci' = .ok m ∧ TableReport sys.inetPton6 d' entry m := by
  obtain ⟨hsol, _⟩ := concretize_solves h hv.here hti hs hz (.accepted hr ha) hp
    (negated_plain h h' hv.here hv.there hv.same hti hv.text hv.closed hp' hpt) hc
  rw [reason_accepts h hw]
  exact ⟨hsol.canonical, fun t ht => hsol.texts t (List.mem_cons_of_mem _ ht), hsol.accepted,
    violation_reported h' hw' hv.there (hsol.canonical.1.trans hv.same.ids) hv.text hl hp'
      (negated_value h h' hv hti (hsol.texts _ List.mem_cons_self))⟩

include h h' hv hl hw' hti hs hz hp' in
/-- Of the entries in canonical form, those that are not accepted are reported. -/
theorem rejected_reported (hdec : Z3Oracle.Decides z) {s : Solver} {texts : List Str} (hr : SolverRun z sys ti skip s texts) {r : Bool}
    (ha : (s.addConstraintStr z sys (negated b)).1 = .ok r) {entry : RtEntry} (hc : CanonicalFor d skip entry)
    (hacc : Accepted sys.inetPton6 p entry) (hn : ¬ Accepted sys.inetPton6 p' entry) :
    ∃ m, m ≠ [] ∧ reasonEntryViolatesConstraint entry ci' = .ok m ∧ TableReport sys.inetPton6 d' entry m := by
  have hu := (signed_add_solves h hv.here hti hs hz hdec hr (text := negated b)).1.1 ⟨r, ha⟩
  exact violation_reported h' hw' hv.there (hc.1.trans hv.same.ids) hv.text hl hp'
    (negated_value h h' hv hti (other_holds h h' hv.here hv.there hv.same hv.actions hti hv.text hv.closed hs hp'
      (run_supported h hv.here hti hr) hc (hu.imp fun _ h => h.1) hacc hn))

include h h' hw hw' hv hl hti hs hz hp hp' in
theorem found_exists (hdec : Z3Oracle.Decides z) {s : Solver} {texts : List Str} (hr : SolverRun z sys ti skip s texts)
    (hpt : ∀ t ∈ texts, ∀ se, TextSays sys.inetPton6 d t se → PlainOrder d se) {r : Bool}
    (ha : (s.addConstraintStr z sys (negated b)).1 = .ok r) :
    r = true ↔ ∃ entry m, CanonicalFor d skip entry ∧ (∀ t ∈ texts, TextHolds sys.inetPton6 d t entry) ∧
      reasonEntryViolatesConstraint entry ci = .ok [] ∧ reasonEntryViolatesConstraint entry ci' = .ok m ∧ m ≠ [] := by
  have key := compare_canonical h h' hv.here hv.there hv.same hv.actions hti hv.text hv.closed hw hw' hs hz hp hp' hdec hr hpt ha
  rw [← Bool.not_eq_false, key]
  constructor
  · intro hn
    refine Classical.byContradiction fun hx => hn fun entry h1 h2 h3 => Classical.byContradiction fun h4 => hx ?_
    rw [reason_accepts h' hw'] at h4
    obtain ⟨m, g1, g2, _⟩ := rejected_reported h h' hw' hv hl hti hs hz hp' hdec hr ha h1 ((reason_accepts h hw).1 h3) h4
    exact ⟨entry, m, h1, h2, h3, g2, g1⟩
  · rintro ⟨entry, m, h1, h2, h3, h4, h5⟩ hall
    rw [hall entry h1 h2 h3] at h4
    cases h4
    exact h5 rfl

theorem free_says {pton : Str → Option Bytes} {se : SExpr} (hfree : Attached .table d.preamble none) (hse : TableSays pton d se) :
    False := by
  obtain ⟨vs, src, e, _, hr⟩ := hse
  cases hr with
  | some h1 => cases attached_unique hfree h1

theorem free_accepted {pton : Str → Option Bytes} {entry : RtEntry} (hd : d ∈ p.tables) (hid : entry.tableId = d.preamble.id)
    (hfree : Attached .table d.preamble none) (hact : entry.action = none) : Accepted pton p entry :=
  table_accepted hd hid hact (.inl hfree)

theorem stripped_canonical {entry : RtEntry} (hc : CanonicalFor d skip entry) : CanonicalFor d skip { entry with action := none } := by
  obtain ⟨h1, vs, h2, h3⟩ := hc
  exact ⟨h1, vs, h2, h3.keys, h3.once, h3.exact, h3.priority⟩

include h h' hv hl hw hw' hti hs hz hp' in
/-- Actions do not matter for the violation. -/
theorem stripped_reported (hfree : Attached .table d.preamble none) (hdec : Z3Oracle.Decides z) {s : Solver}
    (hr : SolverRun z sys ti skip s []) {r : Bool} (ha : (s.addConstraintStr z sys (negated b)).1 = .ok r) {entry : RtEntry}
    (hc : CanonicalFor d skip entry) (hacc : reasonEntryViolatesConstraint entry ci = .ok [])
    (hn : ∃ m, reasonEntryViolatesConstraint entry ci' = .ok m ∧ m ≠ []) :
    ∃ m, m ≠ [] ∧ reasonEntryViolatesConstraint { entry with action := none } ci' = .ok m := by
  have hacc' := (reason_accepts h hw).1 hacc
  have hn' : ¬ Accepted sys.inetPton6 p' entry := by
    rintro ha
    obtain ⟨m, h1, h2⟩ := hn
    rw [(reason_accepts h' hw').2 ha] at h1
    cases h1
    exact h2 rfl
  obtain ⟨m, h1, h2, _⟩ := rejected_reported h h' hw' hv hl hti hs hz hp' hdec hr ha (entry := { entry with action := none })
    (stripped_canonical hc) (free_accepted hv.here hc.1 hfree rfl) fun ha => hn' (by
      obtain ⟨g1, _⟩ := (accepted_table h' hv.there (entry := { entry with action := none }) (hc.1.trans hv.same.ids)).1 ha
      refine (accepted_table h' hv.there (hc.1.trans hv.same.ids)).2 ⟨g1.imp_right ?_, ?_⟩
      · rintro ⟨vs, src, e, s, ρ, k1, k2, k3, k4, k5⟩
        exact ⟨vs, src, e, s, ρ, k1, k2, ⟨k3.known, k3.once, k3.complete⟩, ⟨k4.key, k4.param, k4.priority⟩, k5⟩
      · obtain ⟨_, _, _, _, k⟩ := hacc'
        exact actionsAccepted_congr hv.actions k)
  exact ⟨m, h1, h2⟩

end

end P4C
