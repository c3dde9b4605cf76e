import Verif.Proofs.Obtain
import Verif.Proofs.Runtime
import Verif.Proofs.Weaken
import Verif.Proofs.SolveLaws
import Verif.Proofs.AnyPriority

/-
Comparing two versions of a constraint by means of a constraint solver (C106).
-/

namespace P4C

open Spec

section
variable {sys : Sys} {p : P4Info} {ci : ConstraintInfo} (h : p4ToConstraintInfo sys p = .ok ci) {d : TableDecl}
  (hd : d ∈ p.tables)

include h hd in
/-- A constraint that orders only integers has a value for every entry that fits. -/
theorem plain_value {vs : List VarInfo} (hk : Each KeyDecl d.matchFields vs) {entry : RtEntry} (hf : EntryFits vs entry) {s : SExpr}
    (ht : HasTy (keySig vs) s .boolean) (ho : NoOrderedBits (keySig vs) s) :
    ∃ ρ b, EntryMeans vs entry ρ ∧ Evaluates (keySig vs) ρ s .boolean (.bool b) := by
  obtain ⟨ti, _, hp⟩ := table_declared h hd
  obtain ⟨vs', g1, _, g3, _⟩ := parseTableInfo_parts hp
  cases keys_same hk g1
  obtain ⟨ρ, hρ⟩ := means_exists h hd hk hf
  have hc := entry_consistent (parseTableInfo_wf hp) ((entryOk_fits g3).2 hf) ((entryEnv_means g3).2 hρ)
  rw [sig_keys g3] at hc
  obtain ⟨v, hv, hs⟩ := hasTy_means hc hρ.priority ht
  cases hs with
  | bool b => exact ⟨ρ, b, hρ, means_evaluates hv ho⟩

include h hd in
/-- A constraint attached to a table of an accepted program can be read. -/
theorem says_readTable {b : Str} (hb : Says .table d.preamble b) {vs : List VarInfo} (hk : Each KeyDecl d.matchFields vs) :
    ∃ src e s t, src.str = b ∧ ReadConstraint sys.inetPton6 .table (keySig vs) d.preamble (some (src, e, s, t)) := by
  obtain ⟨src, h1, h2⟩ := hb
  obtain ⟨vs', o, g1, _, g2⟩ := (p4ToConstraintInfo_succeeds.1 ⟨ci, h⟩).2.2.1 d hd
  cases keys_same hk g1
  cases g2 with
  | none h3 => cases attached_unique h1 h3
  | @some src' ts e s t h3 h4 h5 h6 h7 =>
    cases attached_unique h1 h3
    exact ⟨src, e, s, t, h2, .some h3 h4 h5 h6 h7⟩

end

theorem no_range {d : TableDecl} (hsup : AllSupported d fun _ => false) {vs : List VarInfo} (hv : Each KeyDecl d.matchFields vs) :
    ∀ f ∈ d.matchFields, f.kind ≠ .matchType .range := by
  intro f hf hx
  obtain ⟨ki, hki, hkd⟩ := each_mem_left hv f hf
  have hss := (hsup vs hv ki hki).resolve_left (by simp)
  cases hkd <;> cases hx <;> cases hss

section
variable {sys : Sys} {p p' : P4Info} {ci ci' : ConstraintInfo} (h : p4ToConstraintInfo sys p = .ok ci)
  (h' : p4ToConstraintInfo sys p' = .ok ci') {d d' : TableDecl} (hd : d ∈ p.tables) (hd' : d' ∈ p'.tables)
  (hk : SameTableKeys d d') (hact : p.actions = p'.actions) {ti : TableInfo} (hti : lookup d.preamble.id ci.tables = some ti)
  {b : Str} (hb : Says .table d'.preamble b) (hcl : Closed b)

include h hd hti h' hd' hk hb hcl in
/-- What the negation of the other constraint says. -/
theorem other_negated {vs : List VarInfo} (hv : Each KeyDecl d.matchFields vs) :
    ∃ src e s t, ReadConstraint sys.inetPton6 .table (keySig vs) d'.preamble (some (src, e, s, t)) ∧
      (t = .boolean → TextSays sys.inetPton6 d (negated b) (.not s)) ∧
      ∀ se, TextSays sys.inetPton6 d (negated b) se → t = .boolean ∧ se = .not s := by
  obtain ⟨src, e, s, t, rfl, hr⟩ := says_readTable h' hd' hb (hk.keys ▸ hv)
  obtain ⟨_, h2, h3, h4⟩ := read_parts hr
  obtain ⟨e', h5, h6⟩ := negated_parse (src := ⟨negated src.str, { src := .tableName d.preamble.name }⟩) h2 h3 hcl rfl
  refine ⟨src, e, s, t, hr, ?_, ?_⟩
  · rintro rfl
    exact parse_textSays hv h5 h6 (.not h4)
  · intro se hse
    obtain ⟨e'', h7, h8, vs', hv', h9⟩ := textSays_parse h hd hti hse
    rw [show parseConstraint sys .table _ = _ from h5] at h7
    cases h7
    rw [h6] at h8
    cases h8
    cases keys_same hv hv'
    cases h9 with
    | not h9 => exact ⟨hasTy_unique h4 h9, rfl⟩

variable (hw : NonNegProgram p) (hw' : NonNegProgram p') {skip : Str → Bool} (hs : Solvable d skip) {z : Z3Oracle} (hz : z.Sound)
  (hp : ∀ se, TableSays sys.inetPton6 d se → PlainOrder d se) (hp' : ∀ se, TableSays sys.inetPton6 d' se → PlainOrder d' se)

include h hd hti h' hd' hk hb hcl hp' in
theorem negated_plain {texts : List Str} (hpt : ∀ t ∈ texts, ∀ se, TextSays sys.inetPton6 d t se → PlainOrder d se) :
    ∀ t ∈ negated b :: texts, ∀ se, TextSays sys.inetPton6 d t se → PlainOrder d se := by
  intro t ht se hse
  rcases List.mem_cons.1 ht with rfl | ht
  · intro vs hv
    obtain ⟨src, e, u, t, hr, _, h2⟩ := other_negated h h' hd hd' hk hti hb hcl hv
    obtain ⟨rfl, rfl⟩ := h2 se hse
    exact hp' u ⟨vs, src, e, hk.keys ▸ hv, hr⟩ vs (hk.keys ▸ hv)
  · exact hpt t ht se hse

include h' hd' in
/-- The table has only one declaration. -/
theorem accepted_table {entry : RtEntry} (hid : entry.tableId = d'.preamble.id) :
    Accepted sys.inetPton6 p' entry ↔ (Attached .table d'.preamble none ∨ TableValue sys.inetPton6 d' entry true) ∧
      ActionsAccepted sys.inetPton6 p' entry.action := by
  constructor
  · intro ha
    refine ⟨accepted_of_table h' hd' hid ha, ?_⟩
    obtain ⟨_, _, _, _, h4⟩ := ha
    exact h4
  · rintro ⟨h1, h2⟩
    exact ⟨d', hd', hid.symm, h1, h2⟩

include h hd hti h' hd' hk hb hcl in
/-- Entries for which the negation of the other constraint holds are not accepted by the other program. -/
theorem other_rejects {entry : RtEntry} (hid : entry.tableId = d.preamble.id)
    (ht : TextHolds sys.inetPton6 d (negated b) entry) : ¬ Accepted sys.inetPton6 p' entry := by
  intro ha
  obtain ⟨se, h1, vs, ρ, h2, h3, h4, h5⟩ := ht
  obtain ⟨src, e, u, t, hr, _, h6⟩ := other_negated h h' hd hd' hk hti hb hcl h2
  obtain ⟨rfl, rfl⟩ := h6 se h1
  have hf : TableValue sys.inetPton6 d' entry false :=
    ⟨vs, src, e, u, ρ, hk.keys ▸ h2, hr, h3, h4, evaluates_not.1 (by simpa using h5)⟩
  rcases ((accepted_table h' hd' (hid.trans hk.ids)).1 ha).1 with h7 | h7
  · exact says_attached hb h7
  · exact tableValue_unique ⟨h7, hf⟩

include h hd hti h' hd' hk hb hcl hs hp' hact in
/-- Entries accepted by one program only satisfy the negation of the other constraint. -/
theorem other_holds {entry : RtEntry} (hsup : AllSupported d skip) (hc : CanonicalFor d skip entry)
    (hu : ∃ se, TextSays sys.inetPton6 d (negated b) se)
    (ha : Accepted sys.inetPton6 p entry) (hn : ¬ Accepted sys.inetPton6 p' entry) :
    TextHolds sys.inetPton6 d (negated b) entry := by
  obtain ⟨vs, _, hv, _, hf, _⟩ := canonical_env h hd hti hs hsup hc
  obtain ⟨src, e, u, t, hr, _, h6⟩ := other_negated h h' hd hd' hk hti hb hcl hv
  obtain ⟨se, hse⟩ := hu
  obtain ⟨rfl, rfl⟩ := h6 se hse
  obtain ⟨_, _, _, h4⟩ := read_parts hr
  have hno : NoOrderedBits (keySig vs) u := hp' u ⟨vs, src, e, hk.keys ▸ hv, hr⟩ vs (hk.keys ▸ hv)
  obtain ⟨ρ, c, h7, h8⟩ := plain_value h hd hv hf h4 hno
  cases c with
  | true =>
    refine (hn ((accepted_table h' hd' (hc.1.trans hk.ids)).2 ⟨.inr ⟨vs, src, e, u, ρ, hk.keys ▸ hv, hr, hf, h7, h8⟩, ?_⟩)).elim
    obtain ⟨_, _, _, _, h9⟩ := ha
    exact actionsAccepted_congr hact h9
  | false => exact ⟨_, hse, vs, ρ, hv, hf, h7, evaluates_not (b := false).2 h8⟩

include h hd hti h' hd' hk hact hb hcl hw hw' hs hz hp hp' in
theorem compare_canonical (hdec : Z3Oracle.Decides z) {s : Solver} {texts : List Str} (hr : SolverRun z sys ti skip s texts)
    (hpt : ∀ t ∈ texts, ∀ se, TextSays sys.inetPton6 d t se → PlainOrder d se) {r : Bool}
    (ha : (s.addConstraintStr z sys (negated b)).1 = .ok r) :
    r = false ↔ ∀ entry, CanonicalFor d skip entry → (∀ t ∈ texts, TextHolds sys.inetPton6 d t entry) →
      reasonEntryViolatesConstraint entry ci = .ok [] → reasonEntryViolatesConstraint entry ci' = .ok [] := by
  obtain ⟨h1, h2⟩ := add_solves h hd hti hs hz hdec hr hp (negated_plain h h' hd hd' hk hti hb hcl hp' hpt)
  have hu := h1.1 ⟨r, ha⟩
  have hsup := run_supported h hd hti hr
  have key : (s.addConstraintStr z sys (negated b)).1 = .ok true ↔ ∃ entry, CanonicalFor d skip entry ∧
      (∀ t ∈ texts, TextHolds sys.inetPton6 d t entry) ∧ Accepted sys.inetPton6 p entry ∧ ¬ Accepted sys.inetPton6 p' entry := by
    rw [h2]
    constructor
    · rintro ⟨_, entry, hsol⟩
      refine ⟨entry, hsol.canonical, fun t ht => hsol.texts t (List.mem_cons_of_mem _ ht), hsol.accepted, ?_⟩
      exact other_rejects h h' hd hd' hk hti hb hcl hsol.canonical.1 (hsol.texts _ List.mem_cons_self)
    · rintro ⟨entry, hc, g2, g3, g4⟩
      refine ⟨hu, entry, hc, g3, fun t ht => ?_⟩
      rcases List.mem_cons.1 ht with rfl | ht
      · exact other_holds h h' hd hd' hk hact hti hb hcl hs hp' hsup hc (hu.imp fun _ h => h.1) g3 g4
      · exact g2 t ht
  rw [ha] at key
  simp only [Res.ok.injEq] at key
  rw [← Bool.not_eq_true, key]
  simp only [reason_accepts h hw, reason_accepts h' hw']
  simp only [not_exists, not_and, Classical.not_not]

include h hd hti h' hd' hk hb hcl hs hz in
theorem compare_understood (hdec : Z3Oracle.Decides z) {s : Solver} {texts : List Str}
    (hr : SolverRun z sys ti skip s texts) :
    (∃ r, (s.addConstraintStr z sys (negated b)).1 = .ok r) ↔
      ∃ se, TableSays sys.inetPton6 d' se ∧ Mentionable d skip se := by
  rw [(signed_add_solves h hd hti hs hz hdec hr).1]
  obtain ⟨vs, hv, _, _⟩ := parseTableInfo_parts (declared_parse h hd hti)
  obtain ⟨src, e, u, t, hre, g1, g2⟩ := other_negated h h' hd hd' hk hti hb hcl hv
  constructor
  · rintro ⟨se, h1, vs', h2, h3⟩
    obtain ⟨rfl, rfl⟩ := g2 se h1
    exact ⟨u, ⟨vs, src, e, hk.keys ▸ hv, hre⟩, vs', h2, h3⟩
  · rintro ⟨se, ⟨vs', src', e', h1, h2⟩, vs'', h3, h4⟩
    cases keys_same (hk.keys ▸ hv) h1
    have := readConstraint_unique hre h2
    simp only [Option.some.injEq, Prod.mk.injEq] at this
    obtain ⟨rfl, rfl, rfl, rfl⟩ := this
    exact ⟨_, g1 rfl, vs'', h3, h4⟩

include h hd hti h' hd' hk hb hcl hw hw' hs hz hp hp' in
theorem compare_witness {s s' s'' : Solver} {texts : List Str} {entry : RtEntry} (hr : SolverRun z sys ti skip s texts)
    (hpt : ∀ t ∈ texts, ∀ se, TextSays sys.inetPton6 d t se → PlainOrder d se)
    (ha : s.addConstraintStr z sys (negated b) = (.ok true, s')) (hc : s'.concretize z = (.ok entry, s'')) :
    CanonicalFor d skip entry ∧ (∀ t ∈ texts, TextHolds sys.inetPton6 d t entry) ∧
      reasonEntryViolatesConstraint entry ci = .ok [] ∧ reasonEntryViolatesConstraint entry ci' ≠ .ok [] := by
  obtain ⟨hsol, _⟩ := concretize_solves h hd hti hs hz (.accepted hr ha) hp (negated_plain h h' hd hd' hk hti hb hcl hp' hpt) hc
  rw [reason_accepts h hw, Ne, reason_accepts h' hw']
  exact ⟨hsol.canonical, fun t ht => hsol.texts t (List.mem_cons_of_mem _ ht), hsol.accepted,
    other_rejects h h' hd hd' hk hti hb hcl hsol.canonical.1 (hsol.texts _ List.mem_cons_self)⟩

include h hd hti in
/-- Entries in canonical form in which no key is skipped are well-formed, and the other way round. -/
theorem canonical_wellFormed {s : Solver} {texts : List Str} (hr : SolverRun z sys ti (fun _ => false) s texts) (entry : RtEntry) :
    CanonicalFor d (fun _ => false) entry ↔ RuntimeEntry d entry := by
  have hsup := run_supported h hd hti hr
  obtain ⟨vs, hv, hdist, _⟩ := parseTableInfo_parts (declared_parse h hd hti)
  exact ⟨fun hc => (canonicalFor_runtime hv hdist hc).2
    ⟨fun _ _ _ => rfl, fun ⟨f, hf, hx⟩ => (no_range hsup hv f hf hx).elim⟩, runtime_canonicalFor hv hsup⟩

include h hd hti h' hd' hk hb hcl hs in
/-- In the reading of solvers, one of the other constraint and its negation is true of every entry in canonical form. -/
theorem other_signed {s : Solver} {texts : List Str} (hr : SolverRun z sys ti skip s texts)
    (hu : ∃ se, TextSays sys.inetPton6 d (negated b) se ∧ Mentionable d skip se) {entry : RtEntry} (hc : CanonicalFor d skip entry) :
    (∃ se, TextSays sys.inetPton6 d (negated b) se ∧ SignedTrueOf d entry se) ↔
      ¬ ∃ se, TableSays sys.inetPton6 d' se ∧ SignedTrueOf d' entry se := by
  obtain ⟨se, hse, hm⟩ := hu
  obtain ⟨vs, ρ, c, hv, hf, hρ, hval⟩ := signed_total h hd hti hs hr hse hm hc
  obtain ⟨src, e, u, t, hre, _, g2⟩ := other_negated h h' hd hd' hk hti hb hcl hv
  obtain ⟨rfl, rfl⟩ := g2 se hse
  have hun := fun ρ' h' => entryMeans_unique (ρ := ρ') h' hρ
  have hsays : ∀ se, TableSays sys.inetPton6 d' se → se = u := by
    rintro se ⟨vs', src', e', h1, h2⟩
    cases keys_same (hk.keys ▸ hv) h1
    have := readConstraint_unique hre h2
    simp only [Option.some.injEq, Prod.mk.injEq] at this
    exact this.2.2.1.symm
  cases hval with
  | @not _ v hval =>
    constructor
    · rintro ⟨se, h1, h2⟩ ⟨se', h3, h4⟩
      obtain ⟨_, rfl⟩ := g2 se h1
      cases hsays se' h3
      have hb' := signedTrueOf_value hv (.not hval) h2 hun
      obtain ⟨vs', ρ', g3, g4, g5, g6⟩ := h4
      have hb := signedTrueOf_value hv hval ⟨vs', ρ', hk.keys.symm ▸ g3, g4, g5, g6⟩ hun
      rw [hb] at hb'
      cases hb'
    · intro hn
      cases v with
      | true => exact (hn ⟨u, ⟨vs, src, e, hk.keys ▸ hv, hre⟩, vs, ρ, hk.keys ▸ hv, hf, hρ, hval⟩).elim
      | false => exact ⟨_, hse, vs, ρ, hv, hf, hρ, .not hval⟩

include h hd hti h' hd' hk hb hcl hs hz in
theorem compare_signed (hdec : Z3Oracle.Decides z) {s : Solver} {texts : List Str} (hr : SolverRun z sys ti skip s texts) {r : Bool}
    (ha : (s.addConstraintStr z sys (negated b)).1 = .ok r) :
    r = false ↔ ∀ entry, SignedSolution sys.inetPton6 d skip texts entry →
      ∃ se, TableSays sys.inetPton6 d' se ∧ SignedTrueOf d' entry se := by
  obtain ⟨h1, h2⟩ := signed_add_solves h hd hti hs hz hdec hr (text := negated b)
  have hu := h1.1 ⟨r, ha⟩
  have key : (s.addConstraintStr z sys (negated b)).1 = .ok true ↔ ∃ entry, SignedSolution sys.inetPton6 d skip texts entry ∧
      ¬ ∃ se, TableSays sys.inetPton6 d' se ∧ SignedTrueOf d' entry se := by
    rw [h2]
    constructor
    · rintro ⟨_, entry, g1, g2, g3⟩
      exact ⟨entry, ⟨g1, g2, fun t ht => g3 t (List.mem_cons_of_mem _ ht)⟩,
        (other_signed h h' hd hd' hk hti hb hcl hs hr hu g1).1 (g3 _ List.mem_cons_self)⟩
    · rintro ⟨entry, ⟨g1, g2, g3⟩, g4⟩
      refine ⟨hu, entry, g1, g2, fun t ht => ?_⟩
      rcases List.mem_cons.1 ht with rfl | ht
      · exact (other_signed h h' hd hd' hk hti hb hcl hs hr hu g1).2 g4
      · exact g3 t ht
  rw [ha] at key
  simp only [Res.ok.injEq] at key
  rw [← Bool.not_eq_true, key]
  exact ⟨fun hn entry he => Classical.byContradiction fun hx => hn ⟨entry, he, hx⟩, fun hall ⟨entry, he, hx⟩ => hx (hall entry he)⟩

include h hd hti h' hd' hk hb hcl hs hz in
theorem witness_signed {s s' s'' : Solver} {texts : List Str} {entry : RtEntry} (hr : SolverRun z sys ti skip s texts)
    (ha : s.addConstraintStr z sys (negated b) = (.ok true, s')) (hc : s'.concretize z = (.ok entry, s'')) :
    SignedSolution sys.inetPton6 d skip texts entry ∧ ¬ ∃ se, TableSays sys.inetPton6 d' se ∧ SignedTrueOf d' entry se := by
  obtain ⟨⟨g1, g2, g3⟩, _⟩ := signed_concretize_solves h hd hti hs hz (.accepted hr ha) hc
  refine ⟨⟨g1, g2, fun t ht => g3 t (List.mem_cons_of_mem _ ht)⟩, ?_⟩
  obtain ⟨se, h1, h2⟩ := g3 _ List.mem_cons_self
  obtain ⟨vs, ρ, hv, hf, hρ, he⟩ := h2
  obtain ⟨src, e, u, t, hre, _, k2⟩ := other_negated h h' hd hd' hk hti hb hcl hv
  obtain ⟨rfl, rfl⟩ := k2 se h1
  rintro ⟨se', ⟨vs', src', e', h5, h6⟩, vs'', ρ', h7, _, h8, h9⟩
  cases keys_same (hk.keys ▸ hv) h5
  cases keys_same (hk.keys ▸ hv) h7
  have := readConstraint_unique hre h6
  simp only [Option.some.injEq, Prod.mk.injEq] at this
  obtain ⟨rfl, rfl, rfl, _⟩ := this
  cases entryMeans_unique hρ h8
  have := (signed_unique he (.not h9)).2
  cases this

end

end P4C
