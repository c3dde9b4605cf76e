import Verif.Spec.SolveSigned
import Verif.Proofs.Solve

/-
Solvers for the tables of a program, for any constraints (C72).
-/

namespace P4C

open Spec

section
variable {sys : Sys} {d : TableDecl} {ti : TableInfo} {vs : List VarInfo} (h : parseTableInfo sys d = .ok ti)
  (hk : Each KeyDecl d.matchFields vs) (hm : Maps vs ti.keysById ti.keysByName) {skip : Str → Bool}

include hk hm in
theorem signedTrueOf_iff {entry : RtEntry} {ρ : Env} {se : SExpr} (hf : EntryFits vs entry) (henv : EntryEnv ti entry ρ) :
    SignedHolds (sigOf (.table ti.keysByName)) ρ se ↔ SignedTrueOf d entry se := by
  rw [sig_keys hm]
  constructor
  · exact fun hh => ⟨vs, ρ, hk, hf, (entryEnv_means hm).1 henv, hh⟩
  · rintro ⟨vs', ρ', hk', _, hm', he⟩
    cases keys_same hk hk'
    cases entryEnv_unique henv ((entryEnv_means hm).2 hm')
    exact he

include h hk hm in
/-- The constraints of the solver hold of a canonical entry if it satisfies the constraint of the table and the texts. -/
theorem signed_holds_iff {ds : List Expr} {entry : RtEntry} {ρ : Env} {texts : List Str}
    (hg : ∀ c ∈ ds ++ ti.constraint.toList, ∀ se, Checked (.table ti.keysByName) c se → c.ty = .boolean)
    (he : Each (ReadText sys ti) texts ds) (hf : EntryFits vs entry) (henv : EntryEnv ti entry ρ) :
    (∀ c ∈ ds ++ ti.constraint.toList, ∀ se, Checked (.table ti.keysByName) c se →
      SignedHolds (sigOf (.table ti.keysByName)) ρ se) ↔
    (Attached .table d.preamble none ∨ ∃ se, TableSays sys.inetPton6 d se ∧ SignedTrueOf d entry se) ∧
      ∀ text ∈ texts, ∃ se, TextSays sys.inetPton6 d text se ∧ SignedTrueOf d entry se := by
  constructor
  · intro hall
    constructor
    · cases hc : ti.constraint with
      | none =>
        obtain ⟨_, _, _, _, h4⟩ := parseTableInfo_parts h
        rw [hc] at h4
        exact .inl (parseAndCheck_none h4)
      | some k =>
        right
        obtain ⟨vs', e, se, r⟩ := table_read h hc
        cases keys_same hk r.keys
        have hch : Checked (.table ti.keysByName) k se := ⟨_, e, r.typed, r.meant⟩
        have hmem : k ∈ ds ++ ti.constraint.toList := by simp [hc]
        have hb := hg k hmem se hch
        have hread := r.read
        rw [hb] at hread
        exact ⟨se, ⟨vs, _, _, hk, hread⟩, (signedTrueOf_iff hk hm hf henv).1 (hall k hmem se hch)⟩
    · intro text ht
      obtain ⟨c, hc, e, h1, h2⟩ := each_mem_left he text ht
      obtain ⟨se, h3⟩ := parsed_abs h1
      have hch : Checked (.table ti.keysByName) c se := ⟨_, e, h2, h3⟩
      have hmem := List.mem_append_left ti.constraint.toList hc
      have hb := hg c hmem se hch
      have hs : TextSays sys.inetPton6 d text se := (textSays_iff h hk hm).2 ⟨e, c, h1, h2, hb, h3⟩
      exact ⟨se, hs, (signedTrueOf_iff hk hm hf henv).1 (hall c hmem se hch)⟩
  · rintro ⟨ht, htx⟩ c hc se hch
    have hb := hg c hc se hch
    rcases List.mem_append.1 hc with hc' | hc'
    · obtain ⟨text, h1, e, h2, h3⟩ := each_mem he c hc'
      obtain ⟨se', h4, h5⟩ := htx text h1
      obtain ⟨e', c', g1, g2, _, g3⟩ := (textSays_iff h hk hm).1 h4
      rw [h2] at g1
      cases g1
      cases checked_unique hch ⟨_, e, h3, g3⟩
      exact (signedTrueOf_iff hk hm hf henv).2 h5
    · have hc' : ti.constraint = some c := by simpa using hc'
      obtain ⟨vs', e, se', r⟩ := table_read h hc'
      cases keys_same hk r.keys
      cases checked_unique hch ⟨_, e, r.typed, r.meant⟩
      rcases ht with ha | ⟨s', ⟨vs', src', e', g1, g2⟩, g3⟩
      · cases attached_unique ha r.attached
      · cases keys_same hk g1
        have hu := readConstraint_unique r.read g2
        simp only [Option.some.injEq, Prod.mk.injEq] at hu
        obtain ⟨rfl, rfl, rfl, _⟩ := hu
        exact (signedTrueOf_iff hk hm hf henv).2 g3

end

section
variable {sys : Sys} {p : P4Info} {ci : ConstraintInfo} (h : p4ToConstraintInfo sys p = .ok ci) {d : TableDecl}
  (hd : d ∈ p.tables) {ti : TableInfo} (hti : lookup d.preamble.id ci.tables = some ti) {skip : Str → Bool}
  (hs : Solvable d skip) {z : Z3Oracle} (hz : z.Sound) (hdec : Z3Oracle.Decides z)

include h hd hti hs in
/-- A solver whose constraints can be satisfied has a solution. -/
theorem signed_solution_of_model {s : Solver} {ks : List (Str × SymKey)} {as : List (Term .bool)} {ds : List Expr}
    {texts : List Str} (hi : SolverInv ti (fun n => .ok (skip n)) ks as s (ds ++ ti.constraint.toList))
    (he : Each (ReadText sys ti) texts ds)
    {m : Interp} (hm : ∀ a ∈ s.assertions, a.den m = true) :
    ∃ entry, SignedSolution sys.inetPton6 d skip texts entry := by
  have hpi := declared_parse h hd hti
  have hwf := parseTableInfo_wf hpi
  obtain ⟨vs, hk, _, hmaps, _⟩ := parseTableInfo_parts hpi
  obtain ⟨entry, ρ, hcan, hok, hact, henv, hcorr⟩ := model_env hi hwf (solvable_omittable hk hmaps hs)
    (solvable_widths hk hmaps hs) hm
  have hfor := (canonicalFor_iff hpi hk hmaps).1 hcan
  obtain ⟨h1, h2⟩ := (signed_holds_iff hpi hk hmaps (fun c hc se hch => (inv_good hi hwf hc hch).1) he
    ((entryOk_fits hmaps).1 hok) henv).1
    (fun c hc se hch => model_holds hi hm hcorr hc hch)
  exact ⟨entry, hfor, h1, h2⟩

include h hd hti hs hz hdec in
theorem signed_create_solves :
    (∃ s, Solver.create z ti (fun n => .ok (skip n)) = .ok s) ↔
      AllSupported d skip ∧ (∀ se, TableSays sys.inetPton6 d se → Mentionable d skip se) ∧
      ∃ entry, SignedSolution sys.inetPton6 d skip [] entry := by
  have hpi := declared_parse h hd hti
  have hwf := parseTableInfo_wf hpi
  obtain ⟨vs, hk, _, hmaps, _⟩ := parseTableInfo_parts hpi
  constructor
  · rintro ⟨s, hc⟩
    have hr : Reachable z sys ti (fun n => .ok (skip n)) s ti.constraint.toList := .create hc
    obtain ⟨ks, as, hi⟩ := reachable_inv hr
    obtain ⟨m, hm⟩ := reachable_sat hz hwf hr
    refine ⟨inv_supported hk hmaps hi hwf, ?_, ?_⟩
    · rintro se ⟨vs', src, e, hk', hread⟩
      cases keys_same hk hk'
      cases hct : ti.constraint with
      | none =>
        obtain ⟨_, _, _, _, h4⟩ := parseTableInfo_parts hpi
        rw [hct] at h4
        cases hread with | some ha => cases attached_unique ha (parseAndCheck_none h4)
      | some c =>
        obtain ⟨vs', e', se', r⟩ := table_read hpi hct
        cases keys_same hk r.keys
        have hu := readConstraint_unique r.read hread
        simp only [Option.some.injEq, Prod.mk.injEq] at hu
        obtain ⟨rfl, rfl, rfl, _⟩ := hu
        exact (mentionable_iff hk hmaps).1 (inv_good hi hwf (by simp [hct]) ⟨_, e', r.typed, r.meant⟩).2
    · exact signed_solution_of_model h hd hti hs (ds := []) hi .nil hm
  · rintro ⟨hsup, hmen, entry, hcan, hacc, _⟩
    obtain ⟨vs', ρ, hk', _, hf, henv⟩ := canonical_env h hd hti hs hsup hcan
    cases keys_same hk hk'
    have hcan' := (canonicalFor_iff hpi hk hmaps).2 hcan
    have hsup' : KeysSupported ti (fun n => .ok (skip n)) := by
      intro n ki hmem
      obtain ⟨h1, rfl⟩ := (hmaps.byName n ki).1 hmem
      cases hsk : skip ki.name with
      | true => exact .inl (congrArg Res.ok hsk)
      | false =>
        refine .inr ⟨congrArg Res.ok hsk, ?_⟩
        rcases hsup vs hk ki h1 with h2 | h2
        · rw [hsk] at h2; cases h2
        · exact h2
    refine create_complete hz hdec hwf (solvable_names hk hmaps hs) hsup' hcan' henv ?_
    intro c hct
    obtain ⟨vs', e, se, r⟩ := table_read hpi hct
    cases keys_same hk r.keys
    have hch : Checked (.table ti.keysByName) c se := ⟨_, e, r.typed, r.meant⟩
    rcases hacc with ha | ⟨s', ⟨vs', src', e', g1, g2⟩, g3⟩
    · cases attached_unique ha r.attached
    · cases keys_same hk g1
      have hu := readConstraint_unique r.read g2
      simp only [Option.some.injEq, Prod.mk.injEq] at hu
      obtain ⟨rfl, rfl, rfl, hb⟩ := hu
      have hsays : TableSays sys.inetPton6 d se := ⟨vs, _, _, hk, g2⟩
      have hx := (mentionable_iff hk hmaps).2 (hmen se hsays)
      exact ⟨se, hch, hb, hx, (signedTrueOf_iff hk hmaps hf henv).2 g3⟩

include h hd hti hs hz in
theorem signed_concretize_solves {s s' : Solver} {texts : List Str} {entry : RtEntry} (hr : SolverRun z sys ti skip s texts)
    (hc : s.concretize z = (.ok entry, s')) : SignedSolution sys.inetPton6 d skip texts entry ∧ entry.action = none := by
  have hpi := declared_parse h hd hti
  have hwf := parseTableInfo_wf hpi
  obtain ⟨vs, hk, _, hmaps, _⟩ := parseTableInfo_parts hpi
  obtain ⟨ds, hre, he⟩ := run_reachable hr
  obtain ⟨ks, as, hi⟩ := reachable_inv hre
  obtain ⟨_, _, _, _, hcan, _⟩ := concretize_spec hi hz hwf hc
  obtain ⟨hok, hact, ρ, henv, hall⟩ := concretize_holds hi hz hwf (solvable_omittable hk hmaps hs) hc
  have hfor := (canonicalFor_iff hpi hk hmaps).1 hcan
  obtain ⟨h1, h2⟩ := (signed_holds_iff hpi hk hmaps (fun c hc se hch => (inv_good hi hwf hc hch).1) he
    ((entryOk_fits hmaps).1 hok) henv).1 (fun c hc se hch => (hall c hc se hch).2)
  exact ⟨⟨hfor, h1, h2⟩, hact⟩

include h hd hti hs hz hdec in
theorem signed_add_solves {s : Solver} {texts : List Str} {text : Str} (hr : SolverRun z sys ti skip s texts) :
    ((∃ b, (s.addConstraintStr z sys text).1 = .ok b) ↔ ∃ se, TextSays sys.inetPton6 d text se ∧ Mentionable d skip se) ∧
    ((s.addConstraintStr z sys text).1 = .ok true ↔ (∃ se, TextSays sys.inetPton6 d text se ∧ Mentionable d skip se) ∧
      ∃ entry, SignedSolution sys.inetPton6 d skip (text :: texts) entry) := by
  have hpi := declared_parse h hd hti
  have hwf := parseTableInfo_wf hpi
  obtain ⟨vs, hk, _, hmaps, _⟩ := parseTableInfo_parts hpi
  have hnd := solvable_names hk hmaps hs
  obtain ⟨ds, hre, he⟩ := run_reachable hr
  obtain ⟨ks, as, hi⟩ := reachable_inv hre
  have hcs : ∀ c ∈ ds ++ ti.constraint.toList, ∃ se, Checked (.table ti.keysByName) c se := by
    intro c hc
    rcases List.mem_append.1 hc with hc | hc
    · obtain ⟨t, _, e, h1, h2⟩ := each_mem he c hc
      obtain ⟨se, h3⟩ := parsed_abs h1
      exact ⟨se, _, e, h2, h3⟩
    · have hc : ti.constraint = some c := by simpa using hc
      obtain ⟨_, e, se, r⟩ := table_read hpi hc
      exact ⟨se, _, e, r.typed, r.meant⟩
  have hsup := inv_supported hk hmaps hi hwf
  have hsays : ∀ se, TextSays sys.inetPton6 d text se → Mentionable d skip se →
      ∃ b, (s.addConstraintStr z sys text).1 = .ok b ∧
        (b = true ↔ ∃ entry, SignedSolution sys.inetPton6 d skip (text :: texts) entry) := by
    intro se hse hmen
    obtain ⟨e, c, h1, h2, h3, h4⟩ := (textSays_iff hpi hk hmaps).1 hse
    have hch : Checked (.table ti.keysByName) c se := ⟨_, e, h2, h4⟩
    have hx := (mentionable_iff hk hmaps).2 hmen
    obtain ⟨b, hb, hiff⟩ := add_exact hre hz hdec hwf hnd (solvable_omittable hk hmaps hs) (solvable_widths hk hmaps hs)
      hcs hch h3 hx ⟨text, { src := .tableName ti.name }⟩
    have heq : s.addConstraintStr z sys text = s.addConstraint z c ⟨text, { src := .tableName ti.name }⟩ := by
      unfold Solver.addConstraintStr
      rw [hi.table]
      dsimp only
      rw [h1, Res.ok_bind, h2]
    rw [heq]
    refine ⟨b, hb, hiff.trans ?_⟩
    have hg : ∀ c' ∈ (c :: ds) ++ ti.constraint.toList, ∀ se', Checked (.table ti.keysByName) c' se' →
        c'.ty = .boolean := by
      intro c' hc' se' hch'
      rcases List.mem_cons.1 hc' with rfl | hc'
      · cases checked_unique hch hch'
        exact h3
      · exact (inv_good hi hwf hc' hch').1
    have he' : Each (ReadText sys ti) (text :: texts) (c :: ds) := .cons ⟨e, h1, h2⟩ he
    constructor
    · rintro ⟨entry, ρ, hcan, henv, hall⟩
      have hfor := (canonicalFor_iff hpi hk hmaps).1 hcan
      obtain ⟨vs', _, hk', _, hf, _⟩ := canonical_env h hd hti hs hsup hfor
      cases keys_same hk hk'
      obtain ⟨h5, h6⟩ := (signed_holds_iff hpi hk hmaps hg he' hf henv).1 hall
      exact ⟨entry, hfor, h5, h6⟩
    · rintro ⟨entry, hcan, hacc, htx⟩
      obtain ⟨vs', ρ, hk', _, hf, henv⟩ := canonical_env h hd hti hs hsup hcan
      cases keys_same hk hk'
      have hcan' := (canonicalFor_iff hpi hk hmaps).2 hcan
      exact ⟨entry, ρ, hcan', henv, (signed_holds_iff hpi hk hmaps hg he' hf henv).2
        ⟨hacc, htx⟩⟩
  have hback : ∀ b, (s.addConstraintStr z sys text).1 = .ok b →
      ∃ se, TextSays sys.inetPton6 d text se ∧ Mentionable d skip se := by
    intro b hb
    have hcases : ∃ e c, parseConstraint sys .table ⟨text, { src := .tableName ti.name }⟩ = .ok e ∧
        inferAndCheck ti.source (.table ti.keysByName) e = .ok c ∧
        (s.addConstraint z c ⟨text, { src := .tableName ti.name }⟩).1 = .ok b := by
      unfold Solver.addConstraintStr at hb
      rw [hi.table] at hb
      dsimp only at hb
      split at hb
      · rename_i c hc
        rw [Res.bind_eq_ok] at hc
        obtain ⟨e, h1, h2⟩ := hc
        exact ⟨e, c, h1, h2, hb⟩
      all_goals cases hb
    obtain ⟨e, c, h1, h2, h3⟩ := hcases
    obtain ⟨se, h4⟩ := parsed_abs h1
    have hev : ∃ t, evaluateConstraintSymbolically c ⟨text, { src := .tableName ti.name }⟩ s.env = .ok t := by
      unfold Solver.addConstraint at h3
      dsimp only at h3
      split at h3
      · split at h3
        · exact ⟨_, by assumption⟩
        all_goals first | cases h3 | exact ⟨_, by assumption⟩
      all_goals cases h3
    obtain ⟨t, hev⟩ := hev
    have hch : Checked (.table ti.keysByName) c se := ⟨_, e, h2, h4⟩
    obtain ⟨h5, h6⟩ := formula_known hch hev
    exact ⟨se, (textSays_iff hpi hk hmaps).2 ⟨e, c, h1, h2, h5, h4⟩, (mentionable_iff hk hmaps).1 ((known_iff hi hwf se).1 h6)⟩
  constructor
  · constructor
    · rintro ⟨b, hb⟩
      exact hback b hb
    · rintro ⟨se, h1, h2⟩
      obtain ⟨b, h3, _⟩ := hsays se h1 h2
      exact ⟨b, h3⟩
  · constructor
    · intro hb
      obtain ⟨se, h1, h2⟩ := hback true hb
      obtain ⟨b, h3, h4⟩ := hsays se h1 h2
      rw [hb] at h3
      cases h3
      exact ⟨⟨se, h1, h2⟩, h4.1 rfl⟩
    · rintro ⟨⟨se, h1, h2⟩, h5⟩
      obtain ⟨b, h3, h4⟩ := hsays se h1 h2
      rw [h3, h4.2 h5]

end

end P4C
