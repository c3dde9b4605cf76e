import Verif.Proofs.Runtime
import Verif.Props.Obtain
import Verif.Props.Priority
import Verif.Props.Moved

/-
C100: the entries returned by a constraint solver are well-formed entries in the sense of P4Runtime.
-/

namespace P4C

open Spec

section
variable {sys : Sys} {p : P4Info} {ci : ConstraintInfo} (h : p4ToConstraintInfo sys p = .ok ci) {d : TableDecl}
  (hd : d ∈ p.tables) {ti : TableInfo} (hti : lookup d.preamble.id ci.tables = some ti) {skip : Str → Bool}
  {z : Z3Oracle} (hz : z.Sound)

include h hd hti hz in
/-- C100, exactly: after any history, the entry returned is well-formed if and only if no exact key is skipped, and the table
also has a ternary or optional key if it has a range key. -/
theorem C100_exact {s s' : Solver} {texts : List Str} {entry : RtEntry} (hr : SolverRun z sys ti skip s texts)
    (hc : s.concretize z = (.ok entry, s')) :
    RuntimeEntry d entry ↔ (∀ f ∈ d.matchFields, f.kind = .matchType .exact → skip f.name = false) ∧
      ((∃ f ∈ d.matchFields, f.kind = .matchType .range) →
        ∃ f ∈ d.matchFields, f.kind = .matchType .ternary ∨ f.kind = .matchType .optional) := by
  have hparse := declared_parse h hd hti
  obtain ⟨vs, hv, hdist, hm, _⟩ := parseTableInfo_parts hparse
  obtain ⟨ds, hreach, _⟩ := run_reachable hr
  exact canonicalFor_runtime hv hdist
    ((canonicalFor_iff hparse hv hm).1 (C36_canonical hreach hz (parseTableInfo_wf hparse) hc))

include h hd hti hz in
/-- C100: the entry is well-formed. Missing: solvers that skip an exact key (see `C100_fails_exact`), tables that have a range
key, which must be skipped, but no ternary and no optional key (see `C100_fails_range`). -/
theorem C100_wellformed_partial (hx : ∀ f ∈ d.matchFields, f.kind = .matchType .exact → skip f.name = false)
    (hran : ∀ f ∈ d.matchFields, f.kind ≠ .matchType .range) {s s' : Solver} {texts : List Str} {entry : RtEntry}
    (hr : SolverRun z sys ti skip s texts) (hc : s.concretize z = (.ok entry, s')) : RuntimeEntry d entry :=
  (C100_exact h hd hti hz hr hc).2 ⟨hx, fun ⟨f, hf, hk⟩ => (hran f hf hk).elim⟩

include h hd hti hz in
/-- C100: the entry has no match for a key that is skipped. -/
theorem C100_skipped {s s' : Solver} {texts : List Str} {entry : RtEntry} (hr : SolverRun z sys ti skip s texts)
    (hc : s.concretize z = (.ok entry, s')) {f : MatchField} (hf : f ∈ d.matchFields) (hsk : skip f.name = true) :
    ∀ m ∈ entry.matches_, m.fieldId ≠ f.id := by
  have hparse := declared_parse h hd hti
  obtain ⟨vs, hv, hdist, hm, _⟩ := parseTableInfo_parts hparse
  obtain ⟨ds, hreach, _⟩ := run_reachable hr
  obtain ⟨_, vs', hv', hcan⟩ := (canonicalFor_iff hparse hv hm).1 (C36_canonical hreach hz (parseTableInfo_wf hparse) hc)
  cases keys_same hv hv'
  intro m hm' hid
  obtain ⟨ki, hki, hns, hid', _⟩ := hcan.keys m hm'
  obtain ⟨ki', hki', hk⟩ := each_mem_left hv f hf
  have : ki' = ki := inj_of_nodup_map hdist.1 hki' hki (by cases hk <;> simp_all)
  subst this
  have : skip ki'.name = true := by cases hk <;> exact hsk
  rw [this] at hns
  cases hns

include h hd hti hz in
/-- C100, conversely: if no key is skipped, then every well-formed entry can be obtained that satisfies the constraint of the
table and what was accepted so far (with ordered comparisons of bit strings read as in C72), and no others can. -/
theorem C100_every (hs : Solvable d fun _ => false) (hdec : Z3Oracle.Decides z) (hn : KeysNameable d fun _ => false)
    (hip : Z3Oracle.InterpretsPriority z) {s : Solver} {texts : List Str} (hr : SolverRun z sys ti (fun _ => false) s texts)
    {entry : RtEntry} :
    (∃ text, Obtains z sys s text entry) ↔ RuntimeEntry d entry ∧
      (Attached .table d.preamble none ∨ ∃ se, TableSays sys.inetPton6 d se ∧ SignedTrueOf d entry se) ∧
      ∀ text ∈ texts, ∃ se, TextSays sys.inetPton6 d text se ∧ SignedTrueOf d entry se := by
  rw [C95_exactly h hd hti hs hz hdec hn hip hr]
  have hparse := declared_parse h hd hti
  obtain ⟨vs, hv, hdist, hm, _⟩ := parseTableInfo_parts hparse
  obtain ⟨ds, hreach, _⟩ := run_reachable hr
  obtain ⟨ks, as, hi⟩ := reachable_inv hreach
  have hsup : AllSupported d fun _ => false := inv_supported hv hm hi (parseTableInfo_wf hparse)
  constructor
  · rintro ⟨h1, h2, h3⟩
    refine ⟨(canonicalFor_runtime hv hdist h1).2 ⟨fun _ _ _ => rfl, fun ⟨f, hf, hk⟩ => ?_⟩, h2, h3⟩
    obtain ⟨ki, hki, hkd⟩ := each_mem_left hv f hf
    rcases hsup vs hv ki hki with hx | hx
    · cases hx
    · cases hkd <;> simp at hk
      cases hx
  · rintro ⟨h1, h2, h3⟩
    exact ⟨runtime_canonicalFor hv hsup h1, h2, h3⟩

end

/-! ### Examples -/

/-- The solver created for a table without a constraint, and an oracle that always returns `Ex.m1`. -/
def Ex.runtimeSolver (d : TableDecl) (skip : Str → Bool) : Solver :=
  Ex.get ⟨0, [], Ex.symTi d, ⟨[], []⟩, fun n => .ok (skip n)⟩
    (Solver.create (constOracle Ex.m1) (Ex.symTi d) fun n => .ok (skip n))

/-- A table with a key of every supported kind, of which `opt` is skipped. -/
example : RuntimeEntry (Ex.symDecl []) { Ex.e1 with matches_ := [⟨1, .exact [5]⟩, ⟨3, .lpm [0xab, 0] 8⟩, ⟨2, .ternary [16] [240]⟩] } :=
  C100_wellformed_partial Ex.moved_ci (List.mem_singleton.2 rfl) Ex.moved_ti (constOracle_sound Ex.m1)
    (skip := fun n => n == c!"opt") (by decide +kernel) (by decide +kernel)
    (.create (s := Ex.runtimeSolver (Ex.symDecl []) fun n => n == c!"opt") (Ex.get_of_isOk (by decide +kernel)))
    (Prod.ext (by decide +kernel) rfl)

/-- Well-formed entries of the table of the examples that satisfy its constraint can be obtained. -/
example : RuntimeEntry Ex.d1 Ex.e1 ∧ RuntimeEntry Ex.d1 Ex.e1other ∧
    ∃ s, Solver.create Ex.perfect (Ex.symTi Ex.d1) (fun _ => .ok false) = .ok s ∧
      (∃ t, Obtains Ex.perfect Ex.sys s t Ex.e1) ∧ ∃ t, Obtains Ex.perfect Ex.sys s t Ex.e1other := by
  obtain ⟨s, hc, _⟩ := Ex.solve_accepted Ex.perfect_sound Ex.perfect_decides
  have hr : SolverRun Ex.perfect Ex.sys (Ex.symTi Ex.d1) (fun _ => false) s [] := .create hc
  have hx := fun e => C95_exactly Ex.solve_ci (List.mem_singleton.2 rfl) Ex.solve_ti Ex.solvable1 Ex.perfect_sound
    Ex.perfect_decides Ex.keysNameable1 Ex.perfect_priority hr (entry := e)
  have hy := fun e => C100_every Ex.solve_ci (List.mem_singleton.2 rfl) Ex.solve_ti Ex.perfect_sound Ex.solvable1
    Ex.perfect_decides Ex.keysNameable1 Ex.perfect_priority hr (entry := e)
  have h1 := (hx _).2 Ex.solutions1.1
  have h2 := (hx _).2 Ex.solutions1.2
  exact ⟨((hy _).1 h1).1, ((hy _).1 h2).1, s, hc, h1, h2⟩

/-- The full C100 fails if an exact key is skipped, because entries must have a match for each of these. -/
theorem C100_fails_exact : ∃ z sys p ci d ti skip s s' entry, z.Sound ∧ p4ToConstraintInfo sys p = .ok ci ∧ d ∈ p.tables ∧
    lookup d.preamble.id ci.tables = some ti ∧ SolverRun z sys ti skip s [] ∧ s.concretize z = (.ok entry, s') ∧
    (∀ f ∈ d.matchFields, f.kind ≠ .matchType .range) ∧ ¬ RuntimeEntry d entry := by
  refine ⟨constOracle Ex.m1, Ex.sys, Ex.symInfo (Ex.symDecl []), Ex.symCi (Ex.symDecl []), Ex.symDecl [], Ex.symTi (Ex.symDecl []),
    fun n => n == c!"ex", Ex.runtimeSolver (Ex.symDecl []) fun n => n == c!"ex", _,
    { Ex.e1 with matches_ := [⟨4, .optional [3]⟩, ⟨3, .lpm [0xab, 0] 8⟩, ⟨2, .ternary [16] [240]⟩] },
    constOracle_sound _, Ex.moved_ci, List.mem_singleton.2 rfl, Ex.moved_ti,
    .create (Ex.get_of_isOk (by decide +kernel)), Prod.ext (by decide +kernel) rfl, by decide +kernel, fun h => ?_⟩
  obtain ⟨m, hm, hid⟩ := h.exact ⟨1, c!"ex", 32, .matchType .exact⟩ (by decide +kernel) rfl
  revert m
  decide +kernel

theorem Ex.runtime6_ci : p4ToConstraintInfo Ex.sys (Ex.symInfo Ex.d6) = .ok (Ex.symCi Ex.d6) :=
  Ex.get_of_isOk (by decide +kernel)

/-- The full C100 fails for tables with a range key but no ternary and no optional key: entries of these must have a positive
priority. -/
theorem C100_fails_range : ∃ z sys p ci d ti skip s s' entry, z.Sound ∧ p4ToConstraintInfo sys p = .ok ci ∧ d ∈ p.tables ∧
    lookup d.preamble.id ci.tables = some ti ∧ SolverRun z sys ti skip s [] ∧ s.concretize z = (.ok entry, s') ∧
    (∀ f ∈ d.matchFields, f.kind = .matchType .exact → skip f.name = false) ∧ ¬ RuntimeEntry d entry := by
  refine ⟨constOracle Ex.m1, Ex.sys, Ex.symInfo Ex.d6, Ex.symCi Ex.d6, Ex.d6, Ex.symTi Ex.d6,
    fun n => n == c!"ran", Ex.runtimeSolver Ex.d6 fun n => n == c!"ran", _, Ex.e6,
    constOracle_sound _, Ex.runtime6_ci, List.mem_singleton.2 rfl, by decide +kernel,
    .create (Ex.get_of_isOk (by decide +kernel)), Prod.ext (by decide +kernel) rfl, by decide +kernel, fun h => ?_⟩
  rcases h.priority with ⟨_, h1, _⟩ | ⟨h1, _⟩
  · exact absurd h1 (by decide)
  · exact h1 ⟨⟨2, c!"ran", 8, .matchType .range⟩, by decide +kernel, .inr (.inl rfl)⟩

/-- In both cases the skipped key is indeed not matched. -/
example : ∀ m ∈ Ex.e6.matches_, m.fieldId ≠ 2 :=
  C100_skipped Ex.runtime6_ci (List.mem_singleton.2 rfl) (by decide +kernel) (constOracle_sound Ex.m1)
    (skip := fun n => n == c!"ran")
    (.create (s := Ex.runtimeSolver Ex.d6 fun n => n == c!"ran") (Ex.get_of_isOk (by decide +kernel)))
    (Prod.ext (by decide +kernel) rfl) (f := ⟨2, c!"ran", 8, .matchType .range⟩) (by decide +kernel) (by decide +kernel)

end P4C
