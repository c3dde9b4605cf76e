import Verif.Proofs.Obtain
import Verif.Props.SolveLaws
import Verif.Props.CrashSolver

/-
C95: a constraint solver can be made to return every entry, and to return no entry twice.
-/

namespace P4C

open Spec

section
variable {sys : Sys} {p : P4Info} {ci : ConstraintInfo} (h : p4ToConstraintInfo sys p = .ok ci) {d : TableDecl}
  (hd : d ∈ p.tables) {ti : TableInfo} (hti : lookup d.preamble.id ci.tables = some ti) {skip : Str → Bool}
  (hs : Solvable d skip) {z : Z3Oracle} (hz : z.Sound) (hdec : Z3Oracle.Decides z) (hn : KeysNameable d skip)

include h hd hti hs hz hdec hn

/-- C95: for every entry in canonical form there is a text that picks it. Every solver for the table, whatever its history,
accepts the text if the entry satisfies what the solver has accepted so far, and then returns this entry; otherwise it answers
`false`. -/
theorem C95_pick (hip : Z3Oracle.InterpretsPriority z) {entry : RtEntry} (hc : CanonicalFor d skip entry) :
    ∃ text, ∀ s texts, SolverRun z sys ti skip s texts →
      (SignedSolution sys.inetPton6 d skip texts entry → Obtains z sys s text entry) ∧
      (¬ SignedSolution sys.inetPton6 d skip texts entry → (s.addConstraintStr z sys text).1 = .ok false) := by
  obtain ⟨text, _, ht⟩ := entry_texts (z := z) h hd hti hs hn hc
  refine ⟨text, fun s texts hr => ?_⟩
  obtain ⟨⟨se, h1, h2, _⟩, _, h3, _⟩ := ht s texts hr
  obtain ⟨a1, a2⟩ := signed_add_solves h hd hti hs hz hdec hr (text := text)
  constructor
  · intro hsol
    have hacc := a2.2 ⟨⟨se, h1, h2⟩, entry, (h3 entry).2 ⟨hsol, rfl, .refl _, rfl⟩⟩
    generalize hx : s.addConstraintStr z sys text = x at hacc
    obtain ⟨r, s'⟩ := x
    cases hacc
    have hr' : SolverRun z sys ti skip s' (text :: texts) := .accepted hr hx
    obtain ⟨out, s'', hout⟩ := concretize_always h hd hti hs hz hdec hr' hip
    exact ⟨s', out, s'', hx, hout, ((h3 out).1 (signed_concretize_solves h hd hti hs hz hr' hout).1).2⟩
  · intro hsol
    obtain ⟨b, hb⟩ := a1.2 ⟨se, h1, h2⟩
    cases b with
    | false => exact hb
    | true =>
      obtain ⟨_, out, ho⟩ := a2.1 hb
      obtain ⟨g1, g2⟩ := (h3 out).1 ho
      exact (hsol (sameUpToOrder_solution g2 g1)).elim

/-- C95: hence the entries that a solver can be made to return by one more constraint are those that satisfy the constraint of
the table and what was accepted so far, and no others. -/
theorem C95_exactly (hip : Z3Oracle.InterpretsPriority z) {s : Solver} {texts : List Str} (hr : SolverRun z sys ti skip s texts)
    {entry : RtEntry} :
    (∃ text, Obtains z sys s text entry) ↔ SignedSolution sys.inetPton6 d skip texts entry := by
  constructor
  · rintro ⟨text, s', out, s'', h1, h2, h3⟩
    have := (signed_concretize_solves h hd hti hs hz (.accepted hr h1) h2).1
    exact sameUpToOrder_solution h3 (signedSolution_mono (fun t ht => List.mem_cons_of_mem _ ht) this)
  · intro hsol
    obtain ⟨text, ht⟩ := C95_pick h hd hti hs hz hdec hn hip hsol.canonical
    exact ⟨text, (ht s texts hr).1 hsol⟩

/-- C95: in terms of the checker. If ordered comparisons are only made between integers, every entry without action that the
checker accepts and that satisfies what the solver has accepted so far can be obtained. -/
theorem C95_checked (hip : Z3Oracle.InterpretsPriority z) (hw : NonNegProgram p) {s : Solver} {texts : List Str}
    (hr : SolverRun z sys ti skip s texts) (hp : ∀ se, TableSays sys.inetPton6 d se → PlainOrder d se)
    (hpt : ∀ t ∈ texts, ∀ se, TextSays sys.inetPton6 d t se → PlainOrder d se) {entry : RtEntry}
    (hc : CanonicalFor d skip entry) (ha : reasonEntryViolatesConstraint entry ci = .ok [])
    (ht : ∀ t ∈ texts, TextHolds sys.inetPton6 d t entry) : ∃ text, Obtains z sys s text entry := by
  obtain ⟨text, _, htext⟩ := entry_texts (z := z) h hd hti hs hn hc
  obtain ⟨⟨se, h1, h2, h3, h4⟩, _, h5, _⟩ := htext s texts hr
  have hacc : (s.addConstraintStr z sys text).1 = .ok true := by
    refine (add_solves h hd hti hs hz hdec hr hp ?_).2.2 ⟨⟨se, h1, h2⟩, entry, hc, (C65_accepted h hw entry).1 ha, ?_⟩
    · intro t hm se' hse'
      rcases List.mem_cons.1 hm with rfl | hm
      · cases textSays_unique h hd hti h1 hse'
        exact h3
      · exact hpt t hm se' hse'
    · intro t hm
      rcases List.mem_cons.1 hm with rfl | hm
      · exact ⟨se, h1, h4⟩
      · exact ht t hm
  generalize hx : s.addConstraintStr z sys text = x at hacc
  obtain ⟨r, s'⟩ := x
  cases hacc
  have hr' : SolverRun z sys ti skip s' (text :: texts) := .accepted hr hx
  obtain ⟨out, s'', hout⟩ := concretize_always h hd hti hs hz hdec hr' hip
  exact ⟨text, s', out, s'', hx, hout, ((h5 out).1 (signed_concretize_solves h hd hti hs hz hr' hout).1).2⟩

/-- C95: for every entry in canonical form there is a text that excludes it. It is accepted if and only if there is another entry
that satisfies what was accepted so far, and it excludes only this one: afterwards, precisely the others can be returned. -/
theorem C95_exclude {entry : RtEntry} (hc : CanonicalFor d skip entry) :
    ∃ text, ∀ s texts, SolverRun z sys ti skip s texts →
      ((s.addConstraintStr z sys text).1 = .ok true ↔
        ∃ other, SignedSolution sys.inetPton6 d skip texts other ∧ ¬ SameUpToOrder other entry) ∧
      ((s.addConstraintStr z sys text).1 = .ok false ↔
        ∀ other, SignedSolution sys.inetPton6 d skip texts other → SameUpToOrder other entry) ∧
      ∀ other, SignedSolution sys.inetPton6 d skip (text :: texts) other ↔
        SignedSolution sys.inetPton6 d skip texts other ∧ ¬ SameUpToOrder other entry := by
  obtain ⟨_, text, ht⟩ := entry_texts (z := z) h hd hti hs hn hc
  refine ⟨text, fun s texts hr => ?_⟩
  obtain ⟨_, ⟨se, h1, h2, _⟩, _, h3⟩ := ht s texts hr
  obtain ⟨a1, a2⟩ := signed_add_solves h hd hti hs hz hdec hr (text := text)
  have a3 : (s.addConstraintStr z sys text).1 = .ok true ↔
      ∃ other, SignedSolution sys.inetPton6 d skip texts other ∧ ¬ SameUpToOrder other entry := by
    rw [a2]
    constructor
    · exact fun ⟨_, o, ho⟩ => ⟨o, (h3 o).1 ho⟩
    · exact fun ⟨o, ho⟩ => ⟨⟨se, h1, h2⟩, o, (h3 o).2 ho⟩
  refine ⟨a3, ?_, h3⟩
  obtain ⟨b, hb⟩ := a1.2 ⟨se, h1, h2⟩
  rw [hb] at a3 ⊢
  cases b with
  | false =>
    have : ¬ ∃ other, SignedSolution sys.inetPton6 d skip texts other ∧ ¬ SameUpToOrder other entry := fun hx => by
      cases a3.2 hx
    simpa using this
  | true =>
    obtain ⟨o, h4, h5⟩ := a3.1 rfl
    simp only [Res.ok.injEq, Bool.true_eq_false, false_iff]
    exact fun hx => h5 (hx o h4)

end

/-! ### Example: a table with a key of every supported kind -/

theorem Ex.keysNameable1 : KeysNameable Ex.d1 fun _ => false := by
  have hi : ∀ s ∈ [c!"ex", c!"tern", c!"pre", c!"opt"], Ident s := by
    intro s hs
    simp only [List.mem_cons, List.not_mem_nil, or_false] at hs
    rcases hs with rfl | rfl | rfl | rfl <;>
    exact ⟨⟨_, _, rfl, by simp [Letter], by simp [Letter, Digit]⟩, by decide, by decide⟩
  have hx : ∀ f ∈ Ex.d1.matchFields, ∀ p ∈ splitDots f.name, p ∈ [c!"ex", c!"tern", c!"pre", c!"opt"] := by decide +kernel
  exact fun f hf _ p hp => hi p (hx f hf p hp)

/-- A solver for the table that has accepted a further constraint can be made to return `Ex.e1`. -/
example : ∃ s text, SolverRun Ex.perfect Ex.sys (Ex.symTi Ex.d1) (fun _ => false) s [Ex.solveText] ∧
    Obtains Ex.perfect Ex.sys s text Ex.e1 := by
  obtain ⟨s, hr⟩ := Ex.solve_run Ex.perfect_sound Ex.perfect_decides
  have hsol := Ex.solution1
  obtain ⟨text, ht⟩ := C95_checked Ex.solve_ci (List.mem_singleton.2 rfl) Ex.solve_ti Ex.solvable1 Ex.perfect_sound
    Ex.perfect_decides Ex.keysNameable1 Ex.perfect_priority Ex.solve_nonNeg hr Ex.solve_plain Ex.solve_text hsol.canonical
    ((C65_accepted Ex.solve_ci Ex.solve_nonNeg _).2 hsol.accepted) hsol.texts
  exact ⟨s, text, hr, ht⟩


/-- Another entry that satisfies the constraint of the table. -/
def Ex.e1other : RtEntry := { Ex.e1 with priority := 8 }

theorem Ex.solutions1 : SignedSolution Ex.sys.inetPton6 Ex.d1 (fun _ => false) [] Ex.e1 ∧
    SignedSolution Ex.sys.inetPton6 Ex.d1 (fun _ => false) [] Ex.e1other := by
  let m : Interp := Ex.model [(c!"ex", 5), (c!"tern", 16), (c!"tern_mask", 240), (c!"pre", 0xab00), (c!"pre_prefix_length", 8),
    (c!"opt", 3), (c!"opt_mask", 15), (c!"priority", 8)]
  have run : ∀ m e, Ex.isOk (Solver.create (constOracle m) (Ex.symTi Ex.d1) (fun _ => .ok false)) = true →
      ((Ex.get ⟨0, [], Ex.symTi Ex.d1, ⟨[], []⟩, fun _ => .ok false⟩ (Solver.create (constOracle m) (Ex.symTi Ex.d1)
        (fun _ => .ok false))).concretize (constOracle m)).1 = .ok e →
      SignedSolution Ex.sys.inetPton6 Ex.d1 (fun _ => false) [] e := fun m e hc ho =>
    (C72_entry_exact Ex.solve_ci (List.mem_singleton.2 rfl) Ex.solve_ti Ex.solvable1 (constOracle_sound _)
      (.create (Ex.get_of_isOk (d := ⟨0, [], Ex.symTi Ex.d1, ⟨[], []⟩, fun _ => .ok false⟩) hc)) (Prod.ext ho rfl)).1
  exact ⟨run Ex.m1 _ (by decide +kernel) (by decide +kernel), run m _ (by decide +kernel) (by decide +kernel)⟩

/-- A solver for the table can be made to return either of the two, and after the first is excluded it still returns the
second. -/
example : ∃ s, SolverRun Ex.perfect Ex.sys (Ex.symTi Ex.d1) (fun _ => false) s [] ∧
    (∃ text, Obtains Ex.perfect Ex.sys s text Ex.e1) ∧ (∃ text, Obtains Ex.perfect Ex.sys s text Ex.e1other) ∧
    ∃ text s', s.addConstraintStr Ex.perfect Ex.sys text = (.ok true, s') ∧
      (∃ text', Obtains Ex.perfect Ex.sys s' text' Ex.e1other) ∧ ¬ ∃ text', Obtains Ex.perfect Ex.sys s' text' Ex.e1 := by
  have hd : Ex.d1 ∈ (Ex.symInfo Ex.d1).tables := List.mem_singleton.2 rfl
  obtain ⟨s, hs, _⟩ := Ex.solve_accepted Ex.perfect_sound Ex.perfect_decides
  have hr : SolverRun Ex.perfect Ex.sys (Ex.symTi Ex.d1) (fun _ => false) s [] := .create hs
  have ex := fun {s texts} (hr : SolverRun Ex.perfect Ex.sys (Ex.symTi Ex.d1) (fun _ => false) s texts) {e : RtEntry} =>
    C95_exactly (entry := e) Ex.solve_ci hd Ex.solve_ti Ex.solvable1 Ex.perfect_sound Ex.perfect_decides Ex.keysNameable1
      Ex.perfect_priority hr
  obtain ⟨h1, h2⟩ := Ex.solutions1
  have hne : ¬ SameUpToOrder Ex.e1other Ex.e1 := fun hx => absurd hx.priority (by decide)
  obtain ⟨text, ht⟩ := C95_exclude (z := Ex.perfect) Ex.solve_ci hd Ex.solve_ti Ex.solvable1 Ex.perfect_sound
    Ex.perfect_decides Ex.keysNameable1 h1.canonical
  obtain ⟨h3, _, h4⟩ := ht s [] hr
  have h5 := h3.2 ⟨_, h2, hne⟩
  generalize hx : s.addConstraintStr Ex.perfect Ex.sys text = x at h5
  obtain ⟨r, s'⟩ := x
  cases h5
  have hr' : SolverRun Ex.perfect Ex.sys (Ex.symTi Ex.d1) (fun _ => false) s' [text] := .accepted hr hx
  exact ⟨s, hr, (ex hr).2 h1, (ex hr).2 h2, text, s', hx, (ex hr').2 ((h4 _).2 ⟨h2, hne⟩),
    fun hx => ((h4 _).1 ((ex hr').1 hx)).2 ⟨rfl, .refl _, rfl⟩⟩

end P4C
