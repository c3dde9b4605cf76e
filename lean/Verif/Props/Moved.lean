import Verif.Proofs.Moved
import Verif.Props.Obtain

/-
C98: for a constraint solver it does not matter whether a constraint is attached to the table or added afterwards.
-/

namespace P4C

open Spec

section
variable {sys : Sys} {p p' : P4Info} {ci ci' : ConstraintInfo} (h : p4ToConstraintInfo sys p = .ok ci)
  (h' : p4ToConstraintInfo sys p' = .ok ci') {a d : TableDecl} (ha : a ∈ p.tables) (hd : d ∈ p'.tables) {ta td : TableInfo}
  (hta : lookup a.preamble.id ci.tables = some ta) (htd : lookup d.preamble.id ci'.tables = some td) {skip : Str → Bool}
  (hs : Solvable d skip) {z z' : Z3Oracle} (hz : z.Sound) (hdec : Z3Oracle.Decides z) (hz' : z'.Sound)
  (hdec' : Z3Oracle.Decides z') {text : Str} (hm : Moved text a d)

include h h' ha hd hta htd hs hz hdec hz' hdec' hm

/-- C98: a solver is created for the table with the constraint if and only if one is created for the table without it and the
constraint is accepted. -/
theorem C98_create :
    (∃ s, Solver.create z' td (fun n => .ok (skip n)) = .ok s) ↔
      ∃ s, Solver.create z ta (fun n => .ok (skip n)) = .ok s ∧ (s.addConstraintStr z sys text).1 = .ok true := by
  have hsa := solvable_congr hm.keys.symm hs
  rw [signed_create_solves h' hd htd hs hz' hdec']
  constructor
  · rintro ⟨h1, h2, e, he⟩
    have he' := (moved_solution hm (texts' := [text]) (by simp) e).1 he
    have hfree : ∀ se, ¬ TableSays sys.inetPton6 a se := by
      rintro se ⟨vs, src, ex, _, hr⟩
      cases hr with
      | some g1 => cases attached_unique hm.free g1
    obtain ⟨s, hc⟩ := (signed_create_solves h ha hta hsa hz hdec).2 ⟨allSupported_congr hm.keys.symm h1,
      fun se hse => (hfree se hse).elim, e, signedSolution_mono (fun t ht => by cases ht) he'⟩
    obtain ⟨se, g1, _⟩ := he'.texts text (by simp)
    exact ⟨s, hc, (signed_add_solves h ha hta hsa hz hdec (.create hc)).2.2 ⟨⟨se, g1, mentionable_congr hm.keys.symm
      (h2 se ((tableSays_text hm.attached).2 (textSays_congr hm.keys g1)))⟩, e, he'⟩⟩
  · rintro ⟨s, hc, hadd⟩
    obtain ⟨h1, _, _⟩ := (signed_create_solves h ha hta hsa hz hdec).1 ⟨s, hc⟩
    obtain ⟨⟨se, g1, g2⟩, e, he⟩ := (signed_add_solves h ha hta hsa hz hdec (.create hc)).2.1 hadd
    refine ⟨allSupported_congr hm.keys h1, fun se' hse' => ?_, e, (moved_solution hm (texts' := [text]) (by simp) e).2 he⟩
    cases textSays_unique h ha hta g1 (textSays_congr hm.keys.symm ((tableSays_text hm.attached).1 hse'))
    exact mentionable_congr hm.keys g2

/-- C98: the two give the same answers to further constraints, whatever was accepted in between. -/
theorem C98_answers {s s' : Solver} {texts texts' : List Str} (hr : SolverRun z sys ta skip s texts)
    (hr' : SolverRun z' sys td skip s' texts') (ht : ∀ t, t ∈ texts ↔ t = text ∨ t ∈ texts') (t : Str) (b : Bool) :
    (s.addConstraintStr z sys t).1 = .ok b ↔ (s'.addConstraintStr z' sys t).1 = .ok b := by
  have hsa := solvable_congr hm.keys.symm hs
  obtain ⟨a1, a2⟩ := signed_add_solves h ha hta hsa hz hdec hr (text := t)
  obtain ⟨b1, b2⟩ := signed_add_solves h' hd htd hs hz' hdec' hr' (text := t)
  have hsays : (∃ se, TextSays sys.inetPton6 a t se ∧ Mentionable a skip se) ↔
      ∃ se, TextSays sys.inetPton6 d t se ∧ Mentionable d skip se :=
    ⟨fun ⟨se, g1, g2⟩ => ⟨se, textSays_congr hm.keys g1, mentionable_congr hm.keys g2⟩,
      fun ⟨se, g1, g2⟩ => ⟨se, textSays_congr hm.keys.symm g1, mentionable_congr hm.keys.symm g2⟩⟩
  have hsol := fun e => moved_solution (pton := sys.inetPton6) (skip := skip) hm (texts := t :: texts') (texts' := t :: texts)
    (by simp only [List.mem_cons]; grind) e
  have htrue : (s.addConstraintStr z sys t).1 = .ok true ↔ (s'.addConstraintStr z' sys t).1 = .ok true := by
    rw [a2, b2, hsays]
    exact and_congr_right fun _ => ⟨fun ⟨e, he⟩ => ⟨e, (hsol e).2 he⟩, fun ⟨e, he⟩ => ⟨e, (hsol e).1 he⟩⟩
  have hany : (∃ b, (s.addConstraintStr z sys t).1 = .ok b) ↔ ∃ b, (s'.addConstraintStr z' sys t).1 = .ok b := by
    rw [a1, b1, hsays]
  cases b with
  | true => exact htrue
  | false =>
    constructor
    · intro hx
      obtain ⟨c, hc⟩ := hany.1 ⟨_, hx⟩
      cases c with
      | false => exact hc
      | true => rw [htrue.2 hc] at hx; cases hx
    · intro hx
      obtain ⟨c, hc⟩ := hany.2 ⟨_, hx⟩
      cases c with
      | false => exact hc
      | true => rw [htrue.1 hc] at hx; cases hx

/-- C98: and the same entries can be obtained from the two. -/
theorem C98_entries (hn : KeysNameable d skip) (hip : Z3Oracle.InterpretsPriority z) (hip' : Z3Oracle.InterpretsPriority z')
    {s s' : Solver} {texts texts' : List Str} (hr : SolverRun z sys ta skip s texts) (hr' : SolverRun z' sys td skip s' texts')
    (ht : ∀ t, t ∈ texts ↔ t = text ∨ t ∈ texts') (entry : RtEntry) :
    (∃ t, Obtains z sys s t entry) ↔ ∃ t, Obtains z' sys s' t entry := by
  rw [C95_exactly h ha hta (solvable_congr hm.keys.symm hs) hz hdec (keysNameable_congr hm.keys.symm hn) hip hr,
    C95_exactly h' hd htd hs hz' hdec' hn hip' hr']
  exact (moved_solution hm ht entry).symm

end

/-! ### Example: the constraint of `Ex.d1`, attached and added -/

theorem Ex.moved1 : Moved Ex.sc1 (Ex.symDecl []) Ex.d1 where
  id := rfl
  keys := rfl
  free := .absent fun _ h => by cases h
  attached := by
    have : Ex.d1 = tableWith (Ex.symDecl []) Ex.sc1 := by rfl
    rw [this]
    exact restricted_attached (fun _ h => by cases h) (by decide +kernel) (by decide +kernel)

theorem Ex.moved_ci : p4ToConstraintInfo Ex.sys (Ex.symInfo (Ex.symDecl [])) = .ok (Ex.symCi (Ex.symDecl [])) :=
  Ex.get_of_isOk (by decide +kernel)

theorem Ex.moved_ti : lookup (Ex.symDecl []).preamble.id (Ex.symCi (Ex.symDecl [])).tables = some (Ex.symTi (Ex.symDecl [])) := by
  decide +kernel

/-- A solver for the table without a constraint accepts the constraint of `Ex.d1`. It then accepts `Ex.solveText`, as the solver
for `Ex.d1` does, and can be made to return `Ex.e1`. -/
example : ∃ s s', Solver.create Ex.perfect (Ex.symTi (Ex.symDecl [])) (fun _ => .ok false) = .ok s ∧
    s.addConstraintStr Ex.perfect Ex.sys Ex.sc1 = (.ok true, s') ∧
    (s'.addConstraintStr Ex.perfect Ex.sys Ex.solveText).1 = .ok true ∧ ∃ t, Obtains Ex.perfect Ex.sys s' t Ex.e1 := by
  have ha : Ex.symDecl [] ∈ (Ex.symInfo (Ex.symDecl [])).tables := List.mem_singleton.2 rfl
  have hd : Ex.d1 ∈ (Ex.symInfo Ex.d1).tables := List.mem_singleton.2 rfl
  obtain ⟨u, hu, hu1⟩ := Ex.solve_accepted Ex.perfect_sound Ex.perfect_decides
  obtain ⟨s, hs, hadd⟩ := (C98_create (skip := fun _ => false) Ex.moved_ci Ex.solve_ci ha hd Ex.moved_ti Ex.solve_ti Ex.solvable1
    Ex.perfect_sound Ex.perfect_decides Ex.perfect_sound Ex.perfect_decides Ex.moved1).1 ⟨u, hu⟩
  generalize hx : s.addConstraintStr Ex.perfect Ex.sys Ex.sc1 = x at hadd
  obtain ⟨r, s'⟩ := x
  cases hadd
  have hr : SolverRun Ex.perfect Ex.sys (Ex.symTi (Ex.symDecl [])) (fun _ => false) s' [Ex.sc1] := .accepted (.create hs) hx
  have hru : SolverRun Ex.perfect Ex.sys (Ex.symTi Ex.d1) (fun _ => false) u [] := .create hu
  refine ⟨s, s', hs, hx, ?_, ?_⟩
  · exact (C98_answers Ex.moved_ci Ex.solve_ci ha hd Ex.moved_ti Ex.solve_ti Ex.solvable1 Ex.perfect_sound Ex.perfect_decides
      Ex.perfect_sound Ex.perfect_decides Ex.moved1 hr hru (by simp) _ _).2 hu1
  · exact (C98_entries Ex.moved_ci Ex.solve_ci ha hd Ex.moved_ti Ex.solve_ti Ex.solvable1 Ex.perfect_sound Ex.perfect_decides
      Ex.perfect_sound Ex.perfect_decides Ex.moved1 Ex.keysNameable1 Ex.perfect_priority Ex.perfect_priority hr hru (by simp)
      _).2 ((C95_exactly Ex.solve_ci hd Ex.solve_ti Ex.solvable1 Ex.perfect_sound Ex.perfect_decides Ex.keysNameable1
        Ex.perfect_priority hru).2 Ex.solutions1.1)

end P4C
