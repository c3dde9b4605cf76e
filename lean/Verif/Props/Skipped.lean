import Verif.Proofs.Skipped
import Verif.Props.Moved

/-
C99: for a constraint solver, a key that is skipped is like a key that is not declared.
-/

namespace P4C

open Spec

section
variable {sys : Sys} {p p' : P4Info} {ci ci' : ConstraintInfo} (h : p4ToConstraintInfo sys p = .ok ci)
  (h' : p4ToConstraintInfo sys p' = .ok ci') {d : TableDecl} (hd : d ∈ p.tables) {skip : Str → Bool}
  (hd' : unskipped skip d ∈ p'.tables) {td td' : TableInfo}
  (htd : lookup d.preamble.id ci.tables = some td) (htd' : lookup d.preamble.id ci'.tables = some td')
  (hs : Solvable d skip) {z z' : Z3Oracle} (hz : z.Sound) (hdec : Z3Oracle.Decides z) (hz' : z'.Sound)
  (hdec' : Z3Oracle.Decides z')

include h hd htd hs hz hdec in
/-- C99: if a solver can be created for the table, then the program is accepted without the skipped keys. -/
theorem C99_accepted {s : Solver} (hc : Solver.create z td (fun n => .ok (skip n)) = .ok s) :
    ∃ ci', p4ToConstraintInfo sys (withUnskipped skip d p) = .ok ci' := by
  obtain ⟨g1, g2, g3, g4⟩ := p4ToConstraintInfo_succeeds.1 ⟨ci, h⟩
  obtain ⟨_, hmen, e, he⟩ := (signed_create_solves h hd htd hs hz hdec).1 ⟨s, hc⟩
  refine p4ToConstraintInfo_succeeds.2 ⟨?_, g2, ?_, g4⟩
  · rw [show ((withUnskipped skip d p).tables.map fun t => t.preamble.id) = p.tables.map fun t => t.preamble.id from ?_]
    · exact g1
    · simp only [withUnskipped, List.map_map]
      refine List.map_congr_left fun t _ => ?_
      simp only [Function.comp]
      split <;> rfl
  · intro t ht
    obtain ⟨u, hu, rfl⟩ := List.mem_map.1 ht
    split
    · rename_i hid
      cases inj_of_nodup_map g1 hu hd hid
      have hg := g3 _ hd
      obtain ⟨vs, r, k1, k2, k3⟩ := hg
      refine (goodTable_unskipped k1 (g3 _ hd)).2 fun src ex se ty hr n hn => ?_
      rcases he.table with hn' | ⟨se', t1, _⟩
      · cases hr with
        | some a1 => cases attached_unique hn' a1
      · have t2 := t1
        obtain ⟨vs', src', e', t3, t4⟩ := t2
        cases each_unique (R := KeyDecl) (fun _ _ _ => keyDecl_unique) t3 k1
        cases readConstraint_unique hr t4
        exact mentionable_about (hmen _ t1) hn
    · exact g3 _ hu

include h h' hd hd' htd htd' hs hz hdec hz' hdec' in
/-- C99: a solver that skips keys is created if and only if one is created for the table without these keys. -/
theorem C99_create (hp : KeepsPriority skip d) :
    (∃ s, Solver.create z td (fun n => .ok (skip n)) = .ok s) ↔ ∃ s, Solver.create z' td' (fun _ => .ok false) = .ok s := by
  obtain ⟨vs, r, k1, k2, k3⟩ := (p4ToConstraintInfo_succeeds.1 ⟨ci, h⟩).2.2.1 d hd
  obtain ⟨vs', r', k4, k5, k6⟩ := (p4ToConstraintInfo_succeeds.1 ⟨ci', h'⟩).2.2.1 _ hd'
  cases each_unique (R := KeyDecl) (fun _ _ _ => keyDecl_unique) k4 (unskipped_keys k1)
  have hs' := solvable_unskipped hs
  have ha := signed_create_solves h hd htd hs hz hdec
  have hb := signed_create_solves h' hd' htd' hs' hz' hdec'
  refine ha.trans (Iff.trans ?_ hb.symm)
  constructor
  · rintro ⟨h1, h2, e, he⟩
    refine ⟨(allSupported_unskipped k1).1 h1, fun se hse => ?_, e, (solution_unskipped k1 k2 hs h1 hp h2 (fun _ ht => by cases ht) e).1 he⟩
    exact (mentionable_unskipped k1 hp se).1 (h2 se ((tableSays_unskipped k1).1 hse))
  · rintro ⟨h1, h2, e, he⟩
    have h1 := (allSupported_unskipped k1).2 h1
    have h3 : ∀ se, TableSays sys.inetPton6 d se → Mentionable d skip se := by
      intro se hse
      refine (mentionable_unskipped k1 hp se).2 (h2 se ?_)
      refine (tableSays_unskipped k1).2 ?_ hse
      obtain ⟨vs', src', e', t3, t4⟩ := hse
      cases each_unique (R := KeyDecl) (fun _ _ _ => keyDecl_unique) t3 k1
      exact (goodTable_unskipped k1 ((p4ToConstraintInfo_succeeds.1 ⟨ci, h⟩).2.2.1 d hd)).1 ⟨_, _, k4, k5, k6⟩ _ _ _ _ t4
    exact ⟨h1, h3, e, (solution_unskipped k1 k2 hs h1 hp h3 (fun _ ht => by cases ht) e).2 he⟩

include h hd htd hs hz hdec in
theorem run_mentionable {s : Solver} {texts : List Str} (hr : SolverRun z sys td skip s texts) :
    AllSupported d skip ∧ (∀ se, TableSays sys.inetPton6 d se → Mentionable d skip se) ∧
    ∀ t ∈ texts, ∀ se, TextSays sys.inetPton6 d t se → Mentionable d skip se := by
  induction hr with
  | create hc =>
    obtain ⟨h1, h2, _⟩ := (signed_create_solves h hd htd hs hz hdec).1 ⟨_, hc⟩
    exact ⟨h1, h2, nofun⟩
  | accepted hr ha ih =>
    obtain ⟨h1, h2, h3⟩ := ih
    refine ⟨h1, h2, fun t ht se hse => ?_⟩
    rcases List.mem_cons.1 ht with rfl | ht
    · obtain ⟨⟨se', g1, g2⟩, _⟩ := (signed_add_solves h hd htd hs hz hdec hr).2.1 (by rw [ha])
      cases textSays_unique h hd htd g1 hse
      exact g2
    · exact h3 t ht se hse
  | rejected _ _ _ ih => exact ih
  | concretize _ _ ih => exact ih

include h h' hd hd' htd htd' hs hz hdec hz' hdec' in
/-- C99: the two give the same answers, whatever was accepted before. -/
theorem C99_answers (hp : KeepsPriority skip d) {s s' : Solver} {texts texts' : List Str} (hr : SolverRun z sys td skip s texts)
    (hr' : SolverRun z' sys td' (fun _ => false) s' texts') (ht : ∀ t, t ∈ texts ↔ t ∈ texts') (t : Str) (b : Bool) :
    (s.addConstraintStr z sys t).1 = .ok b ↔ (s'.addConstraintStr z' sys t).1 = .ok b := by
  obtain ⟨vs, r, k1, k2, k3⟩ := (p4ToConstraintInfo_succeeds.1 ⟨ci, h⟩).2.2.1 d hd
  obtain ⟨m1, m2, m3⟩ := run_mentionable h hd htd hs hz hdec hr
  have hs' := solvable_unskipped hs
  obtain ⟨a1, a2⟩ := signed_add_solves h hd htd hs hz hdec hr (text := t)
  obtain ⟨b1, b2⟩ := signed_add_solves h' hd' htd' hs' hz' hdec' hr' (text := t)
  have hsays : (∃ se, TextSays sys.inetPton6 d t se ∧ Mentionable d skip se) ↔
      ∃ se, TextSays sys.inetPton6 (unskipped skip d) t se ∧ Mentionable (unskipped skip d) (fun _ => false) se :=
    ⟨fun ⟨se, g1, g2⟩ => ⟨se, (textSays_unskipped k1).2 (fun _ => mentionable_about g2) g1, (mentionable_unskipped k1 hp se).1 g2⟩,
      fun ⟨se, g1, g2⟩ => ⟨se, (textSays_unskipped k1).1 g1, (mentionable_unskipped k1 hp se).2 g2⟩⟩
  have htrue : (s.addConstraintStr z sys t).1 = .ok true ↔ (s'.addConstraintStr z' sys t).1 = .ok true := by
    rw [a2, b2, ← hsays]
    refine and_congr_right fun ⟨se, g1, g2⟩ => exists_congr fun e => ?_
    rw [solution_unskipped k1 k2 hs m1 hp m2 (texts := t :: texts) ?_ e]
    · constructor
      · exact fun hx => ⟨hx.canonical, hx.table, fun u hu => hx.texts u (by simp only [List.mem_cons, ht] at hu ⊢; exact hu)⟩
      · exact fun hx => ⟨hx.canonical, hx.table, fun u hu => hx.texts u (by simp only [List.mem_cons, ht] at hu ⊢; exact hu)⟩
    · intro u hu se' hse'
      rcases List.mem_cons.1 hu with rfl | hu
      · cases textSays_unique h hd htd g1 hse'
        exact g2
      · exact m3 u hu se' hse'
  have hany : (∃ b, (s.addConstraintStr z sys t).1 = .ok b) ↔ ∃ b, (s'.addConstraintStr z' sys t).1 = .ok b := by
    rw [a1, b1, hsays]
  cases b with
  | true => exact htrue
  | false =>
    constructor
    · intro hx
      obtain ⟨c, hc⟩ := hany.1 ⟨_, hx⟩
      cases c with
      | false => exact hc
      | true => rw [htrue.2 hc] at hx; cases hx
    · intro hx
      obtain ⟨c, hc⟩ := hany.2 ⟨_, hx⟩
      cases c with
      | false => exact hc
      | true => rw [htrue.1 hc] at hx; cases hx

include h h' hd hd' htd htd' hs hz hdec hz' hdec' in
/-- C99: and the same entries can be obtained from the two. -/
theorem C99_entries (hp : KeepsPriority skip d) (hn : KeysNameable d skip) (hip : Z3Oracle.InterpretsPriority z)
    (hip' : Z3Oracle.InterpretsPriority z') {s s' : Solver} {texts texts' : List Str} (hr : SolverRun z sys td skip s texts)
    (hr' : SolverRun z' sys td' (fun _ => false) s' texts') (ht : ∀ t, t ∈ texts ↔ t ∈ texts') (entry : RtEntry) :
    (∃ t, Obtains z sys s t entry) ↔ ∃ t, Obtains z' sys s' t entry := by
  obtain ⟨vs, r, k1, k2, k3⟩ := (p4ToConstraintInfo_succeeds.1 ⟨ci, h⟩).2.2.1 d hd
  obtain ⟨m1, m2, m3⟩ := run_mentionable h hd htd hs hz hdec hr
  rw [C95_exactly h hd htd hs hz hdec hn hip hr,
    C95_exactly h' hd' htd' (solvable_unskipped hs) hz' hdec' (keysNameable_unskipped hn) hip' hr',
    solution_unskipped k1 k2 hs m1 hp m2 m3 entry]
  constructor
  · exact fun hx => ⟨hx.canonical, hx.table, fun u hu => hx.texts u ((ht u).2 hu)⟩
  · exact fun hx => ⟨hx.canonical, hx.table, fun u hu => hx.texts u ((ht u).1 hu)⟩

include h h' hd hd' htd htd' hs hz hz' in
/-- C99: if all ternary and optional keys are skipped, and there are some, then entries have a priority if the keys are skipped
and none if they are not declared. -/
theorem C99_priority (hp : ¬ KeepsPriority skip d) {s s' u u' : Solver} {texts texts' : List Str} {e e' : RtEntry}
    (hr : SolverRun z sys td skip s texts) (hr' : SolverRun z' sys td' (fun _ => false) s' texts')
    (he : s.concretize z = (.ok e, u)) (he' : s'.concretize z' = (.ok e', u')) : 0 < e.priority ∧ e'.priority = 0 := by
  obtain ⟨⟨⟨_, vs, v1, v2⟩, _, _⟩, _⟩ := signed_concretize_solves h hd htd hs hz hr he
  obtain ⟨⟨⟨_, vs', v3, v4⟩, _, _⟩, _⟩ := signed_concretize_solves h' hd' htd' (solvable_unskipped hs) hz' hr' he'
  cases each_unique (R := KeyDecl) (fun _ _ _ => keyDecl_unique) v3 (unskipped_keys v1)
  obtain ⟨hw, hw'⟩ := not_keepsPriority v1 hp
  exact ⟨(v2.priority.resolve_right fun x => x.1 hw).2.1, (v4.priority.resolve_left fun x => hw' x.1).2⟩

end

/-! ### Example: the table with a key of every kind, without `opt` -/

def Ex.without : Str → Bool := fun n => n == c!"opt"

theorem Ex.without_solvable : Solvable (Ex.symDecl []) Ex.without := by
  refine ⟨fun vs hv ki hki hsk => ?_, ?_, ?_, ?_⟩
  · cases keys_same hv (show Each KeyDecl (Ex.symDecl []).matchFields Ex.solveKeys from Ex.solve_keys)
    simp only [Ex.solveKeys, List.mem_cons, List.not_mem_nil, or_false] at hki
    rcases hki with rfl | rfl | rfl | rfl
    · exact absurd hsk (by decide)
    · exact absurd hsk (by decide)
    · exact absurd hsk (by decide)
    · exact ⟨_, .optional _⟩
  all_goals decide +kernel

theorem Ex.without_keeps : KeepsPriority Ex.without (Ex.symDecl []) := fun _ => by decide +kernel

theorem Ex.without_nameable : KeysNameable (Ex.symDecl []) Ex.without :=
  fun f hf _ => keysNameable_congr (a := Ex.d1) (d := Ex.symDecl []) rfl Ex.keysNameable1 f hf rfl

def Ex.withoutInfo : P4Info := Ex.symInfo (unskipped Ex.without (Ex.symDecl []))

theorem Ex.without_ci : p4ToConstraintInfo Ex.sys Ex.withoutInfo = .ok (Ex.symCi (unskipped Ex.without (Ex.symDecl []))) :=
  Ex.get_of_isOk (by decide +kernel)

theorem Ex.without_ti : lookup (Ex.symDecl []).preamble.id (Ex.symCi (unskipped Ex.without (Ex.symDecl []))).tables =
    some (Ex.symTi (unskipped Ex.without (Ex.symDecl []))) := by decide +kernel

def Ex.eWithout : RtEntry := { Ex.e1 with matches_ := [⟨1, .exact [5]⟩, ⟨3, .lpm [0xab, 0] 8⟩, ⟨2, .ternary [16] [240]⟩] }

theorem Ex.without_solution : SignedSolution Ex.sys.inetPton6 (Ex.symDecl []) Ex.without [] Ex.eWithout :=
  (C72_entry_exact Ex.moved_ci (List.mem_singleton.2 rfl) Ex.moved_ti Ex.without_solvable (constOracle_sound _)
    (.create (Ex.get_of_isOk (d := ⟨0, [], Ex.symTi Ex.d1, ⟨[], []⟩, fun _ => .ok false⟩)
      (r := Solver.create (constOracle Ex.m1) (Ex.symTi (Ex.symDecl [])) fun n => .ok (Ex.without n)) (by decide +kernel)))
    (Prod.ext (show _ = Res.ok Ex.eWithout by decide +kernel) rfl)).1

/-- A solver that skips `opt` can be created, and one for the table without `opt`. The second can be made to return the same
entry as the first, and both reject `opt == 3`, although for different reasons. -/
example : ∃ s s', Solver.create Ex.perfect (Ex.symTi (Ex.symDecl [])) (fun n => .ok (Ex.without n)) = .ok s ∧
    Solver.create Ex.perfect (Ex.symTi (unskipped Ex.without (Ex.symDecl []))) (fun _ => .ok false) = .ok s' ∧
    (∃ t, Obtains Ex.perfect Ex.sys s t Ex.eWithout) ∧ (∃ t, Obtains Ex.perfect Ex.sys s' t Ex.eWithout) ∧
    (∀ t b, (s.addConstraintStr Ex.perfect Ex.sys t).1 = .ok b ↔ (s'.addConstraintStr Ex.perfect Ex.sys t).1 = .ok b) := by
  have hd : Ex.symDecl [] ∈ (Ex.symInfo (Ex.symDecl [])).tables := List.mem_singleton.2 rfl
  have hd' : unskipped Ex.without (Ex.symDecl []) ∈ Ex.withoutInfo.tables := List.mem_singleton.2 rfl
  have hsup : AllSupported (Ex.symDecl []) Ex.without := fun vs hv ki hki => by
    cases keys_same hv (show Each KeyDecl (Ex.symDecl []).matchFields Ex.solveKeys from Ex.solve_keys)
    simp only [Ex.solveKeys, List.mem_cons, List.not_mem_nil, or_false] at hki
    right
    rcases hki with rfl | rfl | rfl | rfl
    · exact .exact (by decide)
    · exact .ternary (by decide)
    · exact .lpm (by decide)
    · exact .optional (by decide)
  have hfree : ∀ se, TableSays Ex.sys.inetPton6 (Ex.symDecl []) se → Mentionable (Ex.symDecl []) Ex.without se := by
    rintro se ⟨vs, src, ex, _, hr⟩
    cases hr with
    | some g1 => cases attached_unique Ex.moved1.free g1
  obtain ⟨s, hs⟩ := (signed_create_solves Ex.moved_ci hd Ex.moved_ti Ex.without_solvable Ex.perfect_sound Ex.perfect_decides).2
    ⟨hsup, hfree, _, Ex.without_solution⟩
  obtain ⟨s', hs'⟩ := (C99_create Ex.moved_ci Ex.without_ci hd hd' Ex.moved_ti Ex.without_ti Ex.without_solvable Ex.perfect_sound
    Ex.perfect_decides Ex.perfect_sound Ex.perfect_decides Ex.without_keeps).1 ⟨s, hs⟩
  have hr : SolverRun Ex.perfect Ex.sys (Ex.symTi (Ex.symDecl [])) Ex.without s [] := .create hs
  have hr' : SolverRun Ex.perfect Ex.sys (Ex.symTi (unskipped Ex.without (Ex.symDecl []))) (fun _ => false) s' [] := .create hs'
  have ho := (C95_exactly Ex.moved_ci hd Ex.moved_ti Ex.without_solvable Ex.perfect_sound Ex.perfect_decides Ex.without_nameable
    Ex.perfect_priority hr).2 Ex.without_solution
  exact ⟨s, s', hs, hs', ho, (C99_entries Ex.moved_ci Ex.without_ci hd hd' Ex.moved_ti Ex.without_ti Ex.without_solvable
    Ex.perfect_sound Ex.perfect_decides Ex.perfect_sound Ex.perfect_decides Ex.without_keeps Ex.without_nameable
    Ex.perfect_priority Ex.perfect_priority hr hr' (fun _ => Iff.rfl) _).1 ho,
    C99_answers Ex.moved_ci Ex.without_ci hd hd' Ex.moved_ti Ex.without_ti Ex.without_solvable
      Ex.perfect_sound Ex.perfect_decides Ex.perfect_sound Ex.perfect_decides Ex.without_keeps hr hr' fun _ => Iff.rfl⟩

/-- If `tern` is skipped as well, no ternary or optional key remains, and entries have a priority nevertheless. -/
def Ex.withoutBoth : Str → Bool := fun n => n == c!"opt" || n == c!"tern"

example : ¬ KeepsPriority Ex.withoutBoth (Ex.symDecl []) := fun h => absurd (h (by decide +kernel)) (by decide +kernel)

/-- The entry without the skipped keys that is obtained, and the one obtained if they are not declared. -/
example : ∃ s s', Solver.create (constOracle Ex.m1) (Ex.symTi (Ex.symDecl [])) (fun n => .ok (Ex.withoutBoth n)) = .ok s ∧
    Solver.create (constOracle Ex.m1) (Ex.symTi (unskipped Ex.withoutBoth (Ex.symDecl []))) (fun _ => .ok false) = .ok s' ∧
    (s.concretize (constOracle Ex.m1)).1 = .ok { Ex.e1 with matches_ := [⟨1, .exact [5]⟩, ⟨3, .lpm [0xab, 0] 8⟩] } ∧
    (s'.concretize (constOracle Ex.m1)).1 = .ok { Ex.e1 with matches_ := [⟨1, .exact [5]⟩, ⟨3, .lpm [0xab, 0] 8⟩], priority := 0 } :=
  ⟨_, _, Ex.get_of_isOk (d := ⟨0, [], Ex.symTi Ex.d1, ⟨[], []⟩, Ex.noSkip⟩) (by decide +kernel),
    Ex.get_of_isOk (d := ⟨0, [], Ex.symTi Ex.d1, ⟨[], []⟩, Ex.noSkip⟩) (by decide +kernel), by decide +kernel, by decide +kernel⟩

end P4C
