import Verif.Proofs.Guard
import Verif.Props.Small
import Verif.Props.Fix

/-
C111: constraint solvers compare bit strings as signed numbers, but they can be told that fields are not negative. Then their
answers can be relied on.
-/

namespace P4C

open Spec

section
variable {sys : Sys} {p : P4Info} {ci : ConstraintInfo} (h : p4ToConstraintInfo sys p = .ok ci) {d : TableDecl}
  (hd : d ∈ p.tables) {ti : TableInfo} (hti : lookup d.preamble.id ci.tables = some ti) {skip : Str → Bool}
  (hs : Solvable d skip) {z : Z3Oracle} (hz : z.Sound)

include h hd hti hs hz in
/-- C111, the entry: if fields are ordered only if the solver has accepted `k::g >= 0` for them, and numbers only if they are small,
then the entry that the solver returns is accepted by the checker and satisfies the texts, and these fields do not have their most
significant bit set. -/
theorem C111_entry {s s' : Solver} {texts : List Str} {entry : RtEntry} (hr : SolverRun z sys ti skip s texts)
    (hl : LowFor sys.inetPton6 d (NotNegative sys.inetPton6 d texts) texts) (hc : s.concretize z = (.ok entry, s')) :
    Solution sys.inetPton6 p d skip texts entry ∧ entry.action = none ∧ LowEntry d (NotNegative sys.inetPton6 d texts) entry := by
  obtain ⟨h1, h2⟩ := signed_concretize_solves h hd hti hs hz hr hc
  have h3 := signed_low (guard_distinct h hd hti) h1 (fun t a b => textSays_unique h hd hti)
  exact ⟨solution_small hd (lowFor_small h3 (guard_distinct h hd hti) hl) h2 h1, h2, h3⟩

include h hd hti hs hz in
/-- C111, the answer: a text is accepted if and only if it is understood and there is an entry that the checker accepts, that
satisfies this text and all those accepted before, and in which these fields do not have their most significant bit set. -/
theorem C111_answer (hdec : Z3Oracle.Decides z) {s : Solver} {texts : List Str} {text : Str} (hr : SolverRun z sys ti skip s texts)
    (hl : LowFor sys.inetPton6 d (NotNegative sys.inetPton6 d (text :: texts)) (text :: texts)) :
    (s.addConstraintStr z sys text).1 = .ok true ↔ (∃ se, TextSays sys.inetPton6 d text se ∧ Mentionable d skip se) ∧
      ∃ entry, Solution sys.inetPton6 p d skip (text :: texts) entry ∧
        LowEntry d (NotNegative sys.inetPton6 d (text :: texts)) entry := by
  have hdist := guard_distinct h hd hti
  rw [(signed_add_solves h hd hti hs hz hdec hr (text := text)).2]
  refine and_congr_right fun _ => ⟨?_, ?_⟩
  · rintro ⟨entry, h1⟩
    have h2 := signed_stripped h1
    have h3 := signed_low hdist h2 (fun t a b => textSays_unique h hd hti)
    exact ⟨_, solution_small hd (lowFor_small h3 hdist hl) rfl h2, h3⟩
  · rintro ⟨entry, h1, h2⟩
    exact ⟨entry, small_solution h hd (lowFor_small h2 hdist hl) h1⟩

include h hd hti hs in
/-- C111, what the solver is told is true: `k::g >= 0` holds of all entries in canonical form. -/
theorem C111_true {s : Solver} {texts : List Str} (hr : SolverRun z sys ti skip s texts) {text k g : Str}
    (hsay : SaysNotNegative sys.inetPton6 d text k g) {entry : RtEntry} (hc : CanonicalFor d skip entry) :
    TextHolds sys.inetPton6 d text entry :=
  notNegative_holds h hd hti hs (run_supported h hd hti hr) hc hsay

end

section
variable {sys : Sys} {p p' : P4Info} {ci ci' : ConstraintInfo} (h : p4ToConstraintInfo sys p = .ok ci)
  (h' : p4ToConstraintInfo sys p' = .ok ci') (hw : NonNegProgram p) (hw' : NonNegProgram p') {d d' : TableDecl} {b : Str}
  (hv : Versions p p' d d' b) {ti : TableInfo} (hti : lookup d.preamble.id ci.tables = some ti)
  (hs : Solvable d fun _ => false) {z : Z3Oracle} (hz : z.Sound) {texts : List Str}
  (hl : LowFor sys.inetPton6 d (NotNegative sys.inetPton6 d texts) texts)
  (hl' : LowFor sys.inetPton6 d' (NotNegative sys.inetPton6 d texts) [])

include h h' hw hw' hv hti hs hz hl hl' in
/-- C111, comparing two versions of a constraint: the negation of the other constraint is refused if and only if all entries
that the one program accepts are accepted by the other, unless their most significant bits are set in such fields. -/
theorem C111_compare (hdec : Z3Oracle.Decides z) {s : Solver} (hr : SolverRun z sys ti (fun _ => false) s texts) {r : Bool}
    (ha : (s.addConstraintStr z sys (negated b)).1 = .ok r) :
    r = false ↔ ∀ entry, RuntimeEntry d entry → LowEntry d (NotNegative sys.inetPton6 d texts) entry →
      (∀ t ∈ texts, TextHolds sys.inetPton6 d t entry) → reasonEntryViolatesConstraint entry ci = .ok [] →
      reasonEntryViolatesConstraint entry ci' = .ok [] := by
  have hdist := guard_distinct h hv.here hti
  have hdist' : ∀ vs, Each KeyDecl d'.matchFields vs → Distinct vs := fun vs hk => hdist vs (hv.same.keys ▸ hk)
  have small : ∀ {entry}, LowEntry d (NotNegative sys.inetPton6 d texts) entry →
      SmallFor sys.inetPton6 d texts entry ∧ SmallFor sys.inetPton6 d' [] entry := fun he =>
    ⟨lowFor_small he hdist hl, lowFor_small (lowEntry_congr hv.same.keys he) hdist' hl'⟩
  constructor
  · rintro rfl entry h1 h2 h3 h4
    exact C106_refused_small_partial h h' hw hw' hv hti hs hz hdec hr ha h1 (small h2).1 (small h2).2 h3 h4
  · intro hall
    refine Bool.eq_false_iff.2 fun hx => ?_
    subst hx
    obtain ⟨_, entry, h1⟩ := (signed_add_solves h hv.here hti hs hz hdec hr (text := negated b)).2.1 ha
    have h2 := signed_stripped h1
    have h3 := lowEntry_mono (G' := NotNegative sys.inetPton6 d texts) (fun k g ⟨t, ht, hg⟩ => ⟨t, List.mem_cons_of_mem _ ht, hg⟩)
      (signed_low hdist h2 (fun t a b => textSays_unique h hv.here hti))
    have h4 := solution_small (p := p) hv.here
      (negated_small h h' hv.here hv.there hv.same hti hv.text hv.closed (small h3).1 (small h3).2) rfl h2
    have h5 := hall _ ((canonical_wellFormed h hv.here hti hr _).1 h4.canonical) h3
      (fun t ht => h4.texts t (List.mem_cons_of_mem _ ht)) ((reason_accepts h hw).2 h4.accepted)
    exact other_rejects h h' hv.here hv.there hv.same hti hv.text hv.closed h4.canonical.1 (h4.texts _ List.mem_cons_self)
      ((reason_accepts h' hw').1 h5)

include h h' hw hw' hv hti hs hz hl hl' in
/-- C111, finding violations: if the negation is accepted, then the checker reports that the entry returned violates the constraint
of the table. -/
theorem C111_violation (hline : '\n' ∉ b ∧ '\r' ∉ b) {s s' s'' : Solver} {entry : RtEntry}
    (hr : SolverRun z sys ti (fun _ => false) s texts)
    (ha : s.addConstraintStr z sys (negated b) = (.ok true, s')) (hc : s'.concretize z = (.ok entry, s'')) :
    RuntimeEntry d entry ∧ (∀ t ∈ texts, TextHolds sys.inetPton6 d t entry) ∧ reasonEntryViolatesConstraint entry ci = .ok [] ∧
      ∃ m, m ≠ [] ∧ reasonEntryViolatesConstraint entry ci' = .ok m ∧ TableReport sys.inetPton6 d' entry m := by
  have hdist := guard_distinct h hv.here hti
  have h1 := (signed_concretize_solves h hv.here hti hs hz (.accepted hr ha) hc).1
  have h2 := lowEntry_mono (G' := NotNegative sys.inetPton6 d texts) (fun k g ⟨t, ht, hg⟩ => ⟨t, List.mem_cons_of_mem _ ht, hg⟩)
    (signed_low hdist h1 (fun t a b => textSays_unique h hv.here hti))
  exact C107_entry_small_partial h h' hw hw' hv hti hs hz hline hr ha hc (lowFor_small h2 hdist hl)
    (lowFor_small (lowEntry_congr hv.same.keys h2) (fun vs hk => hdist vs (hv.same.keys ▸ hk)) hl')

end

/-! ### Examples: bounds on a key, after `tern::value >= 0` -/

def Ex.guard : Str := c!"tern::value >= 0"

theorem Ex.guard_here : SaysNotNegative Ex.sys.inetPton6 (Ex.symDecl []) Ex.guard c!"tern" c!"value" :=
  Ex.text_says Ex.moved_ci Ex.moved_ti (by decide +kernel)

theorem Ex.guard_bounded : SaysNotNegative Ex.sys.inetPton6 Ex.d2 Ex.guard c!"tern" c!"value" :=
  Ex.text_says Ex.d2_ci Ex.d2_ti (by decide +kernel)

theorem Ex.orders_low (a : Str) {G : Str → Str → Prop} (hG : G c!"tern" c!"value") (o : Cmp) {n : Int} (h1 : 0 ≤ n) (h2 : n < 128)
    {vs : List VarInfo} (hk : Each KeyDecl (Ex.symDecl a).matchFields vs) :
    OrdersLow (keySig vs) G (.cmp o (.field (.key c!"tern") c!"value") (.int n)) := by
  cases keys_same hk (show Each KeyDecl (Ex.symDecl a).matchFields Ex.solveKeys from Ex.solve_keys)
  exact ⟨trivial, trivial, fun _ => .inr ⟨8, .field hG (.field (.key (show _ = some (.ternary 8) by decide +kernel) (by simp [Supported]))
    (.ternaryValue 8)), .int h1 (by show 2 * n < 256; omega)⟩⟩

theorem Ex.low_here : LowFor Ex.sys.inetPton6 (Ex.symDecl []) (NotNegative Ex.sys.inetPton6 (Ex.symDecl []) [Ex.guard]) [Ex.guard] := by
  refine ⟨fun s hs => (free_says Ex.moved1.free hs).elim, fun t ht s hs vs hk => ?_⟩
  cases List.mem_singleton.1 ht
  cases textSays_unique Ex.moved_ci (List.mem_singleton.2 rfl) Ex.moved_ti Ex.guard_here hs
  exact Ex.orders_low [] ⟨_, .head _, Ex.guard_here⟩ _ (by decide) (by decide) hk

theorem Ex.low_bounded : LowFor Ex.sys.inetPton6 Ex.d2 (NotNegative Ex.sys.inetPton6 Ex.d2 [Ex.guard]) [Ex.guard] := by
  refine ⟨fun s hs vs hk => ?_, fun t ht s hs vs hk => ?_⟩
  · cases (Ex.d2_says s).1 hs
    exact Ex.orders_low _ ⟨_, .head _, Ex.guard_bounded⟩ _ (by decide) (by decide) hk
  · cases List.mem_singleton.1 ht
    cases textSays_unique Ex.d2_ci (List.mem_singleton.2 rfl) Ex.d2_ti Ex.guard_bounded hs
    exact Ex.orders_low _ ⟨_, .head _, Ex.guard_bounded⟩ _ (by decide) (by decide) hk

theorem Ex.low_there : LowFor Ex.sys.inetPton6 Ex.d2 (NotNegative Ex.sys.inetPton6 (Ex.symDecl []) [Ex.guard]) [] := by
  refine ⟨fun s hs vs hk => ?_, nofun⟩
  cases (Ex.d2_says s).1 hs
  exact Ex.orders_low _ ⟨_, .head _, Ex.guard_here⟩ _ (by decide) (by decide) hk

/-- For `tern::value < 5`, a solver may return the value 255 (`C72_fails`). Once it has accepted `tern::value >= 0`, all entries it
returns are accepted. -/
example : ∃ s s' entry, Ex.solverSmall.addConstraintStr (constOracle Ex.mSmall) Ex.sys Ex.guard = (.ok true, s) ∧
    s.concretize (constOracle Ex.mSmall) = (.ok entry, s') ∧
    Solution Ex.sys.inetPton6 (Ex.symInfo Ex.d2) Ex.d2 (fun _ => false) [Ex.guard] entry := by
  have ha : Ex.solverSmall.addConstraintStr (constOracle Ex.mSmall) Ex.sys Ex.guard =
      (.ok true, (Ex.solverSmall.addConstraintStr (constOracle Ex.mSmall) Ex.sys Ex.guard).2) := Ex.pair_of (by decide +kernel)
  have hc : (Ex.solverSmall.addConstraintStr (constOracle Ex.mSmall) Ex.sys Ex.guard).2.concretize (constOracle Ex.mSmall) =
      (.ok Ex.eSmall, ((Ex.solverSmall.addConstraintStr (constOracle Ex.mSmall) Ex.sys Ex.guard).2.concretize (constOracle Ex.mSmall)).2) :=
    Ex.pair_of (by decide +kernel)
  exact ⟨_, _, _, ha, hc, (C111_entry Ex.d2_ci (List.mem_singleton.2 rfl) Ex.d2_ti (Ex.sym_solvable _) (constOracle_sound _)
    (.accepted Ex.small_run ha) Ex.low_bounded hc).1⟩

/-- Solvers for `tern::value < 5` accept `tern::value >= 0`, since there is the entry with value 3. -/
example {z : Z3Oracle} (hz : z.Sound) (hdec : Z3Oracle.Decides z) : ∃ s,
    Solver.create z (Ex.symTi Ex.d2) (fun _ => .ok false) = .ok s ∧ (s.addConstraintStr z Ex.sys Ex.guard).1 = .ok true := by
  obtain ⟨s, hs⟩ := Ex.d2_create hz hdec
  have hd : Ex.d2 ∈ (Ex.symInfo Ex.d2).tables := List.mem_singleton.2 rfl
  have hr : SolverRun z Ex.sys (Ex.symTi Ex.d2) (fun _ => false) s [] := .create hs
  have hsol := Ex.eSmall_solution.1
  refine ⟨s, hs, (C111_answer Ex.d2_ci hd Ex.d2_ti (Ex.sym_solvable _) hz hdec hr Ex.low_bounded).2
    ⟨⟨_, Ex.guard_bounded, _, Ex.solve_keys, by simp [NamesIn, Ex.solveKeys]⟩, Ex.eSmall, ⟨hsol.canonical, hsol.accepted, ?_⟩, ?_⟩⟩
  · intro t ht
    cases List.mem_singleton.1 ht
    exact C111_true Ex.d2_ci hd Ex.d2_ti (Ex.sym_solvable _) hr Ex.guard_bounded hsol.canonical
  · rintro vs hk ki hki g w v y ⟨t, ht, hsay⟩ hty hv hy
    cases List.mem_singleton.1 ht
    have := textSays_unique Ex.d2_ci hd Ex.d2_ti Ex.guard_bounded hsay
    simp only [SExpr.cmp.injEq, SExpr.field.injEq, SExpr.key.injEq, true_and, and_true] at this
    obtain ⟨h1, rfl⟩ := this
    cases keys_same hk (show Each KeyDecl Ex.d2.matchFields Ex.solveKeys from Ex.solve_keys)
    have hki' : ki = ⟨2, c!"tern", .ternary 8⟩ := by
      simp only [Ex.solveKeys, List.mem_cons, List.not_mem_nil, or_false] at hki
      rcases hki with rfl | rfl | rfl | rfl
      · cases h1
      · rfl
      · cases h1
      · cases h1
    subst hki'
    cases hty
    rw [Ex.eSmall_tern hv hy]
    decide +kernel

/-- The entry with value 16 violates `tern::value < 5`; it is found by a solver for the table without constraint to which
`tern::value >= 0` has been added. -/
example : ∃ s s' s'' s3, SolverRun (constOracle Ex.m1) Ex.sys (Ex.symTi (Ex.symDecl [])) (fun _ => false) s [] ∧
    s.addConstraintStr (constOracle Ex.m1) Ex.sys Ex.guard = (.ok true, s') ∧
    s'.addConstraintStr (constOracle Ex.m1) Ex.sys (negated c!"tern::value < 5") = (.ok true, s'') ∧
    s''.concretize (constOracle Ex.m1) = (.ok Ex.e1, s3) ∧
    ∃ m, m ≠ [] ∧ reasonEntryViolatesConstraint Ex.e1 (Ex.symCi Ex.d2) = .ok m ∧ TableReport Ex.sys.inetPton6 Ex.d2 Ex.e1 m := by
  have hr : SolverRun (constOracle Ex.m1) Ex.sys (Ex.symTi (Ex.symDecl [])) (fun _ => false) Ex.solverNone [] :=
    .create (Ex.get_of_isOk (by decide +kernel))
  have ha : Ex.solverNone.addConstraintStr (constOracle Ex.m1) Ex.sys Ex.guard =
      (.ok true, (Ex.solverNone.addConstraintStr (constOracle Ex.m1) Ex.sys Ex.guard).2) := Ex.pair_of (by decide +kernel)
  generalize hs' : (Ex.solverNone.addConstraintStr (constOracle Ex.m1) Ex.sys Ex.guard).2 = s' at ha
  have hb : s'.addConstraintStr (constOracle Ex.m1) Ex.sys (negated c!"tern::value < 5") =
      (.ok true, (s'.addConstraintStr (constOracle Ex.m1) Ex.sys (negated c!"tern::value < 5")).2) := by
    subst hs'
    exact Ex.pair_of (by decide +kernel)
  generalize hs'' : (s'.addConstraintStr (constOracle Ex.m1) Ex.sys (negated c!"tern::value < 5")).2 = s'' at hb
  have hc : s''.concretize (constOracle Ex.m1) = (.ok Ex.e1, (s''.concretize (constOracle Ex.m1)).2) := by
    subst hs'' hs'
    exact Ex.pair_of (by decide +kernel)
  exact ⟨_, _, _, _, hr, ha, hb, hc, (C111_violation Ex.moved_ci Ex.d2_ci ⟨by decide +kernel, by decide +kernel⟩ Ex.d2_nonNeg
    Ex.d2_versions Ex.moved_ti (Ex.sym_solvable _) (constOracle_sound _) Ex.low_here Ex.low_there (by decide) (.accepted hr ha) hb
    hc).2.2.2⟩

/-- That entry does not have the most significant bit of the value set. -/
theorem Ex.e1_low : LowEntry (Ex.symDecl []) (NotNegative Ex.sys.inetPton6 (Ex.symDecl []) [Ex.guard]) Ex.e1 ∧
    Solution Ex.sys.inetPton6 (Ex.symInfo (Ex.symDecl [])) (Ex.symDecl []) (fun _ => false) [Ex.guard] Ex.e1 := by
  have hr : SolverRun (constOracle Ex.m1) Ex.sys (Ex.symTi (Ex.symDecl [])) (fun _ => false) Ex.solverNone [] :=
    .create (Ex.get_of_isOk (by decide +kernel))
  have ha : Ex.solverNone.addConstraintStr (constOracle Ex.m1) Ex.sys Ex.guard =
      (.ok true, (Ex.solverNone.addConstraintStr (constOracle Ex.m1) Ex.sys Ex.guard).2) := Ex.pair_of (by decide +kernel)
  have hc : (Ex.solverNone.addConstraintStr (constOracle Ex.m1) Ex.sys Ex.guard).2.concretize (constOracle Ex.m1) =
      (.ok Ex.e1, ((Ex.solverNone.addConstraintStr (constOracle Ex.m1) Ex.sys Ex.guard).2.concretize (constOracle Ex.m1)).2) :=
    Ex.pair_of (by decide +kernel)
  obtain ⟨h1, _, h3⟩ := C111_entry Ex.moved_ci (List.mem_singleton.2 rfl) Ex.moved_ti (Ex.sym_solvable _) (constOracle_sound _)
    (.accepted hr ha) Ex.low_here hc
  exact ⟨h3, h1⟩

/-- Therefore solvers that decide accept the negation of `tern::value < 5`. -/
example {z : Z3Oracle} (hz : z.Sound) (hdec : Z3Oracle.Decides z) : ∃ s s',
    SolverRun z Ex.sys (Ex.symTi (Ex.symDecl [])) (fun _ => false) s [] ∧ s.addConstraintStr z Ex.sys Ex.guard = (.ok true, s') ∧
    (s'.addConstraintStr z Ex.sys (negated c!"tern::value < 5")).1 = .ok true := by
  obtain ⟨s, hs⟩ := Ex.none_create hz hdec
  have hd : Ex.symDecl [] ∈ (Ex.symInfo (Ex.symDecl [])).tables := List.mem_singleton.2 rfl
  have hr : SolverRun z Ex.sys (Ex.symTi (Ex.symDecl [])) (fun _ => false) s [] := .create hs
  have ha : (s.addConstraintStr z Ex.sys Ex.guard).1 = .ok true :=
    (C111_answer Ex.moved_ci hd Ex.moved_ti (Ex.sym_solvable _) hz hdec hr Ex.low_here).2
      ⟨⟨_, Ex.guard_here, _, Ex.solve_keys, by simp [NamesIn, Ex.solveKeys]⟩, Ex.e1, Ex.e1_low.2, Ex.e1_low.1⟩
  have ha' : s.addConstraintStr z Ex.sys Ex.guard = (.ok true, (s.addConstraintStr z Ex.sys Ex.guard).2) := by rw [← ha]
  have hr' := SolverRun.accepted hr ha'
  have hw : NonNegProgram (Ex.symInfo (Ex.symDecl [])) := ⟨by decide +kernel, by decide +kernel⟩
  obtain ⟨r, hb⟩ := (C106_understood Ex.moved_ci Ex.d2_ci Ex.d2_versions Ex.moved_ti (Ex.sym_solvable _) hz hdec hr').2
    ⟨_, (Ex.d2_says _).2 rfl, _, Ex.solve_keys, by simp [NamesIn, Ex.below, Ex.solveKeys]⟩
  refine ⟨s, _, hr, ha', ?_⟩
  cases r with
  | true => exact hb
  | false =>
    have := (C111_compare Ex.moved_ci Ex.d2_ci hw Ex.d2_nonNeg Ex.d2_versions Ex.moved_ti (Ex.sym_solvable _) hz Ex.low_here
      Ex.low_there hdec hr' hb).1 rfl Ex.e1 ((canonical_wellFormed Ex.moved_ci hd Ex.moved_ti hr' _).1 Ex.e1_low.2.canonical)
      Ex.e1_low.1 Ex.e1_low.2.texts ((reason_accepts Ex.moved_ci hw).2 Ex.e1_low.2.accepted)
    exact absurd this (by decide +kernel)

/-! ### Large numbers -/

def Ex.d200 : TableDecl := Ex.symDecl c!"tern::value >= 200"

def Ex.solver200 : Solver :=
  Ex.get ⟨0, [], Ex.symTi Ex.d200, ⟨[], []⟩, Ex.noSkip⟩ (Solver.create (constOracle Ex.m1) (Ex.symTi Ex.d200) Ex.noSkip)

/-- C111: the numbers must be small. After `tern::value >= 0`, the solver for `tern::value >= 200` may return an entry with the value
16, since it takes 200 for a negative number. -/
theorem C111_fails_number : ∃ (z : Z3Oracle) (sys : Sys) (p : P4Info) (ci : ConstraintInfo) (d : TableDecl) (ti : TableInfo)
    (s s' : Solver) (text : Str) (entry : RtEntry), z.Sound ∧ p4ToConstraintInfo sys p = .ok ci ∧ d ∈ p.tables ∧
      lookup d.preamble.id ci.tables = some ti ∧ Solvable d (fun _ => false) ∧
      (∀ se, TableSays sys.inetPton6 d se ↔ se = .cmp .ge (.field (.key c!"tern") c!"value") (.int 200)) ∧
      SaysNotNegative sys.inetPton6 d text c!"tern" c!"value" ∧ SolverRun z sys ti (fun _ => false) s [text] ∧
      s.concretize z = (.ok entry, s') ∧ ∃ m, m ≠ [] ∧ reasonEntryViolatesConstraint entry ci = .ok m := by
  have hci : p4ToConstraintInfo Ex.sys (Ex.symInfo Ex.d200) = .ok (Ex.symCi Ex.d200) := Ex.get_of_isOk (by decide +kernel)
  have hti : lookup Ex.d200.preamble.id (Ex.symCi Ex.d200).tables = some (Ex.symTi Ex.d200) := by decide +kernel
  have hr : SolverRun (constOracle Ex.m1) Ex.sys (Ex.symTi Ex.d200) (fun _ => false) Ex.solver200 [] :=
    .create (Ex.get_of_isOk (by decide +kernel))
  have ha : Ex.solver200.addConstraintStr (constOracle Ex.m1) Ex.sys Ex.guard =
      (.ok true, (Ex.solver200.addConstraintStr (constOracle Ex.m1) Ex.sys Ex.guard).2) := Ex.pair_of (by decide +kernel)
  have hm : ∃ m, m ≠ [] ∧ reasonEntryViolatesConstraint Ex.e1 (Ex.symCi Ex.d200) = .ok m := by
    have hok : Ex.isOk (reasonEntryViolatesConstraint Ex.e1 (Ex.symCi Ex.d200)) = true := by decide +kernel
    have hne : reasonEntryViolatesConstraint Ex.e1 (Ex.symCi Ex.d200) ≠ .ok [] := by decide +kernel
    generalize reasonEntryViolatesConstraint Ex.e1 (Ex.symCi Ex.d200) = x at hok hne
    cases x with
    | ok m => exact ⟨m, fun hx => hne (hx ▸ rfl), rfl⟩
    | _ => cases hok
  exact ⟨constOracle Ex.m1, Ex.sys, _, _, Ex.d200, _, _, _, Ex.guard, Ex.e1, constOracle_sound _, hci, List.mem_singleton.2 rfl, hti,
    Ex.sym_solvable _, Ex.sym_says (by decide +kernel) hci hti, Ex.text_says hci hti (by decide +kernel), .accepted hr ha,
    Ex.pair_of (by decide +kernel), hm⟩

end P4C
