import Verif.Proofs.Small
import Verif.Proofs.Found
import Verif.Props.Compare

/-
C72, C106, C107: the answers of constraint solvers can be relied on for entries of which the constraints order only bit strings whose
most significant bit is not set.
-/

namespace P4C

open Spec

section
variable {sys : Sys} {p : P4Info} {ci : ConstraintInfo} (h : p4ToConstraintInfo sys p = .ok ci) {d : TableDecl}
  (hd : d ∈ p.tables) {ti : TableInfo} (hti : lookup d.preamble.id ci.tables = some ti) {skip : Str → Bool}
  (hs : Solvable d skip) {z : Z3Oracle} (hz : z.Sound)

include h hd hti hs hz in
/-- C72, whatever the constraints order: if the entry returned has no top bit set in ordered bit strings, then it is a solution. -/
theorem C72_entry_small_partial {s s' : Solver} {texts : List Str} {entry : RtEntry} (hr : SolverRun z sys ti skip s texts)
    (hc : s.concretize z = (.ok entry, s')) (hsm : SmallFor sys.inetPton6 d texts entry) :
    Solution sys.inetPton6 p d skip texts entry ∧ entry.action = none := by
  obtain ⟨h1, h2⟩ := signed_concretize_solves h hd hti hs hz hr hc
  exact ⟨solution_small hd hsm h2 h1, h2⟩

include h hd hti hs hz in
/-- C72, whatever the constraints order: if a text is refused, then there is no solution without such bits. -/
theorem C72_refused_small_partial (hdec : Z3Oracle.Decides z) {s : Solver} {texts : List Str} {text : Str}
    (hr : SolverRun z sys ti skip s texts) (ha : (s.addConstraintStr z sys text).1 = .ok false) (entry : RtEntry)
    (hsm : SmallFor sys.inetPton6 d (text :: texts) entry) : ¬ Solution sys.inetPton6 p d skip (text :: texts) entry := by
  intro hsol
  obtain ⟨h1, h2⟩ := signed_add_solves h hd hti hs hz hdec hr (text := text)
  have := h2.2 ⟨h1.1 ⟨_, ha⟩, entry, small_solution h hd hsm hsol⟩
  rw [ha] at this
  cases this

end

section
variable {sys : Sys} {p p' : P4Info} {ci ci' : ConstraintInfo} (h : p4ToConstraintInfo sys p = .ok ci)
  (h' : p4ToConstraintInfo sys p' = .ok ci') (hw : NonNegProgram p) (hw' : NonNegProgram p') {d d' : TableDecl} {b : Str}
  (hv : Versions p p' d d' b) {ti : TableInfo} (hti : lookup d.preamble.id ci.tables = some ti)
  (hs : Solvable d fun _ => false) {z : Z3Oracle} (hz : z.Sound)

include h h' hw hw' hv hti hs hz in
/-- C106, whatever the constraints order: if the negation of the other constraint is refused, then entries accepted by the one
program are accepted by the other, unless top bits are set in ordered bit strings. -/
theorem C106_refused_small_partial (hdec : Z3Oracle.Decides z) {s : Solver} {texts : List Str}
    (hr : SolverRun z sys ti (fun _ => false) s texts) (ha : (s.addConstraintStr z sys (negated b)).1 = .ok false)
    {entry : RtEntry} (he : RuntimeEntry d entry) (h1 : SmallFor sys.inetPton6 d texts entry)
    (h2 : SmallFor sys.inetPton6 d' [] entry) (ht : ∀ t ∈ texts, TextHolds sys.inetPton6 d t entry)
    (hok : reasonEntryViolatesConstraint entry ci = .ok []) : reasonEntryViolatesConstraint entry ci' = .ok [] :=
  compare_small h h' hv.here hv.there hv.same hv.actions hti hv.text hv.closed hw hw' hs hz hdec hr ha he h1 h2 ht hok

include h h' hw hw' hv hti hs hz in
/-- C106, whatever the constraints order: the entry returned is evidence, unless top bits are set in ordered bit strings. -/
theorem C106_evidence_small_partial {s s' s'' : Solver} {texts : List Str} {entry : RtEntry}
    (hr : SolverRun z sys ti (fun _ => false) s texts)
    (ha : s.addConstraintStr z sys (negated b) = (.ok true, s')) (hc : s'.concretize z = (.ok entry, s''))
    (h1 : SmallFor sys.inetPton6 d texts entry) (h2 : SmallFor sys.inetPton6 d' [] entry) :
    RuntimeEntry d entry ∧ (∀ t ∈ texts, TextHolds sys.inetPton6 d t entry) ∧
      reasonEntryViolatesConstraint entry ci = .ok [] ∧ reasonEntryViolatesConstraint entry ci' ≠ .ok [] :=
  witness_small h h' hv.here hv.there hv.same hti hv.text hv.closed hw hw' hs hz hr ha hc h1 h2

include h h' hw hw' hv hti hs hz in
/-- C107, whatever the constraints order: the checker reports that the entry returned violates the constraint of the table, unless
top bits are set in ordered bit strings. -/
theorem C107_entry_small_partial (hl : '\n' ∉ b ∧ '\r' ∉ b) {s s' s'' : Solver} {texts : List Str} {entry : RtEntry}
    (hr : SolverRun z sys ti (fun _ => false) s texts)
    (ha : s.addConstraintStr z sys (negated b) = (.ok true, s')) (hc : s'.concretize z = (.ok entry, s''))
    (h1 : SmallFor sys.inetPton6 d texts entry) (h2 : SmallFor sys.inetPton6 d' [] entry) :
    RuntimeEntry d entry ∧ (∀ t ∈ texts, TextHolds sys.inetPton6 d t entry) ∧ reasonEntryViolatesConstraint entry ci = .ok [] ∧
      ∃ m, m ≠ [] ∧ reasonEntryViolatesConstraint entry ci' = .ok m ∧ TableReport sys.inetPton6 d' entry m := by
  obtain ⟨g1, g2, g3, _⟩ := C106_evidence_small_partial h h' hw hw' hv hti hs hz hr ha hc h1 h2
  obtain ⟨k1, k2⟩ := signed_concretize_solves h hv.here hti hs hz (.accepted hr ha) hc
  have k3 := solution_small (p := p) hv.here
    (negated_small h h' hv.here hv.there hv.same hti hv.text hv.closed h1 h2) k2 k1
  have k4 := negated_value h h' hv hti (k3.texts _ List.mem_cons_self)
  refine ⟨g1, g2, g3, violation_explained h' hw' hv.there (k3.canonical.1.trans hv.same.ids) hv.text hl ?_ k4⟩
  intro se hse vs hvs
  obtain ⟨vs', _, _, _, ρ, q1, _, _, q2, _⟩ := k4
  cases keys_same hvs q1
  exact (h2.table se hse vs ρ hvs q2).2

end

/-! ### Examples: upper bounds on a key -/

/-- An upper bound on the value of `tern`. -/
def Ex.below (n : Int) : SExpr := .cmp .lt (.field (.key c!"tern") c!"value") (.int n)

theorem Ex.tern_means {ρ : Env} {a : Ty} {v : Value} (h : Means (keySig Ex.solveKeys) ρ (.field (.key c!"tern") c!"value") a v) :
    a = .fixedUnsigned 8 ∧ ∃ k z, ρ.key c!"tern" = some k ∧ FieldVal k c!"value" z ∧ v = .int z := by
  cases h with
  | field g1 g2 g3 =>
    cases g1 with
    | key k1 k2 =>
      have : (keySig Ex.solveKeys).key c!"tern" = some (.ternary 8) := by decide +kernel
      rw [this] at k1
      cases k1
      cases g2
      exact ⟨rfl, _, _, k2, g3, rfl⟩

theorem Ex.join_tern {t : Ty} (h : IsJoin (.fixedUnsigned 8) .arbitraryInt t) : t = .fixedUnsigned 8 := by
  have h1 := lub_iff.2 h
  rw [lub_iff.2 (join_bit 8)] at h1
  exact (Option.some.inj h1).symm

/-- Only numbers below 128 are compared if the bound and the value are below 128. -/
theorem Ex.below_small (a : Str) {entry : RtEntry} {n : Int} (h1 : 0 ≤ n) (h2 : n < 128)
    (hv : ∀ v z, KeyValue entry ⟨2, c!"tern", .ternary 8⟩ v → FieldVal v c!"value" z → z < 128) :
    OrdersSmall (Ex.symDecl a) entry (Ex.below n) := by
  intro vs ρ hk hρ
  cases keys_same hk (show Each KeyDecl (Ex.symDecl a).matchFields Ex.solveKeys from Ex.solve_keys)
  refine ⟨⟨trivial, trivial, fun _ a b t v w ha hb hj => .inr ?_⟩, ⟨trivial, trivial, fun _ w => ⟨fun hx => ?_, nofun⟩⟩⟩
  · obtain ⟨rfl, k, z, g1, g2, rfl⟩ := Ex.tern_means ha
    cases hb
    cases Ex.join_tern hj
    obtain ⟨ki, hki, hn, hval⟩ := (hρ.key _ _).1 g1
    have hki' : ki = ⟨2, c!"tern", .ternary 8⟩ := by
      simp only [Ex.solveKeys, List.mem_cons, List.not_mem_nil, or_false] at hki
      rcases hki with rfl | rfl | rfl | rfl
      · cases hn
      · rfl
      · cases hn
      · cases hn
    subst hki'
    have := hv _ _ hval g2
    refine ⟨⟨8, z, .inl rfl, rfl, ?_⟩, ⟨8, n % 256, .inl rfl, rfl, ?_⟩⟩
    · show 2 * z < 256
      omega
    · show 2 * (n % 256) < 256
      omega
  · cases hx with
    | field g1 g2 =>
      cases g1 with
      | key k1 _ =>
        have : (keySig Ex.solveKeys).key c!"tern" = some (.ternary 8) := by decide +kernel
        rw [this] at k1
        cases k1
        cases g2

theorem Ex.d2_ci : p4ToConstraintInfo Ex.sys (Ex.symInfo Ex.d2) = .ok (Ex.symCi Ex.d2) := Ex.get_of_isOk (by decide +kernel)

theorem Ex.d2_ti : lookup Ex.d2.preamble.id (Ex.symCi Ex.d2).tables = some (Ex.symTi Ex.d2) := by decide +kernel

theorem Ex.d2_says (se : SExpr) : TableSays Ex.sys.inetPton6 Ex.d2 se ↔ se = Ex.below 5 :=
  Ex.sym_says (by decide +kernel) Ex.d2_ci Ex.d2_ti se

theorem Ex.d2_nonNeg : NonNegProgram (Ex.symInfo Ex.d2) := ⟨by decide +kernel, by decide +kernel⟩

def Ex.d100 : TableDecl := Ex.symDecl c!"tern::value < 100"

theorem Ex.d100_ci : p4ToConstraintInfo Ex.sys (Ex.symInfo Ex.d100) = .ok (Ex.symCi Ex.d100) := Ex.get_of_isOk (by decide +kernel)

theorem Ex.d100_ti : lookup Ex.d100.preamble.id (Ex.symCi Ex.d100).tables = some (Ex.symTi Ex.d100) := by decide +kernel

theorem Ex.d100_says (se : SExpr) : TableSays Ex.sys.inetPton6 Ex.d100 se ↔ se = Ex.below 100 :=
  Ex.sym_says (by decide +kernel) Ex.d100_ci Ex.d100_ti se

theorem Ex.d100_nonNeg : NonNegProgram (Ex.symInfo Ex.d100) := ⟨by decide +kernel, by decide +kernel⟩

theorem Ex.d100_versions : Versions (Ex.symInfo Ex.d2) (Ex.symInfo Ex.d100) Ex.d2 Ex.d100 c!"tern::value < 100" :=
  Ex.sym_versions _ rfl (by decide +kernel) (by decide +kernel) (Ex.sym_closed (by decide +kernel) (by decide +kernel))

theorem Ex.d2_versions : Versions (Ex.symInfo (Ex.symDecl [])) (Ex.symInfo Ex.d2) (Ex.symDecl []) Ex.d2 c!"tern::value < 5" :=
  Ex.sym_versions _ rfl (by decide +kernel) (by decide +kernel) (Ex.sym_closed (by decide +kernel) (by decide +kernel))

/-- A model with a small value, and the entry it describes. -/
def Ex.mSmall : Interp := Ex.model [(c!"tern", 3), (c!"tern_mask", 255)]

@[inherit_doc Ex.mSmall] def Ex.eSmall : RtEntry :=
  { tableId := 1, priority := 1, matches_ := [⟨1, .exact [0]⟩, ⟨3, .lpm [0] 1⟩, ⟨2, .ternary [3] [255]⟩] }

theorem Ex.eSmall_tern {v : Value} {z : Int} (h : KeyValue Ex.eSmall ⟨2, c!"tern", .ternary 8⟩ v) (hz : FieldVal v c!"value" z) :
    z = 3 := by
  rcases h with ⟨m, hm, hid, hd⟩ | ⟨hn, _⟩
  · simp only [Ex.eSmall, List.mem_cons, List.not_mem_nil, or_false] at hm
    rcases hm with rfl | rfl | rfl
    · cases hid
    · cases hid
    · cases hd
      cases hz
      rfl
  · exact (hn ⟨2, .ternary [3] [255]⟩ (by simp [Ex.eSmall]) rfl).elim

theorem Ex.eSmall_below (a : Str) {n : Int} (h1 : 0 ≤ n) (h2 : n < 128) : OrdersSmall (Ex.symDecl a) Ex.eSmall (Ex.below n) :=
  Ex.below_small a h1 h2 fun v z h hz => by rw [Ex.eSmall_tern h hz]; decide

theorem Ex.d2_small : SmallFor Ex.sys.inetPton6 Ex.d2 [] Ex.eSmall :=
  ⟨fun s hs => by cases (Ex.d2_says s).1 hs; exact Ex.eSmall_below _ (by decide) (by decide), nofun⟩

theorem Ex.d100_small : SmallFor Ex.sys.inetPton6 Ex.d100 [] Ex.eSmall :=
  ⟨fun s hs => by cases (Ex.d100_says s).1 hs; exact Ex.eSmall_below _ (by decide) (by decide), nofun⟩

def Ex.solverSmall : Solver :=
  Ex.get ⟨0, [], Ex.symTi Ex.d2, ⟨[], []⟩, Ex.noSkip⟩ (Solver.create (constOracle Ex.mSmall) (Ex.symTi Ex.d2) Ex.noSkip)

theorem Ex.small_run : SolverRun (constOracle Ex.mSmall) Ex.sys (Ex.symTi Ex.d2) (fun _ => false) Ex.solverSmall [] :=
  .create (Ex.get_of_isOk (by decide +kernel))

theorem Ex.small_entry :
    Ex.solverSmall.concretize (constOracle Ex.mSmall) = (.ok Ex.eSmall, (Ex.solverSmall.concretize (constOracle Ex.mSmall)).2) :=
  Ex.pair_of (by decide +kernel)

/-- For `tern::value < 5` the solver may return the value 3, and then the entry is accepted, while 255 is not (`C72_fails`). -/
theorem Ex.eSmall_solution :
    Solution Ex.sys.inetPton6 (Ex.symInfo Ex.d2) Ex.d2 (fun _ => false) [] Ex.eSmall ∧ Ex.eSmall.action = none :=
  C72_entry_small_partial Ex.d2_ci (List.mem_singleton.2 rfl) Ex.d2_ti (Ex.sym_solvable _) (constOracle_sound _) Ex.small_run
    Ex.small_entry Ex.d2_small

theorem Ex.eSmall_runtime : RuntimeEntry Ex.d2 Ex.eSmall where
  table := rfl
  fields := by
    intro m hm
    simp only [Ex.eSmall, List.mem_cons, List.not_mem_nil, or_false] at hm
    rcases hm with rfl | rfl | rfl
    · exact ⟨_, .head _, rfl, .exact _ _ ⟨by simp [CanonicalBytes], by decide +kernel⟩⟩
    · exact ⟨_, .tail _ (.tail _ (.head _)), rfl, .lpm _ _ ⟨by simp [CanonicalBytes], by decide +kernel⟩ (by decide) (by decide)
        (by decide +kernel)⟩
    · exact ⟨_, .tail _ (.head _), rfl, .ternary _ _ ⟨by simp [CanonicalBytes], by decide +kernel⟩
        ⟨by simp [CanonicalBytes], by decide +kernel⟩ (by decide +kernel) (by decide +kernel)⟩
  once := by decide +kernel
  exact := by
    intro f hf hx
    simp only [Ex.d2, Ex.symDecl, List.mem_cons, List.not_mem_nil, or_false] at hf
    rcases hf with rfl | rfl | rfl | rfl
    · exact ⟨_, List.mem_cons_self, rfl⟩
    all_goals cases hx
  priority := .inl ⟨⟨⟨2, c!"tern", 8, .matchType .ternary⟩, .tail _ (.head _), .inl rfl⟩, by decide, by decide⟩

theorem Ex.d2_create {z : Z3Oracle} (hz : z.Sound) (hdec : Z3Oracle.Decides z) :
    ∃ s, Solver.create z (Ex.symTi Ex.d2) (fun _ => .ok false) = .ok s := by
  have hd : Ex.d2 ∈ (Ex.symInfo Ex.d2).tables := List.mem_singleton.2 rfl
  refine (signed_create_solves Ex.d2_ci hd Ex.d2_ti (Ex.sym_solvable _) hz hdec).2
    ⟨Ex.sym_supported _, fun se hse => ?_, Ex.eSmall, small_solution Ex.d2_ci hd Ex.d2_small Ex.eSmall_solution.1⟩
  cases (Ex.d2_says se).1 hse
  exact ⟨_, Ex.solve_keys, by simp [NamesIn, Ex.below, Ex.solveKeys]⟩

theorem Ex.below_signed {ρ : Env} {n : Int} {c : Bool} (h1 : 0 ≤ n) (h2 : n < 128)
    (h : SignedMeans (keySig Ex.solveKeys) ρ (Ex.below n) .boolean (.bool c)) :
    ∃ k z, ρ.key c!"tern" = some k ∧ FieldVal k c!"value" z ∧ c = decide (twos (.fixedUnsigned 8) z < n) := by
  cases h with
  | cmp g1 g2 g3 g4 =>
    obtain ⟨rfl, k, z, k1, k2, rfl⟩ := Ex.tern_means (signed_means g1 trivial)
    cases g2
    cases Ex.join_tern g3
    refine ⟨k, z, k1, k2, ?_⟩
    have hn : n % 256 = n := by omega
    have ht : 2 * n < 256 := by omega
    simp [compareSigned, convert, orderKey, twos, hn, ht] at g4 ⊢
    exact g4.symm

/-- The solver for `tern::value < 5` refuses the negation of `tern::value < 100`. Therefore entries with small values that are
accepted with the former are accepted with the latter. -/
example {z : Z3Oracle} (hz : z.Sound) (hdec : Z3Oracle.Decides z) :
    ∃ s, Solver.create z (Ex.symTi Ex.d2) (fun _ => .ok false) = .ok s ∧
      (s.addConstraintStr z Ex.sys (negated c!"tern::value < 100")).1 = .ok false ∧
      reasonEntryViolatesConstraint Ex.eSmall (Ex.symCi Ex.d100) = .ok [] := by
  obtain ⟨s, hs⟩ := Ex.d2_create hz hdec
  have hd : Ex.d2 ∈ (Ex.symInfo Ex.d2).tables := List.mem_singleton.2 rfl
  have hr : SolverRun z Ex.sys (Ex.symTi Ex.d2) (fun _ => false) s [] := .create hs
  obtain ⟨r, ha⟩ := (C106_understood Ex.d2_ci Ex.d100_ci Ex.d100_versions Ex.d2_ti (Ex.sym_solvable _) hz hdec hr).2
    ⟨_, (Ex.d100_says _).2 rfl, _, Ex.solve_keys, by simp [NamesIn, Ex.below, Ex.solveKeys]⟩
  have hf : r = false := by
    cases r with
    | false => rfl
    | true =>
      obtain ⟨_, entry, hsol⟩ := (C72_add_exact Ex.d2_ci hd Ex.d2_ti (Ex.sym_solvable _) hz hdec hr).2.1 ha
      obtain ⟨se, h1, vs, ρ, h2, _, h4, h5⟩ := hsol.texts _ List.mem_cons_self
      obtain ⟨src, e, u, t, g1, _, g2⟩ := other_negated Ex.d2_ci Ex.d100_ci hd (List.mem_singleton.2 rfl) ⟨rfl, rfl⟩ Ex.d2_ti
        Ex.d100_versions.text Ex.d100_versions.closed h2
      obtain ⟨rfl, rfl⟩ := g2 se h1
      cases (Ex.d100_says u).1 ⟨vs, src, e, h2, g1⟩
      cases keys_same h2 (show Each KeyDecl Ex.d2.matchFields Ex.solveKeys from Ex.solve_keys)
      rcases hsol.table with hn | ⟨se', h6, vs, ρ', h7, _, h8, h9⟩
      · exact (says_attached Ex.d2_versions.text hn).elim
      · cases (Ex.d2_says se').1 h6
        cases keys_same h7 (show Each KeyDecl Ex.d2.matchFields Ex.solveKeys from Ex.solve_keys)
        cases entryMeans_unique h4 h8
        obtain ⟨k, y, k1, k2, k3⟩ := Ex.below_signed (by decide) (by decide) h9
        unfold SignedHolds at h5
        generalize hb : Value.bool true = v at h5
        cases h5 with
        | not h5 =>
          obtain ⟨k', y', k1', k2', rfl⟩ := Ex.below_signed (by decide) (by decide) h5
          rw [k1] at k1'
          cases k1'
          have : y = y' := by cases k2 <;> cases k2' <;> rfl
          subst this
          simp at hb k3
          omega
  subst hf
  exact ⟨s, hs, ha, C106_refused_small_partial Ex.d2_ci Ex.d100_ci Ex.d2_nonNeg Ex.d100_nonNeg Ex.d100_versions Ex.d2_ti
    (Ex.sym_solvable _) hz hdec hr ha
    Ex.eSmall_runtime Ex.d2_small Ex.d100_small nofun
    ((C65_accepted Ex.d2_ci Ex.d2_nonNeg _).2 Ex.eSmall_solution.1.accepted)⟩

/-- The entry with value 16, returned by a solver for the table without constraint to which the negation of `tern::value < 5` has
been added, violates this constraint (`C106_evidence_small_partial`), which is reported (`C107_entry_small_partial`). -/
example : ∃ s s' s'', SolverRun (constOracle Ex.m1) Ex.sys (Ex.symTi (Ex.symDecl [])) (fun _ => false) s [] ∧
    s.addConstraintStr (constOracle Ex.m1) Ex.sys (negated c!"tern::value < 5") = (.ok true, s') ∧
    s'.concretize (constOracle Ex.m1) = (.ok Ex.e1, s'') ∧ RuntimeEntry (Ex.symDecl []) Ex.e1 ∧
    reasonEntryViolatesConstraint Ex.e1 (Ex.symCi (Ex.symDecl [])) = .ok [] ∧
    ∃ m, m ≠ [] ∧ reasonEntryViolatesConstraint Ex.e1 (Ex.symCi Ex.d2) = .ok m ∧ TableReport Ex.sys.inetPton6 Ex.d2 Ex.e1 m := by
  have hr : SolverRun (constOracle Ex.m1) Ex.sys (Ex.symTi (Ex.symDecl [])) (fun _ => false) Ex.solverNone [] :=
    .create (Ex.get_of_isOk (by decide +kernel))
  have ha : Ex.solverNone.addConstraintStr (constOracle Ex.m1) Ex.sys (negated c!"tern::value < 5") =
      (.ok true, (Ex.solverNone.addConstraintStr (constOracle Ex.m1) Ex.sys (negated c!"tern::value < 5")).2) :=
    Ex.pair_of (by decide +kernel)
  generalize hs' : (Ex.solverNone.addConstraintStr (constOracle Ex.m1) Ex.sys (negated c!"tern::value < 5")).2 = s' at ha
  have hc : s'.concretize (constOracle Ex.m1) = (.ok Ex.e1, (s'.concretize (constOracle Ex.m1)).2) := by
    subst hs'
    exact Ex.pair_of (by decide +kernel)
  have hv : ∀ v z, KeyValue Ex.e1 ⟨2, c!"tern", .ternary 8⟩ v → FieldVal v c!"value" z → z < 128 := by
    rintro v z (⟨m, hm, hid, hd⟩ | ⟨hn, _⟩) hz
    · simp only [Ex.e1, List.mem_cons, List.not_mem_nil, or_false] at hm
      rcases hm with rfl | rfl | rfl | rfl
      · cases hid
      · cases hid
      · cases hid
      · cases hd
        cases hz
        decide +kernel
    · exact (hn ⟨2, .ternary [16] [240]⟩ (by simp [Ex.e1]) rfl).elim
  have g1 : SmallFor Ex.sys.inetPton6 (Ex.symDecl []) [] Ex.e1 := ⟨fun s ⟨vs, src, e, _, hr⟩ => (by
    cases hr with
    | some g1 => cases attached_unique Ex.moved1.free g1), nofun⟩
  have g2 : SmallFor Ex.sys.inetPton6 Ex.d2 [] Ex.e1 :=
    ⟨fun s hs => by cases (Ex.d2_says s).1 hs; exact Ex.below_small _ (by decide) (by decide) hv, nofun⟩
  have hw : NonNegProgram (Ex.symInfo (Ex.symDecl [])) := ⟨by decide +kernel, by decide +kernel⟩
  obtain ⟨h1, _, h2, _⟩ := C106_evidence_small_partial Ex.moved_ci Ex.d2_ci hw Ex.d2_nonNeg
    Ex.d2_versions Ex.moved_ti (Ex.sym_solvable _) (constOracle_sound _) hr ha hc g1 g2
  exact ⟨_, _, _, hr, ha, hc, h1, h2, (C107_entry_small_partial Ex.moved_ci Ex.d2_ci hw Ex.d2_nonNeg
    Ex.d2_versions Ex.moved_ti (Ex.sym_solvable _) (constOracle_sound _) (by decide) hr ha hc g1 g2).2.2.2⟩

end P4C
