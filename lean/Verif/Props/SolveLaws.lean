import Verif.Proofs.SolveLaws
import Verif.Props.Solve
import Verif.Props.Compose
import Verif.Props.SymExamples

/-
C79: adding constraints to a solver obeys the laws of logic.
-/

namespace P4C

open Spec

section
variable {sys : Sys} {p : P4Info} {ci : ConstraintInfo} (h : p4ToConstraintInfo sys p = .ok ci) {d : TableDecl}
  (hd : d ∈ p.tables) {ti : TableInfo} (hti : lookup d.preamble.id ci.tables = some ti) {skip : Str → Bool}
  (hs : Solvable d skip) {z : Z3Oracle} (hz : z.Sound) (hdec : Z3Oracle.Decides z)

include h hd hti hs hz hdec

/-- C79: only what was accepted matters. Two solvers for a table, with whatever history and using whatever versions of Z3, that
have accepted the same constraints give the same answer to every further text, also if it is an error. -/
theorem C79_history {z' : Z3Oracle} (hz' : z'.Sound) (hdec' : Z3Oracle.Decides z') {s s' : Solver} {texts texts' : List Str}
    (hr : SolverRun z sys ti skip s texts) (hr' : SolverRun z' sys ti skip s' texts')
    (hsame : ∀ t, t ∈ texts ↔ t ∈ texts') (text : Str) :
    (s.addConstraintStr z sys text).1 = (s'.addConstraintStr z' sys text).1 := by
  rcases run_same h hd hti hz hdec hz' hdec' hr hr' text with heq | ⟨⟨b, hb⟩, b', hb'⟩
  · exact heq
  · have h1 := (signed_add_solves h hd hti hs hz hdec hr (text := text)).2
    have h2 := (signed_add_solves h hd hti hs hz' hdec' hr' (text := text)).2
    have h3 : (s.addConstraintStr z sys text).1 = .ok true ↔ (s'.addConstraintStr z' sys text).1 = .ok true := by
      rw [h1, h2]
      refine and_congr_right fun _ => ⟨?_, ?_⟩
      · exact fun ⟨e, he⟩ => ⟨e, signedSolution_mono (by simp only [List.mem_cons]; grind) he⟩
      · exact fun ⟨e, he⟩ => ⟨e, signedSolution_mono (by simp only [List.mem_cons]; grind) he⟩
    rw [hb, hb'] at h3 ⊢
    cases b <;> cases b' <;> simp_all

/-- C79: what is accepted would have been accepted with fewer constraints as well; in other words, what is rejected stays
rejected. -/
theorem C79_monotone {z' : Z3Oracle} (hz' : z'.Sound) (hdec' : Z3Oracle.Decides z') {s s' : Solver} {texts texts' : List Str}
    (hr : SolverRun z sys ti skip s texts) (hr' : SolverRun z' sys ti skip s' texts')
    (hsub : ∀ t ∈ texts, t ∈ texts') (text : Str) (ha : (s'.addConstraintStr z' sys text).1 = .ok true) :
    (s.addConstraintStr z sys text).1 = .ok true := by
  obtain ⟨h1, e, h2⟩ := (signed_add_solves h hd hti hs hz' hdec' hr' (text := text)).2.1 ha
  exact (signed_add_solves h hd hti hs hz hdec hr).2.2
    ⟨h1, e, signedSolution_mono (by simp only [List.mem_cons]; grind) h2⟩

/-- C79: the order in which constraints are added, and how often, does not matter for whether all of them are accepted. -/
theorem C79_order {s : Solver} {texts : List Str} (hr : SolverRun z sys ti skip s texts) {ts ts' : List Str}
    (hsame : ∀ t, t ∈ ts ↔ t ∈ ts') : AllAccepted z sys s ts ↔ AllAccepted z sys s ts' := by
  rw [allAccepted_iff h hd hti hs hz hdec hr, allAccepted_iff h hd hti hs hz hdec hr]
  refine and_congr ⟨fun h t ht => h t ((hsame t).2 ht), fun h t ht => h t ((hsame t).1 ht)⟩ ⟨?_, ?_⟩
  · exact fun ⟨e, he⟩ => ⟨e, signedSolution_mono (by simp only [List.mem_append]; grind) he⟩
  · exact fun ⟨e, he⟩ => ⟨e, signedSolution_mono (by simp only [List.mem_append]; grind) he⟩

theorem says_of_ok {s : Solver} {texts : List Str} (hr : SolverRun z sys ti skip s texts) {a : Str} {u : Bool}
    (ha : (s.addConstraintStr z sys a).1 = .ok u) : ∃ se, TextSays sys.inetPton6 d a se ∧ Mentionable d skip se :=
  (signed_add_solves h hd hti hs hz hdec hr).1.1 ⟨u, ha⟩

theorem says_of_mem {s : Solver} {texts : List Str} (hr : SolverRun z sys ti skip s texts) :
    ∀ {a : Str}, a ∈ texts → ∃ se, TextSays sys.inetPton6 d a se ∧ Mentionable d skip se := by
  induction hr with
  | create => simp
  | accepted hr ha ih =>
    intro a hm
    rcases List.mem_cons.1 hm with rfl | hm
    · exact says_of_ok h hd hti hs hz hdec hr (congrArg Prod.fst ha)
    · exact ih hm
  | rejected _ _ _ ih => exact ih
  | concretize _ _ ih => exact ih

/-- C79: adding a constraint again has no effect. -/
theorem C79_again {s : Solver} {texts : List Str} (hr : SolverRun z sys ti skip s texts) {a : Str} (ha : a ∈ texts) :
    (s.addConstraintStr z sys a).1 = .ok true := by
  obtain ⟨e, he⟩ := run_solution h hd hti hs hz hr
  exact (signed_add_solves h hd hti hs hz hdec hr).2.2
    ⟨says_of_mem h hd hti hs hz hdec hr ha, e, signedSolution_mono (by simp only [List.mem_cons]; grind) he⟩

/-- C79: the negation of a constraint that was accepted is rejected. -/
theorem C79_contradiction {s : Solver} {texts : List Str} (hr : SolverRun z sys ti skip s texts) {a : Str} (ha : a ∈ texts)
    (hc : Closed a) : (s.addConstraintStr z sys (negated a)).1 = .ok false := by
  obtain ⟨se, h1, h2⟩ := says_of_mem h hd hti hs hz hdec hr ha
  have h3 := negated_says h hd hti h1 hc
  obtain ⟨h4, h5⟩ := signed_add_solves h hd hti hs hz hdec hr (text := negated a)
  obtain ⟨b, hb⟩ := h4.2 ⟨_, h3, h2⟩
  cases b with
  | false => exact hb
  | true =>
    obtain ⟨_, e, he⟩ := h5.1 hb
    obtain ⟨se1, g1, g2⟩ := he.texts (negated a) (by simp)
    obtain ⟨se2, g3, g4⟩ := he.texts a (by simp [ha])
    cases textSays_unique h hd hti g1 h3
    cases textSays_unique h hd hti g3 h1
    exact ((signed_not h hd hti hs hr h1 h2 he.canonical).1 g2 g4).elim

/-- C79: if a constraint is rejected, its negation is accepted. -/
theorem C79_excluded_middle {s : Solver} {texts : List Str} (hr : SolverRun z sys ti skip s texts) {a : Str} (hc : Closed a)
    (ha : (s.addConstraintStr z sys a).1 = .ok false) : (s.addConstraintStr z sys (negated a)).1 = .ok true := by
  obtain ⟨se, h1, h2⟩ := says_of_ok h hd hti hs hz hdec hr ha
  have h3 := negated_says h hd hti h1 hc
  obtain ⟨e, he⟩ := run_solution h hd hti hs hz hr
  refine (signed_add_solves h hd hti hs hz hdec hr).2.2 ⟨⟨_, h3, h2⟩, e, he.canonical, he.table, ?_⟩
  refine List.forall_mem_cons.2 ⟨⟨_, h3, (signed_not h hd hti hs hr h1 h2 he.canonical).2 fun ht => ?_⟩, he.texts⟩
  have := (signed_add_solves h hd hti hs hz hdec hr (text := a)).2.2
    ⟨⟨se, h1, h2⟩, e, he.canonical, he.table, List.forall_mem_cons.2 ⟨⟨se, h1, ht⟩, he.texts⟩⟩
  rw [ha] at this
  cases this

/-- C79: if the negation of a constraint is rejected, the constraint says nothing new: it is accepted, and the answers to
further texts are the same with and without it. -/
theorem C79_redundant {s s' : Solver} {texts : List Str} (hr : SolverRun z sys ti skip s texts) {a : Str} {u : Bool}
    (hc : Closed a) (ha : s.addConstraintStr z sys a = (.ok u, s'))
    (hn : (s.addConstraintStr z sys (negated a)).1 = .ok false) :
    u = true ∧ ∀ text, (s'.addConstraintStr z sys text).1 = (s.addConstraintStr z sys text).1 := by
  obtain ⟨se, h1, h2⟩ := says_of_ok h hd hti hs hz hdec hr (congrArg Prod.fst ha)
  have hu : u = true := by
    cases u with
    | true => rfl
    | false =>
      rw [C79_excluded_middle h hd hti hs hz hdec hr hc (congrArg Prod.fst ha)] at hn
      cases hn
  subst hu
  refine ⟨rfl, fun text => ?_⟩
  have hr' := hr.accepted ha
  have h3 := negated_says h hd hti h1 hc
  have hall : ∀ e, SignedSolution sys.inetPton6 d skip texts e → SignedTrueOf d e se := by
    intro e he
    refine Classical.byContradiction fun hx => ?_
    have := (signed_add_solves h hd hti hs hz hdec hr (text := negated a)).2.2
      ⟨⟨_, h3, h2⟩, e, he.canonical, he.table,
        List.forall_mem_cons.2 ⟨⟨_, h3, (signed_not h hd hti hs hr h1 h2 he.canonical).2 hx⟩, he.texts⟩⟩
    rw [hn] at this
    cases this
  rcases run_same h hd hti hz hdec hz hdec hr' hr text with heq | ⟨⟨b, hb⟩, b', hb'⟩
  · exact heq
  · have g1 := (signed_add_solves h hd hti hs hz hdec hr' (text := text)).2
    have g2 := (signed_add_solves h hd hti hs hz hdec hr (text := text)).2
    have g3 : (s'.addConstraintStr z sys text).1 = .ok true ↔ (s.addConstraintStr z sys text).1 = .ok true := by
      rw [g1, g2]
      refine and_congr_right fun _ => ⟨?_, ?_⟩
      · exact fun ⟨e, he⟩ => ⟨e, signedSolution_mono (by simp only [List.mem_cons]; grind) he⟩
      · rintro ⟨e, he⟩
        obtain ⟨f1, f2⟩ := List.forall_mem_cons.1 he.texts
        refine ⟨e, he.canonical, he.table, List.forall_mem_cons.2 ⟨f1, List.forall_mem_cons.2 ⟨⟨se, h1, ?_⟩, f2⟩⟩⟩
        exact hall e ⟨he.canonical, he.table, f2⟩
    rw [hb, hb'] at g3 ⊢
    cases b <;> cases b' <;> simp_all

/-- C79: adding a conjunction is like adding its parts one after the other. -/
theorem C79_and {s : Solver} {texts : List Str} (hr : SolverRun z sys ti skip s texts) {a b : Str} {u w : Bool}
    (hca : Closed a) (hcb : Closed b) (ha : (s.addConstraintStr z sys a).1 = .ok u)
    (hb : (s.addConstraintStr z sys b).1 = .ok w) :
    ∃ r, (s.addConstraintStr z sys (joined .and a b)).1 = .ok r ∧ (r = true ↔ AllAccepted z sys s [a, b]) := by
  obtain ⟨sa, a1, a2⟩ := says_of_ok h hd hti hs hz hdec hr ha
  obtain ⟨sb, b1, b2⟩ := says_of_ok h hd hti hs hz hdec hr hb
  have hj := joined_says h hd hti (o := .and) a1 b1 hca hcb
  have hm : Mentionable d skip (.conn .and sa sb) := mentionable_conn.2 ⟨a2, b2⟩
  obtain ⟨h1, h2⟩ := signed_add_solves h hd hti hs hz hdec hr (text := joined .and a b)
  obtain ⟨r, h3⟩ := h1.2 ⟨_, hj, hm⟩
  refine ⟨r, h3, ?_⟩
  have h4 : r = true ↔ (s.addConstraintStr z sys (joined .and a b)).1 = .ok true := by rw [h3]; simp
  rw [h4, h2, allAccepted_iff h hd hti hs hz hdec hr]
  constructor
  · rintro ⟨_, e, he⟩
    obtain ⟨⟨se, f1, f2⟩, f3⟩ := List.forall_mem_cons.1 he.texts
    cases textSays_unique h hd hti f1 hj
    obtain ⟨g1, g2⟩ := (signed_conn h hd hti hs hr a1 a2 b1 b2 he.canonical .and).1 f2
    refine ⟨by simpa using ⟨⟨sa, a1, a2⟩, sb, b1, b2⟩, e, he.canonical, he.table, ?_⟩
    exact List.forall_mem_cons.2 ⟨⟨sa, a1, g1⟩, List.forall_mem_cons.2 ⟨⟨sb, b1, g2⟩, f3⟩⟩
  · rintro ⟨_, e, he⟩
    obtain ⟨⟨se, f1, f2⟩, f3⟩ := List.forall_mem_cons.1 he.texts
    obtain ⟨⟨se', f4, f5⟩, f6⟩ := List.forall_mem_cons.1 f3
    cases textSays_unique h hd hti f1 a1
    cases textSays_unique h hd hti f4 b1
    exact ⟨⟨_, hj, hm⟩, e, he.canonical, he.table, List.forall_mem_cons.2
      ⟨⟨_, hj, (signed_conn h hd hti hs hr a1 a2 b1 b2 he.canonical .and).2 ⟨f2, f5⟩⟩, f6⟩⟩

/-- C79: a disjunction is accepted if and only if one of its parts is. -/
theorem C79_or {s : Solver} {texts : List Str} (hr : SolverRun z sys ti skip s texts) {a b : Str} {u w : Bool}
    (hca : Closed a) (hcb : Closed b) (ha : (s.addConstraintStr z sys a).1 = .ok u)
    (hb : (s.addConstraintStr z sys b).1 = .ok w) :
    (s.addConstraintStr z sys (joined .or a b)).1 = .ok (u || w) := by
  obtain ⟨sa, a1, a2⟩ := says_of_ok h hd hti hs hz hdec hr ha
  obtain ⟨sb, b1, b2⟩ := says_of_ok h hd hti hs hz hdec hr hb
  have hj := joined_says h hd hti (o := .or) a1 b1 hca hcb
  have hm : Mentionable d skip (.conn .or sa sb) := mentionable_conn.2 ⟨a2, b2⟩
  obtain ⟨h1, h2⟩ := signed_add_solves h hd hti hs hz hdec hr (text := joined .or a b)
  have xa := (signed_add_solves h hd hti hs hz hdec hr (text := a)).2
  have xb := (signed_add_solves h hd hti hs hz hdec hr (text := b)).2
  obtain ⟨r, h3⟩ := h1.2 ⟨_, hj, hm⟩
  rw [h3]
  refine congrArg Res.ok (Bool.eq_iff_iff.2 (Iff.symm ?_))
  have h4 : r = true ↔ (s.addConstraintStr z sys (joined .or a b)).1 = .ok true := by rw [h3]; simp
  have h5 : (u || w) = true ↔ (s.addConstraintStr z sys a).1 = .ok true ∨ (s.addConstraintStr z sys b).1 = .ok true := by
    rw [ha, hb]; simp
  rw [h4, h5, h2, xa, xb]
  constructor
  · rintro (⟨_, e, he⟩ | ⟨_, e, he⟩)
    · obtain ⟨⟨se, f1, f2⟩, f3⟩ := List.forall_mem_cons.1 he.texts
      cases textSays_unique h hd hti f1 a1
      exact ⟨⟨_, hj, hm⟩, e, he.canonical, he.table, List.forall_mem_cons.2
        ⟨⟨_, hj, (signed_conn h hd hti hs hr a1 a2 b1 b2 he.canonical .or).2 (.inl f2)⟩, f3⟩⟩
    · obtain ⟨⟨se, f1, f2⟩, f3⟩ := List.forall_mem_cons.1 he.texts
      cases textSays_unique h hd hti f1 b1
      exact ⟨⟨_, hj, hm⟩, e, he.canonical, he.table, List.forall_mem_cons.2
        ⟨⟨_, hj, (signed_conn h hd hti hs hr a1 a2 b1 b2 he.canonical .or).2 (.inr f2)⟩, f3⟩⟩
  · rintro ⟨_, e, he⟩
    obtain ⟨⟨se, f1, f2⟩, f3⟩ := List.forall_mem_cons.1 he.texts
    cases textSays_unique h hd hti f1 hj
    rcases (signed_conn h hd hti hs hr a1 a2 b1 b2 he.canonical .or).1 f2 with g | g
    · exact .inl ⟨⟨sa, a1, a2⟩, e, he.canonical, he.table, List.forall_mem_cons.2 ⟨⟨sa, a1, g⟩, f3⟩⟩
    · exact .inr ⟨⟨sb, b1, b2⟩, e, he.canonical, he.table, List.forall_mem_cons.2 ⟨⟨sb, b1, g⟩, f3⟩⟩

/-- C79: an implication is accepted if and only if its conclusion or the negation of its premise is. -/
theorem C79_implies {s : Solver} {texts : List Str} (hr : SolverRun z sys ti skip s texts) {a b : Str} {u w : Bool}
    (hca : Closed a) (hcb : Closed b) (ha : (s.addConstraintStr z sys (negated a)).1 = .ok u)
    (hua : ∃ v, (s.addConstraintStr z sys a).1 = .ok v) (hb : (s.addConstraintStr z sys b).1 = .ok w) :
    (s.addConstraintStr z sys (joined .implies a b)).1 = .ok (u || w) := by
  obtain ⟨v, hv⟩ := hua
  obtain ⟨sa, a1, a2⟩ := says_of_ok h hd hti hs hz hdec hr hv
  obtain ⟨sb, b1, b2⟩ := says_of_ok h hd hti hs hz hdec hr hb
  have hn := negated_says h hd hti a1 hca
  have hj := joined_says h hd hti (o := .implies) a1 b1 hca hcb
  have hm : Mentionable d skip (.conn .implies sa sb) := mentionable_conn.2 ⟨a2, b2⟩
  obtain ⟨h1, h2⟩ := signed_add_solves h hd hti hs hz hdec hr (text := joined .implies a b)
  have xa := (signed_add_solves h hd hti hs hz hdec hr (text := negated a)).2
  have xb := (signed_add_solves h hd hti hs hz hdec hr (text := b)).2
  obtain ⟨r, h3⟩ := h1.2 ⟨_, hj, hm⟩
  rw [h3]
  refine congrArg Res.ok (Bool.eq_iff_iff.2 (Iff.symm ?_))
  have h4 : r = true ↔ (s.addConstraintStr z sys (joined .implies a b)).1 = .ok true := by rw [h3]; simp
  have h5 : (u || w) = true ↔
      (s.addConstraintStr z sys (negated a)).1 = .ok true ∨ (s.addConstraintStr z sys b).1 = .ok true := by
    rw [ha, hb]; simp
  rw [h4, h5, h2, xa, xb]
  constructor
  · rintro (⟨_, e, he⟩ | ⟨_, e, he⟩)
    · obtain ⟨⟨se, f1, f2⟩, f3⟩ := List.forall_mem_cons.1 he.texts
      cases textSays_unique h hd hti f1 hn
      exact ⟨⟨_, hj, hm⟩, e, he.canonical, he.table, List.forall_mem_cons.2
        ⟨⟨_, hj, (signed_conn h hd hti hs hr a1 a2 b1 b2 he.canonical .implies).2 fun g =>
          ((signed_not h hd hti hs hr a1 a2 he.canonical).1 f2 g).elim⟩, f3⟩⟩
    · obtain ⟨⟨se, f1, f2⟩, f3⟩ := List.forall_mem_cons.1 he.texts
      cases textSays_unique h hd hti f1 b1
      exact ⟨⟨_, hj, hm⟩, e, he.canonical, he.table, List.forall_mem_cons.2
        ⟨⟨_, hj, (signed_conn h hd hti hs hr a1 a2 b1 b2 he.canonical .implies).2 fun _ => f2⟩, f3⟩⟩
  · rintro ⟨_, e, he⟩
    obtain ⟨⟨se, f1, f2⟩, f3⟩ := List.forall_mem_cons.1 he.texts
    cases textSays_unique h hd hti f1 hj
    have g := (signed_conn h hd hti hs hr a1 a2 b1 b2 he.canonical .implies).1 f2
    by_cases ga : SignedTrueOf d e sa
    · exact .inr ⟨⟨sb, b1, b2⟩, e, he.canonical, he.table, List.forall_mem_cons.2 ⟨⟨sb, b1, g ga⟩, f3⟩⟩
    · exact .inl ⟨⟨_, hn, a2⟩, e, he.canonical, he.table, List.forall_mem_cons.2
        ⟨⟨_, hn, (signed_not h hd hti hs hr a1 a2 he.canonical).2 ga⟩, f3⟩⟩

end

/-! ### Example: the constraint `Ex.solveText` on the table `Ex.d1` -/

theorem Ex.solve_run {z : Z3Oracle} (hz : z.Sound) (hdec : Z3Oracle.Decides z) :
    ∃ s, SolverRun z Ex.sys (Ex.symTi Ex.d1) (fun _ => false) s [Ex.solveText] := by
  obtain ⟨s, h1, h2⟩ := Ex.solve_accepted hz hdec
  have h3 : SolverRun z Ex.sys (Ex.symTi Ex.d1) (fun _ => false) s [] := .create h1
  generalize hx : s.addConstraintStr z Ex.sys Ex.solveText = x at h2
  obtain ⟨r, s'⟩ := x
  cases h2
  exact ⟨s', .accepted h3 hx⟩

theorem Ex.solve_closed : Closed Ex.solveText := by
  have h : Ex.isOk (parseConstraint Ex.sys .table ⟨Ex.solveText, { src := .tableName [] }⟩) = true := by decide +kernel
  exact parsed_closed (Ex.get_of_isOk (d := .boolConst {} true) h) (Ex.notInfix (by decide +kernel))

/-- Once `tern::mask == 0xf0; pre::value != 7` has been accepted, it is accepted again, its negation is rejected, and of an
implication with this premise only the conclusion matters. -/
example {z : Z3Oracle} (hz : z.Sound) (hdec : Z3Oracle.Decides z) :
    ∃ s, SolverRun z Ex.sys (Ex.symTi Ex.d1) (fun _ => false) s [Ex.solveText] ∧
      (s.addConstraintStr z Ex.sys Ex.solveText).1 = .ok true ∧
      (s.addConstraintStr z Ex.sys (negated Ex.solveText)).1 = .ok false ∧
      ∀ b w, Closed b → (s.addConstraintStr z Ex.sys b).1 = .ok w →
        (s.addConstraintStr z Ex.sys (joined .implies Ex.solveText b)).1 = .ok w := by
  have hd : Ex.d1 ∈ (Ex.symInfo Ex.d1).tables := List.mem_singleton.2 rfl
  obtain ⟨s, hr⟩ := Ex.solve_run hz hdec
  have h1 := C79_again Ex.solve_ci hd Ex.solve_ti Ex.solvable1 hz hdec hr (List.mem_singleton.2 rfl)
  have h2 := C79_contradiction Ex.solve_ci hd Ex.solve_ti Ex.solvable1 hz hdec hr (List.mem_singleton.2 rfl) Ex.solve_closed
  exact ⟨s, hr, h1, h2, fun b w hb hw =>
    C79_implies Ex.solve_ci hd Ex.solve_ti Ex.solvable1 hz hdec hr Ex.solve_closed hb h2 ⟨_, h1⟩ hw⟩

/-- Its double negation is accepted, too, and adding it again changes no answer. -/
example {z : Z3Oracle} (hz : z.Sound) (hdec : Z3Oracle.Decides z) :
    ∃ s s', SolverRun z Ex.sys (Ex.symTi Ex.d1) (fun _ => false) s [Ex.solveText] ∧
      (s.addConstraintStr z Ex.sys (negated (negated Ex.solveText))).1 = .ok true ∧
      s.addConstraintStr z Ex.sys Ex.solveText = (.ok true, s') ∧
      ∀ text, (s'.addConstraintStr z Ex.sys text).1 = (s.addConstraintStr z Ex.sys text).1 := by
  have hd : Ex.d1 ∈ (Ex.symInfo Ex.d1).tables := List.mem_singleton.2 rfl
  have h : Ex.isOk (parseConstraint Ex.sys .table ⟨negated Ex.solveText, { src := .tableName [] }⟩) = true := by
    decide +kernel
  have hc := parsed_closed (Ex.get_of_isOk (d := .boolConst {} true) h) (Ex.notInfix (by decide +kernel))
  obtain ⟨s, hr⟩ := Ex.solve_run hz hdec
  have h1 := C79_contradiction Ex.solve_ci hd Ex.solve_ti Ex.solvable1 hz hdec hr (List.mem_singleton.2 rfl) Ex.solve_closed
  have h2 := C79_excluded_middle Ex.solve_ci hd Ex.solve_ti Ex.solvable1 hz hdec hr hc h1
  have h3 := C79_again Ex.solve_ci hd Ex.solve_ti Ex.solvable1 hz hdec hr (List.mem_singleton.2 rfl)
  generalize hx : s.addConstraintStr z Ex.sys Ex.solveText = x at h3
  obtain ⟨r, s'⟩ := x
  dsimp only at h3
  subst h3
  exact ⟨s, s', hr, h2, hx, (C79_redundant Ex.solve_ci hd Ex.solve_ti Ex.solvable1 hz hdec hr Ex.solve_closed hx h1).2⟩

/-- There are such oracles. -/
example : ∃ s, SolverRun Ex.perfect Ex.sys (Ex.symTi Ex.d1) (fun _ => false) s [Ex.solveText] :=
  Ex.solve_run Ex.perfect_sound Ex.perfect_decides

end P4C
