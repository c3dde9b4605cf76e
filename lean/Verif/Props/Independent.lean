import Verif.Proofs.Independent
import Verif.Props.Obtain

/-
C96: constraints on different keys do not interfere.
-/

namespace P4C

open Spec

section
variable {sys : Sys} {p : P4Info} {ci : ConstraintInfo} (h : p4ToConstraintInfo sys p = .ok ci) {d : TableDecl}
  (hd : d ∈ p.tables) {ti : TableInfo} (hti : lookup d.preamble.id ci.tables = some ti) {skip : Str → Bool}
  (hs : Solvable d skip) {z : Z3Oracle} (hz : z.Sound) (hdec : Z3Oracle.Decides z)

include h hd hti hs hz hdec

/-- C96: a constraint on keys that neither the constraint of the table nor those accepted so far mention is accepted if and only
if some entry in canonical form satisfies it. -/
theorem C96_alone {s : Solver} {texts : List Str} (hr : SolverRun z sys ti skip s texts) {text : Str} {se : SExpr}
    (hse : TextSays sys.inetPton6 d text se) (hmen : Mentionable d skip se) (hf : Fresh sys.inetPton6 d texts se) :
    ((s.addConstraintStr z sys text).1 = .ok true ↔ ∃ entry, CanonicalFor d skip entry ∧ SignedTrueOf d entry se) ∧
    ((s.addConstraintStr z sys text).1 = .ok false ↔ ∀ entry, CanonicalFor d skip entry → ¬ SignedTrueOf d entry se) := by
  obtain ⟨a1, a2⟩ := signed_add_solves h hd hti hs hz hdec hr (text := text)
  have a3 : (s.addConstraintStr z sys text).1 = .ok true ↔ ∃ entry, CanonicalFor d skip entry ∧ SignedTrueOf d entry se := by
    rw [a2]
    constructor
    · rintro ⟨_, entry, ho⟩
      obtain ⟨se', h1, h2⟩ := ho.texts _ List.mem_cons_self
      cases textSays_unique h hd hti hse h1
      exact ⟨entry, ho.canonical, h2⟩
    · rintro ⟨a, ha, hta⟩
      obtain ⟨b, hb⟩ := run_solution h hd hti hs hz hr
      obtain ⟨entry, he, _⟩ := mixed_solution h hd hti hs (run_supported h hd hti hr) hse hf ha hta hb
      exact ⟨⟨se, hse, hmen⟩, entry, he⟩
  refine ⟨a3, ?_⟩
  obtain ⟨b, hb⟩ := a1.2 ⟨se, hse, hmen⟩
  rw [hb] at a3 ⊢
  cases b with
  | false =>
    have : ¬ ∃ entry, CanonicalFor d skip entry ∧ SignedTrueOf d entry se := fun hx => by cases a3.2 hx
    simpa using this
  | true =>
    obtain ⟨o, h4, h5⟩ := a3.1 rfl
    simp only [Res.ok.injEq, Bool.true_eq_false, false_iff]
    exact fun hx => hx o h4 h5

/-- C96: so what was accepted about other keys does not matter for the answer. -/
theorem C96_same {z' : Z3Oracle} (hz' : z'.Sound) (hdec' : Z3Oracle.Decides z') {s s' : Solver} {texts texts' : List Str}
    (hr : SolverRun z sys ti skip s texts) (hr' : SolverRun z' sys ti skip s' texts') {text : Str}
    (hf : ∀ se, TextSays sys.inetPton6 d text se → Fresh sys.inetPton6 d texts se ∧ Fresh sys.inetPton6 d texts' se) :
    (s.addConstraintStr z sys text).1 = (s'.addConstraintStr z' sys text).1 := by
  rcases run_same h hd hti hz hdec hz' hdec' hr hr' text with heq | ⟨⟨b, hb⟩, b', hb'⟩
  · exact heq
  · obtain ⟨se, h1, h2⟩ := (signed_add_solves h hd hti hs hz hdec hr).1.1 ⟨b, hb⟩
    obtain ⟨f1, f2⟩ := hf se h1
    have h3 := C96_alone h hd hti hs hz hdec hr h1 h2 f1
    have h4 := C96_alone h hd hti hs hz' hdec' hr' h1 h2 f2
    have h5 := h3.1.trans h4.1.symm
    rw [hb, hb'] at h5 ⊢
    cases b <;> cases b' <;> simp_all

/-- C96: afterwards, every combination can be obtained of an entry that satisfies the new constraint and an entry that satisfies
the others. -/
theorem C96_combine (hn : KeysNameable d skip) (hip : Z3Oracle.InterpretsPriority z) {s s' : Solver} {texts : List Str}
    (hr : SolverRun z sys ti skip s texts) {text : Str} {se : SExpr} (hse : TextSays sys.inetPton6 d text se)
    (hf : Fresh sys.inetPton6 d texts se) (hadd : s.addConstraintStr z sys text = (.ok true, s')) {a b : RtEntry}
    (ha : CanonicalFor d skip a) (hta : SignedTrueOf d a se) (hb : SignedSolution sys.inetPton6 d skip texts b) :
    ∃ entry more, Mixed d se a b entry ∧ Obtains z sys s' more entry := by
  obtain ⟨entry, he, hm⟩ := mixed_solution h hd hti hs (run_supported h hd hti hr) hse hf ha hta hb
  obtain ⟨more, ho⟩ := (C95_exactly h hd hti hs hz hdec hn hip (.accepted hr hadd)).2 he
  exact ⟨entry, more, hm, ho⟩

end

/-! ### Example: a table with the constraint `tern::value < 5` -/

theorem Ex.solve_ci2 : p4ToConstraintInfo Ex.sys (Ex.symInfo Ex.d2) = .ok (Ex.symCi Ex.d2) := Ex.get_of_isOk (by decide +kernel)

theorem Ex.solve_ti2 : lookup Ex.d2.preamble.id (Ex.symCi Ex.d2).tables = some (Ex.symTi Ex.d2) := by decide +kernel

theorem Ex.solvable2 : Solvable Ex.d2 fun _ => false :=
  ⟨fun _ _ _ _ h => (by cases h), by decide +kernel, by decide +kernel, by decide +kernel⟩

/-- A constraint on other keys, and what it says. -/
def Ex.otherText : Str := c!"opt::value == 3 -> ::priority > 100"

def Ex.otherSe : SExpr := .conn .implies (.cmp .eq (.field (.key c!"opt") c!"value") (.int 3))
  (.cmp .gt (.attr c!"priority") (.int 100))

theorem Ex.other_says {se : SExpr} (hse : TextSays Ex.sys.inetPton6 Ex.d2 Ex.otherText se) : se = Ex.otherSe := by
  have hpi := declared_parse Ex.solve_ci2 (List.mem_singleton.2 rfl) Ex.solve_ti2
  obtain ⟨vs', hk', _, hmaps, _⟩ := parseTableInfo_parts hpi
  obtain ⟨e, c, h1, _, _, h2⟩ := (textSays_iff hpi hk' hmaps).1 hse
  have : (match parseConstraint Ex.sys .table ⟨Ex.otherText, { src := .tableName (Ex.symTi Ex.d2).name }⟩ with
      | .ok e => decide (abs e = some Ex.otherSe)
      | _ => false) = true := by decide +kernel
  rw [h1] at this
  dsimp only at this
  rw [h2] at this
  simpa using this

theorem Ex.table_says2 {se : SExpr} (h : TableSays Ex.sys.inetPton6 Ex.d2 se) : se = Ex.s2' := by
  obtain ⟨vs, src, e, hk, hread⟩ := h
  obtain ⟨_, _, hc, hch, _⟩ := Ex.sym_of_ok Ex.d2_ok
  obtain ⟨vs', e', se', r⟩ := table_read (declared_parse Ex.solve_ci2 (List.mem_singleton.2 rfl) Ex.solve_ti2) hc
  cases keys_same hk r.keys
  have hu := readConstraint_unique r.read hread
  simp only [Option.some.injEq, Prod.mk.injEq] at hu
  obtain ⟨rfl, rfl, rfl, _⟩ := hu
  exact (checked_unique hch ⟨_, e', r.typed, r.meant⟩).symm

theorem Ex.other_fresh : Fresh Ex.sys.inetPton6 Ex.d2 [] Ex.otherSe := by
  refine ⟨fun u hu => ?_, nofun⟩
  cases Ex.table_says2 hu
  constructor
  · rintro n ⟨h1, h2⟩
    simp only [AboutKey, Ex.otherSe, Ex.s2', or_false] at h1 h2
    rw [← h1] at h2
    revert h2
    decide
  · rintro ⟨_, h2⟩
    simp [AboutPriority, Ex.s2'] at h2

theorem Ex.other_mentionable : Mentionable Ex.d2 (fun _ => false) Ex.otherSe := by
  refine ⟨Ex.solveKeys, .cons (.exact ..) (.cons (.ternary ..) (.cons (.lpm ..) (.cons (.optional ..) .nil))), ?_⟩
  simp [NamesIn, Ex.otherSe, Ex.solveKeys]
  exact ⟨⟨2, c!"tern", .ternary 8⟩, by decide, 8, .inl rfl⟩

theorem Ex.other_entry : TextSays Ex.sys.inetPton6 Ex.d2 Ex.otherText Ex.otherSe ∧
    ∃ entry, CanonicalFor Ex.d2 (fun _ => false) entry ∧ SignedTrueOf Ex.d2 entry Ex.otherSe := by
  have hr2 : SolverRun (constOracle Ex.m2) Ex.sys (Ex.symTi Ex.d2) (fun _ => false) Ex.solver2 [] :=
    .create (Ex.get_of_isOk (by decide +kernel))
  have hadd : (Ex.solver2.addConstraintStr (constOracle Ex.m2) Ex.sys Ex.otherText).1 = .ok true := by decide +kernel
  generalize hx : Ex.solver2.addConstraintStr (constOracle Ex.m2) Ex.sys Ex.otherText = x at hadd
  obtain ⟨r, s2⟩ := x
  cases hadd
  obtain ⟨entry, he⟩ := run_solution Ex.solve_ci2 (List.mem_singleton.2 rfl) Ex.solve_ti2 Ex.solvable2 (constOracle_sound _)
    (.accepted hr2 hx)
  obtain ⟨se, h1, h2⟩ := he.texts _ (List.mem_singleton.2 rfl)
  cases Ex.other_says h1
  exact ⟨h1, entry, he.canonical, h2⟩

/-- The constraint is independent of that of the table, and has a solution; so every solver accepts it. -/
theorem Ex.other_accepted {z : Z3Oracle} (hz : z.Sound) (hdec : Z3Oracle.Decides z) {s : Solver}
    (hr : SolverRun z Ex.sys (Ex.symTi Ex.d2) (fun _ => false) s []) : (s.addConstraintStr z Ex.sys Ex.otherText).1 = .ok true :=
  ((C96_alone Ex.solve_ci2 (List.mem_singleton.2 rfl) Ex.solve_ti2 Ex.solvable2 hz hdec hr Ex.other_entry.1 Ex.other_mentionable
    Ex.other_fresh).1).2 Ex.other_entry.2

/-- All solvers, whatever else they have answered, give the same answer. -/
example {z z' : Z3Oracle} (hz : z.Sound) (hdec : Z3Oracle.Decides z) (hz' : z'.Sound) (hdec' : Z3Oracle.Decides z') {s s' : Solver}
    (hr : SolverRun z Ex.sys (Ex.symTi Ex.d2) (fun _ => false) s [])
    (hr' : SolverRun z' Ex.sys (Ex.symTi Ex.d2) (fun _ => false) s' []) :
    (s.addConstraintStr z Ex.sys Ex.otherText).1 = (s'.addConstraintStr z' Ex.sys Ex.otherText).1 :=
  C96_same Ex.solve_ci2 (List.mem_singleton.2 rfl) Ex.solve_ti2 Ex.solvable2 hz hdec hz' hdec' hr hr' fun se hse => by
    cases Ex.other_says hse
    exact ⟨Ex.other_fresh, Ex.other_fresh⟩

/-- There is such a solver, and after it has accepted the constraint it can be made to return an entry that is like `a` in `opt`
and in the priority, and like `Ex.e2` otherwise. -/
example : ∃ s a entry more, SignedTrueOf Ex.d2 a Ex.otherSe ∧ Mixed Ex.d2 Ex.otherSe a Ex.e2 entry ∧
    Obtains Ex.perfect Ex.sys s more entry := by
  have hd : Ex.d2 ∈ (Ex.symInfo Ex.d2).tables := List.mem_singleton.2 rfl
  have hkeys : Each KeyDecl Ex.d2.matchFields Ex.solveKeys :=
    .cons (.exact ..) (.cons (.ternary ..) (.cons (.lpm ..) (.cons (.optional ..) .nil)))
  have hsol : SignedSolution Ex.sys.inetPton6 Ex.d2 (fun _ => false) [] Ex.e2 :=
    (C72_entry_exact Ex.solve_ci2 hd Ex.solve_ti2 Ex.solvable2 (constOracle_sound _)
      (.create (Ex.get_of_isOk (by decide +kernel))) (Prod.ext Ex.concretize2 rfl)).1
  obtain ⟨s, hs⟩ := (C72_create_exact Ex.solve_ci2 hd Ex.solve_ti2 Ex.solvable2 Ex.perfect_sound Ex.perfect_decides).2
    ⟨fun vs hk ki hki => by
      cases keys_same hk hkeys
      right
      simp only [Ex.solveKeys, List.mem_cons, List.not_mem_nil, or_false] at hki
      rcases hki with rfl | rfl | rfl | rfl
      · exact .exact (by decide)
      · exact .ternary (by decide)
      · exact .lpm (by decide)
      · exact .optional (by decide), fun se hse => by
      cases Ex.table_says2 hse
      exact ⟨_, hkeys, by simp [NamesIn, Ex.s2', Ex.solveKeys]⟩, _, hsol⟩
  have hr : SolverRun Ex.perfect Ex.sys (Ex.symTi Ex.d2) (fun _ => false) s [] := .create hs
  have hadd := Ex.other_accepted Ex.perfect_sound Ex.perfect_decides hr
  generalize hx : s.addConstraintStr Ex.perfect Ex.sys Ex.otherText = x at hadd
  obtain ⟨r, s'⟩ := x
  cases hadd
  obtain ⟨hsay, a, ha, hta⟩ := Ex.other_entry
  obtain ⟨entry, more, h1, h2⟩ := C96_combine Ex.solve_ci2 hd Ex.solve_ti2 Ex.solvable2 Ex.perfect_sound Ex.perfect_decides
    (fun f hf hsk => Ex.keysNameable1 f hf hsk) Ex.perfect_priority hr hsay Ex.other_fresh hx ha hta hsol
  exact ⟨s', a, entry, more, hta, h1, h2⟩

end P4C
