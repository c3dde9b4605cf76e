import Verif.Proofs.SymFault2
import Verif.Props.SymbolicEx
import Verif.Props.Diagnosis

/-
C71: what the constraint solver reports.
-/

namespace P4C

open Spec

/-- C71, creating a solver: it reports what `CreateFault` says, or Z3 stops the process as `CreateCrash` says, or it succeeds.
Missing: that it never crashes, see `C71_crash`; negative key widths; keys whose names clash or that must not be omitted. -/
theorem C71_create_partial {z : Z3Oracle} (x : SymTexts) {ti : TableInfo} {skip : Str → MRes Bool} (hz : z.Sound)
    (hdec : Z3Oracle.Decides z) (hwf : TableWF ti) (hd : NamesDistinct ti) (ho : Omittable ti fun n => skip n = .ok true)
    (hlpm : ∀ n ki w, (n, ki) ∈ ti.keysByName → ki.ty = .lpm w → w ≤ 2147483647) (hret : Returns skip)
    (hw : NonNegWidths ti) (hc : ∀ e, ti.constraint = some e → ∃ s, Checked (.table ti.keysByName) e s) :
    (∀ c m, Solver.createM z x ti skip = .err c m ↔ CreateFault x ti skip c m) ∧
    (Solver.createM z x ti skip = .crash ↔ CreateCrash ti skip) ∧
    ((∃ s, Solver.createM z x ti skip = .ok s) ↔ (∀ c m, ¬ CreateFault x ti skip c m) ∧ ¬ CreateCrash ti skip) := by
  rcases create_faults x hz hdec hwf hd ho hlpm hret hw hc with ⟨c, m, h1, h2, h3⟩ | ⟨h1, h2, h3⟩ | ⟨⟨s, h1⟩, h2, h3⟩
  · refine ⟨fun c' m' => ?_, ⟨fun h => ?_, fun h => (h3 h).elim⟩, ?_, fun h => (h.1 c m ((h2 _ _).2 ⟨rfl, rfl⟩)).elim⟩
    · rw [h2, h1]
      constructor
      · intro h; cases h; exact ⟨rfl, rfl⟩
      · rintro ⟨rfl, rfl⟩; rfl
    · rw [h1] at h
      cases h
    · rintro ⟨s, h⟩
      rw [h1] at h
      cases h
  · rw [h1]
    exact ⟨fun c' m' => ⟨nofun, fun h => (h2 _ _ h).elim⟩, ⟨fun _ => h3, fun _ => rfl⟩, nofun, fun h => (h.2 h3).elim⟩
  · rw [h1]
    exact ⟨fun c' m' => ⟨nofun, fun h => (h2 _ _ h).elim⟩, ⟨nofun, fun h => (h3 h).elim⟩, fun _ => ⟨h2, h3⟩, fun _ => ⟨s, rfl⟩⟩

/-- C71, adding a constraint, after any history: the constraint is accepted or refused, or what `SolverFault` says is
reported, or Z3 stops the process as `SolverCrash` says. -/
theorem C71_add_partial {z : Z3Oracle} {sys : Sys} (x : SymTexts) {ti : TableInfo} {skip : Str → MRes Bool} {s : Solver}
    {cs : List Expr} (h : Reachable z sys ti (fun n => (skip n).erase) s cs) (hz : z.Sound) (hdec : Z3Oracle.Decides z)
    (hwf : TableWF ti) (hw : NonNegWidths ti) {e : Expr} {se : SExpr} (hch : Checked (.table ti.keysByName) e se)
    (src : ConstraintSource) :
    (∀ c m, (s.addConstraintM z x e src).1 = .err c m ↔ SolverFault x ti skip e se c m) ∧
    ((s.addConstraintM z x e src).1 = .crash ↔ SolverCrash ti skip e se) ∧
    ((∃ b, (s.addConstraintM z x e src).1 = .ok b) ↔
      (∀ c m, ¬ SolverFault x ti skip e se c m) ∧ ¬ SolverCrash ti skip e se) := by
  obtain ⟨ks, as, hi⟩ := reachable_inv h
  obtain ⟨m, hm⟩ := reachable_sat hz hwf h
  exact add_faults x hi hz hdec hwf hw hm hch src

/-- C71, adding a constraint given as text: the text of a well-typed constraint, of whatever type, is accepted or refused,
or what `SolverFault` says is reported, or Z3 stops the process. -/
theorem C71_text_partial {z : Z3Oracle} {sys : Sys} (x : SymTexts) {ti : TableInfo} {skip : Str → MRes Bool} {s : Solver}
    {cs : List Expr} (h : Reachable z sys ti (fun n => (skip n).erase) s cs) (hz : z.Sound) (hdec : Z3Oracle.Decides z)
    (hwf : TableWF ti) (hw : NonNegWidths ti) {text : Str} {e0 : Expr} {se : SExpr} {t : Ty}
    (hg : Constraint sys.inetPton6 .table (tokenize ⟨text, { src := .tableName ti.name }⟩) e0) (ha : abs e0 = some se)
    (ht : HasTy (sigOf (.table ti.keysByName)) se t) :
    ∃ e, Checked (.table ti.keysByName) e se ∧ e.ty = t ∧
      (∀ c m, (s.addConstraintStrM z x sys text).1 = .err c m ↔ SolverFault x ti skip e se c m) ∧
      ((s.addConstraintStrM z x sys text).1 = .crash ↔ SolverCrash ti skip e se) ∧
      ((∃ b, (s.addConstraintStrM z x sys text).1 = .ok b) ↔
        (∀ c m, ¬ SolverFault x ti skip e se c m) ∧ ¬ SolverCrash ti skip e se) := by
  obtain ⟨ks, as, hi⟩ := reachable_inv h
  obtain ⟨c, hc, hty⟩ := infer_complete (src := ti.source) ha ht
  have hch : Checked (.table ti.keysByName) c se := ⟨_, _, hc, ha⟩
  have hp : parseConstraintM x.toTexts sys .table ⟨text, { src := .tableName ti.name }⟩ = .ok e0 := by
    have := parseConstraint_iff.2 hg
    rw [← erase_parseConstraint x.toTexts] at this
    cases h2 : parseConstraintM x.toTexts sys .table ⟨text, { src := .tableName ti.name }⟩ <;> rw [h2] at this <;>
      cases this
    rfl
  have hc' : inferAndCheckM x.toTexts ti.source (.table ti.keysByName) e0 = .ok c := by
    rw [← erase_inferAndCheck x.toTexts] at hc
    cases h2 : inferAndCheckM x.toTexts ti.source (.table ti.keysByName) e0 <;> rw [h2] at hc <;> cases hc
    rfl
  refine ⟨c, hch, hty, ?_⟩
  have heq : s.addConstraintStrM z x sys text = s.addConstraintM z x c ⟨text, { src := .tableName ti.name }⟩ := by
    unfold Solver.addConstraintStrM
    rw [hi.table]
    dsimp only
    rw [hp, MRes.ok_bind, hc']
  rw [heq]
  exact C71_add_partial x h hz hdec hwf hw hch _

/-- C71, if Z3 gives up on the constraints accepted so far, both adding a constraint and concretizing an entry say that they
are unsatisfiable. -/
theorem C71_gives_up {z : Z3Oracle} (x : SymTexts) {skip : Str → MRes Bool} {s : Solver}
    (h : z.check s.calls s.assertions = .unknown) (e : Expr) (src : ConstraintSource) :
    (s.addConstraintM z x e src).1 = .err .internal (c!"Stored constraints are unsatisfiable. " ++
      c!"Constraint solver must hold a satisfiable constraint at all times.") ∧
    (s.concretizeM z x skip).1 = .err .internal c!"Constraints are not satisfiable." := by
  constructor
  · simp only [Solver.addConstraintM, Solver.check, h]
    rfl
  · simp only [Solver.concretizeM, Solver.check, h]

/-- C71, concretizing an entry, after any history: the only error is the one of a Z3 that gives up. -/
theorem C71_concretize {z : Z3Oracle} {sys : Sys} (x : SymTexts) {ti : TableInfo} {skip : Str → MRes Bool} {s : Solver}
    {cs : List Expr} (h : Reachable z sys ti (fun n => (skip n).erase) s cs) (hz : z.Sound)
    (hp : Z3Oracle.InterpretsPriority z) (hwf : TableWF ti)
    (hlpm : ∀ n ki w, (n, ki) ∈ ti.keysByName → ki.ty = .lpm w → w ≤ 2147483647) :
    (∃ entry, (s.concretizeM z x skip).1 = .ok entry) ∨
    z.check s.calls s.assertions = .unknown ∧
      (s.concretizeM z x skip).1 = .err .internal c!"Constraints are not satisfiable." := by
  obtain ⟨ks, as, hi⟩ := reachable_inv h
  cases hc : z.check s.calls s.assertions with
  | sat m ip =>
    obtain ⟨entry, s', he⟩ := concretize_ok hi hwf hlpm hc (hz.sat _ _ _ _ hc) fun h => hp _ _ _ _ hc h
    rw [← erase_concretize z x skip s hi.skip] at he
    left
    cases hr : (s.concretizeM z x skip).1 with
    | ok entry => exact ⟨entry, rfl⟩
    | _ =>
      have := congrArg Prod.fst he
      simp only [eraseFst, hr] at this
      cases this
  | unsat =>
    obtain ⟨m, hm⟩ := reachable_sat hz hwf h
    obtain ⟨a, ha, hf⟩ := hz.unsat _ _ hc m
    rw [hm a ha] at hf
    cases hf
  | unknown => exact .inr ⟨rfl, (C71_gives_up x hc (.notSet {}) {}).2⟩

/-- What the texts stand for: apart from the messages, the functions are those of the other properties on the solver. -/
theorem C71_same (z : Z3Oracle) (x : SymTexts) (ti : TableInfo) (skip : Str → MRes Bool) (s : Solver) (e : Expr)
    (src : ConstraintSource) (sys : Sys) (text : Str) :
    (Solver.createM z x ti skip).erase = Solver.create z ti (fun n => (skip n).erase) ∧
    ((s.addConstraintM z x e src).1.erase, (s.addConstraintM z x e src).2) = s.addConstraint z e src ∧
    ((s.addConstraintStrM z x sys text).1.erase, (s.addConstraintStrM z x sys text).2) = s.addConstraintStr z sys text :=
  ⟨erase_create z x ti skip, erase_addConstraint z x s e src, erase_addConstraintStr z x sys s text⟩

/-! ### Examples -/

/-- Unmodelled texts, for examples. -/
def Ex.symTexts : SymTexts := { Ex.texts with
  expression := fun _ => c!"<expression>", type := fun _ => c!"<type>", shortType := fun _ => c!"<short type>"
  symKey := fun _ => [], symResult := fun _ => [], exprTypeId := [] }

/-- The error. -/
def Ex.fault {α : Type} : MRes α → Option (Code × Str)
  | .err c m => some (c, m)
  | _ => none

/-- The definition of the table of the other examples, with the constraint. -/
def Ex.rangeTi (constraint : Str) : TableInfo := Ex.symTi (Ex.tableDecl constraint)

/-- Skips the key. -/
def Ex.skipM (n : Str) : Str → MRes Bool := fun m => .ok (m == n)

/-- A range key is reported. -/
example : Ex.fault (Solver.createM (constOracle Ex.m1) Ex.symTexts (Ex.rangeTi c!"true") fun _ => .ok false) =
    some (.unimplemented, rangesText) := by decide +kernel

/-- So is a failure of the callback, which precedes it in the order of names. -/
example : Ex.fault (Solver.createM (constOracle Ex.m1) Ex.symTexts (Ex.rangeTi c!"true")
    fun n => if n = c!"pre" then .err .notFound c!"no pre" else .ok false) =
    some (.notFound, c!"no pre") := by decide +kernel

/-- A key that is skipped is not represented. -/
example : Ex.fault (Solver.createM (constOracle Ex.m1) Ex.symTexts (Ex.rangeTi c!"ex == 1 && ran::low == 2")
    (Ex.skipM c!"ran")) = some (.notFound, c!"Key not found: 'ran'") := by decide +kernel

/-- A conversion to a range precedes the range itself. -/
example : Ex.fault (Solver.createM (constOracle Ex.m1) Ex.symTexts (Ex.rangeTi c!"1 == ran")
    (Ex.skipM c!"ran")) = some (.unimplemented, rangesText) := by decide +kernel

/-- A constraint without solution. -/
example : Ex.fault (Solver.createM (constOracle Ex.m1) Ex.symTexts
      (Ex.symTi (Ex.symDecl c!"tern::mask == 1 && tern::mask == 2")) fun _ => .ok false) =
    some (.invalidArgument, c!"TableInfo provided an unsatisfiable constraint. " ++
      c!"ConstraintSolver must contain a satisfiable constraint at all times so creation failed.\n " ++
      c!"Unsatisfiable Constraint: tern::mask == 1 && tern::mask == 2") := by decide +kernel

/-- A constraint that is no condition. -/
example : Ex.fault (Ex.solver1.addConstraintStrM (constOracle Ex.m1) Ex.symTexts Ex.sys c!"tern::mask").1 =
    some (.invalidArgument, c!"expected a constraint of type boolean, but got:\n<expression>") := by decide +kernel

/-- A key of width 0. -/
def Ex.zeroDecl (constraint : Str) : TableDecl :=
  { preamble := ⟨1, c!"tbl", Ex.annotations constraint⟩
    matchFields := [⟨1, c!"zero", 0, .matchType .exact⟩, ⟨2, c!"ex", 8, .matchType .exact⟩] }

example : Ex.fault (Solver.createM (constOracle Ex.m1) Ex.symTexts (Ex.symTi (Ex.zeroDecl [])) fun _ => .ok false) =
    some (.invalidArgument, c!"expected a key type with bitwidth > 0, but got: " ++
      c!"KeyInfo{ id: 1; name: \"zero\"; type: { <short type> }; }") := by decide +kernel

/-- The hypotheses of `C71_create_partial`, with a solver that decides everything. -/
example : Solver.createM Ex.perfect Ex.symTexts (Ex.rangeTi c!"true") (fun _ => .ok false) =
    .err .unimplemented rangesText := by
  obtain ⟨hwf, hw, hc, hch, _⟩ := Ex.sym_of_ok (d := Ex.tableDecl c!"true") (s := .bool true) (by decide +kernel)
  have hk : (Ex.symTi (Ex.tableDecl c!"true")).keysByName = [(c!"opt", ⟨5, c!"opt", .optionalMatch 4⟩),
      (c!"ran", ⟨4, c!"ran", .range 8⟩), (c!"pre", ⟨3, c!"pre", .lpm 16⟩), (c!"tern", ⟨2, c!"tern", .ternary 8⟩),
      (c!"ex", ⟨1, c!"ex", .exact 32⟩)] := by
    decide +kernel
  refine ((C71_create_partial Ex.symTexts Ex.perfect_sound Ex.perfect_decides hwf ⟨?_, ?_⟩ ?_ ?_ ?_ ?_ ?_).1 _ _).2
    (.key (n := c!"ran") (ki := ⟨4, c!"ran", .range 8⟩) (by rw [hk]; simp) (.range (w := 8) rfl rfl (by decide)) ?_)
  · intro n ki h
    rw [hk] at h
    simp only [List.mem_cons, Prod.mk.injEq, List.not_mem_nil, or_false] at h
    rcases h with ⟨rfl, rfl⟩ | ⟨rfl, rfl⟩ | ⟨rfl, rfl⟩ | ⟨rfl, rfl⟩ | ⟨rfl, rfl⟩ <;> decide
  · intro n ki w h _ ki' h'
    rw [hk] at h h'
    simp only [List.mem_cons, Prod.mk.injEq, List.not_mem_nil, or_false] at h
    rcases h with ⟨rfl, rfl⟩ | ⟨rfl, rfl⟩ | ⟨rfl, rfl⟩ | ⟨rfl, rfl⟩ | ⟨rfl, rfl⟩ <;> simp at h'
  · intro n ki _ h
    cases h
  · intro n ki w h ht
    rw [hk] at h
    simp only [List.mem_cons, Prod.mk.injEq, List.not_mem_nil, or_false] at h
    rcases h with ⟨rfl, rfl⟩ | ⟨rfl, rfl⟩ | ⟨rfl, rfl⟩ | ⟨rfl, rfl⟩ | ⟨rfl, rfl⟩ <;> cases ht
    decide
  · exact fun n => .inl ⟨_, rfl⟩
  · intro n ki w h ht
    rw [hk] at h
    simp only [List.mem_cons, Prod.mk.injEq, List.not_mem_nil, or_false] at h
    rcases h with ⟨rfl, rfl⟩ | ⟨rfl, rfl⟩ | ⟨rfl, rfl⟩ | ⟨rfl, rfl⟩ | ⟨rfl, rfl⟩ <;> cases ht <;> decide
  · intro e he
    rw [hc] at he
    cases he
    exact ⟨_, hch⟩
  · intro n ki h hb
    rw [hk] at h
    simp only [List.mem_cons, Prod.mk.injEq, List.not_mem_nil, or_false] at h
    rcases h with ⟨rfl, rfl⟩ | ⟨rfl, rfl⟩ | ⟨rfl, rfl⟩ | ⟨rfl, rfl⟩ | ⟨rfl, rfl⟩
    · exact .inr ⟨rfl, .optional (by decide)⟩
    · rw [← strLt_iff, strLt_irrefl] at hb
      cases hb
    · exact .inr ⟨rfl, .lpm (by decide)⟩
    · exact .inr ⟨rfl, .ternary (by decide)⟩
    · exact .inr ⟨rfl, .exact (by decide)⟩

/-- A ternary key of width 0, and a constraint on it. -/
def Ex.crashDecl : TableDecl :=
  { preamble := ⟨1, c!"tbl", Ex.annotations c!"5 == zero"⟩
    matchFields := [⟨1, c!"zero", 0, .matchType .ternary⟩] }

/-- C71 fails as stated: if the callback skips a key of width 0 and the constraint compares a number to this key, the number
is converted to a bit string of width 0, which Z3 does not have. -/
theorem C71_crash : ∃ ti : TableInfo, TableWF ti ∧ NamesDistinct ti ∧
    Omittable ti (fun n => Ex.skipM c!"zero" n = .ok true) ∧ Returns (Ex.skipM c!"zero") ∧
    (∀ n ki w, (n, ki) ∈ ti.keysByName → HasWidth ki.ty w → 0 ≤ w) ∧
    (∃ e s, ti.constraint = some e ∧ Checked (.table ti.keysByName) e s) ∧
    ∀ z x, z.Sound → Z3Oracle.Decides z → Solver.createM z x ti (Ex.skipM c!"zero") = .crash := by
  obtain ⟨hwf, hw, hc, hch, _⟩ := Ex.sym_of_ok (d := Ex.crashDecl) (s := .cmp .eq (.int 5) (.key c!"zero"))
    (by decide +kernel)
  have hk : (Ex.symTi Ex.crashDecl).keysByName = [(c!"zero", ⟨1, c!"zero", .ternary 0⟩)] := by decide +kernel
  refine ⟨_, hwf, ⟨?_, ?_⟩, ?_, fun n => .inl ⟨_, rfl⟩, ?_, ⟨_, _, hc, hch⟩, ?_⟩
  · intro n ki h
    rw [hk] at h
    simp only [List.mem_singleton, Prod.mk.injEq] at h
    rcases h with ⟨rfl, rfl⟩
    decide
  · intro n ki w h _ ki' h'
    rw [hk] at h h'
    simp only [List.mem_singleton, Prod.mk.injEq] at h h'
    rcases h with ⟨rfl, rfl⟩
    simp at h'
  · intro n ki h _
    rw [hk] at h
    simp only [List.mem_singleton, Prod.mk.injEq] at h
    rcases h with ⟨rfl, rfl⟩
    exact ⟨_, .ternary _⟩
  · intro n ki w h ht
    rw [hk] at h
    simp only [List.mem_singleton, Prod.mk.injEq] at h
    rcases h with ⟨rfl, rfl⟩
    cases ht
    decide
  · intro z x hz hdec
    rw [createM_eq, hc, show createKeysM x (Ex.skipM c!"zero") [] [] (ordered (Ex.symTi Ex.crashDecl).keysByName) =
      .ok ([], []) from rfl, MRes.ok_bind]
    dsimp only
    obtain ⟨v, hi, hs⟩ := decides_sat hz hdec (n := 0) (m := zeroInterp)
      (as := (initSolver (Ex.symTi Ex.crashDecl) (fun n => (Ex.skipM c!"zero" n).erase) [] []).assertions)
      (baseAssertions_zero (by simp))
    have he : evaluateConstraintSymbolicallyM x (Ex.symC Ex.crashDecl) (Ex.symTi Ex.crashDecl).source
        (initSolver (Ex.symTi Ex.crashDecl) (fun n => (Ex.skipM c!"zero" n).erase) [] []).env = .crash := rfl
    simp only [Solver.addConstraintM, Solver.check]
    rw [show (initSolver (Ex.symTi Ex.crashDecl) (fun n => (Ex.skipM c!"zero" n).erase) [] []).calls = 0 from rfl, hs]
    dsimp only
    rw [he]

end P4C
