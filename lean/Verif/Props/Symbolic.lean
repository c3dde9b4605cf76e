import Verif.Proofs.GrammarMore
import Verif.Proofs.ParseTotal
import Verif.Props.SymExamples

/-
The symbolic interpreter and the constraint solver: properties C34–C40, C49, C50.
-/

namespace P4C

open Spec

/-! ### C34: the symbolic and the concrete interpreter agree -/

/-- C34: the formula for a constraint is true under an interpretation of the symbolic keys and the priority exactly if
the entry described by the interpretation satisfies the constraint. Full statement: for all accepted constraints. Missing:
ordered comparisons of bit strings with the most significant bit set (`hs`; they are signed in the formula and unsigned
in the concrete interpreter, `C34_fails`), ordered comparisons with exact keys (`hn`, see C01), and names without symbolic
counterpart (`hk`, see `C40_fails_priority`). -/
theorem C34_agree_partial {ci : ConstraintInfo} {entry : RtEntry} {ti : TableInfo} {s : SExpr} {ρ : Env} {c : Expr}
    {m : Interp} {env : SymEnv} (h : TableCase ci entry ti s ρ) (ha : entry.action = none) (hc : ti.constraint = some c)
    (hE : EnvCorr m (sigOf (.table ti.keysByName)) env ρ) (hk : Known env s)
    (hs : OrderSafe (sigOf (.table ti.keysByName)) ρ s) (hn : NoOrderedExact (sigOf (.table ti.keysByName)) s)
    (src : ConstraintSource) :
    ∃ t : Term .bool, evaluateConstraintSymbolically c src env = .ok ⟨.bool, t⟩ ∧
      (t.den m = true ↔ reasonEntryViolatesConstraint entry ci = .ok []) := by
  obtain ⟨c', hc', hch⟩ := h.checked
  rw [hc] at hc'
  cases hc'
  have hb : c.ty = .boolean := by
    obtain ⟨src', e, hi, ha⟩ := hch
    exact hasTy_unique (infer_sound hi ha) h.boolean
  obtain ⟨t, ht, hm⟩ := formula_means (src := src) hE hch hb hk
  refine ⟨t, ht, ?_⟩
  rw [reason_noAction h.found ha, h.iff hn]
  constructor
  · intro htrue
    rw [htrue] at hm
    exact signed_means hm hs
  · intro hh
    have := (signed_unique hm (means_signed hh hs)).2
    simpa using this

/-- C34, the formula exactly, without conditions on comparisons: it is true of an entry just if the constraint holds
when ordered comparisons of bit strings are read as comparisons of two's complement numbers. -/
theorem C34_signed {ks : List (Str × VarInfo)} {m : Interp} {env : SymEnv} {ρ : Env} {c : Expr} {s : SExpr}
    (hE : EnvCorr m (sigOf (.table ks)) env ρ) (hc : Checked (.table ks) c s) (hb : c.ty = .boolean) (hk : Known env s)
    (src : ConstraintSource) :
    ∃ t : Term .bool, evaluateConstraintSymbolically c src env = .ok ⟨.bool, t⟩ ∧
      (t.den m = true ↔ SignedHolds (sigOf (.table ks)) ρ s) := by
  obtain ⟨t, ht, hm⟩ := formula_means (src := src) hE hc hb hk
  refine ⟨t, ht, fun h => ?_, fun h => ?_⟩
  · rwa [h] at hm
  · have := (signed_unique hm h).2
    simpa using this

/-- The two readings agree if the numbers compared have clear top bits. -/
theorem C34_readings {Γ : Sig} {ρ : Env} {s : SExpr} (h : OrderSafe Γ ρ s) : SignedHolds Γ ρ s ↔ Holds Γ ρ s :=
  ⟨fun hs => signed_means hs h, fun hs => means_signed hs h⟩

/-- C34: every interpretation that satisfies the assertions of a solver describes an entry of the table, in canonical
form. -/
theorem C34_model_entry {z : Z3Oracle} {sys : Sys} {ti : TableInfo} {skip : Str → Res Bool} {s : Solver} {cs : List Expr}
    (h : Reachable z sys ti skip s cs) (hwf : TableWF ti) (ho : Omittable ti fun n => skip n = .ok true)
    (hlpm : ∀ n ki w, (n, ki) ∈ ti.keysByName → ki.ty = .lpm w → w ≤ 2147483647)
    {m : Interp} (hm : ∀ a ∈ s.assertions, a.den m = true) :
    ∃ entry ρ, CanonicalEntry ti (fun n => skip n = .ok true) entry ∧ EntryOk ti entry ∧ entry.action = none ∧
      EntryEnv ti entry ρ ∧ EnvCorr m (sigOf (.table ti.keysByName)) s.env ρ := by
  obtain ⟨ks, as, hi⟩ := reachable_inv h
  exact model_env hi hwf ho hlpm hm

/-- C34: every entry of the table in canonical form is described by an interpretation. -/
theorem C34_entry_model {z : Z3Oracle} {sys : Sys} {ti : TableInfo} {skip : Str → Res Bool} {s : Solver} {cs : List Expr}
    (h : Reachable z sys ti skip s cs) (hwf : TableWF ti) (hd : NamesDistinct ti) {entry : RtEntry} {ρ : Env}
    (hcan : CanonicalEntry ti (fun n => skip n = .ok true) entry) (henv : EntryEnv ti entry ρ) :
    ∃ m, EnvCorr m (sigOf (.table ti.keysByName)) s.env ρ := by
  obtain ⟨ks, as, hi⟩ := reachable_inv h
  exact ⟨_, (interpOf_env hi hwf hd hcan henv).2⟩

/-- Ordered comparisons only between integers are safe for every entry. -/
theorem C34_orderSafe {Γ : Sig} {s : SExpr} (h : NoOrderedBits Γ s) (ρ : Env) : OrderSafe Γ ρ s ∧ NoOrderedExact Γ s :=
  ⟨noOrderedBits_safe h ρ, noOrderedBits_exact h⟩

/-! ### C35: entries produced by the solver satisfy the constraints -/

/-- C35: an entry produced after any history satisfies each accepted constraint `c`, according to
`ReasonEntryViolatesConstraint` for the table with constraint `c`. Full statement: for all accepted constraints and all
skip functions. Missing: ordered comparisons of bit strings with the most significant bit set (`hs`, `C35_fails_signed`)
or with exact keys (`hn`), and skipped keys that may not be omitted (`ho`, `C35_fails_skipped`). -/
theorem C35_entry_satisfies_partial {z : Z3Oracle} {sys : Sys} {ti : TableInfo} {skip : Str → Res Bool}
    {s s' : Solver} {cs : List Expr} {entry : RtEntry} (h : Reachable z sys ti skip s cs) (hz : z.Sound)
    (hwf : TableWF ti) (hw : WidthsOk (sigOf (.table ti.keysByName))) (ho : Omittable ti fun n => skip n = .ok true)
    (hc : s.concretize z = (.ok entry, s')) :
    ∃ ρ, EntryEnv ti entry ρ ∧ ∀ c ∈ cs, ∀ se, Checked (.table ti.keysByName) c se →
      OrderSafe (sigOf (.table ti.keysByName)) ρ se → NoOrderedExact (sigOf (.table ti.keysByName)) se →
      ∀ ci, lookup ti.id ci.tables = some { ti with constraint := some c } →
        reasonEntryViolatesConstraint entry ci = .ok [] := by
  obtain ⟨ks, as, hi⟩ := reachable_inv h
  obtain ⟨hok, hact, ρ, henv, hall⟩ := concretize_holds hi hz hwf ho hc
  obtain ⟨_, _, _, _, hcan, _⟩ := concretize_spec hi hz hwf hc
  refine ⟨ρ, henv, fun c hcm se hch hs hn ci hci => ?_⟩
  obtain ⟨hb, hh⟩ := hall c hcm se hch
  have hcase : TableCase ci entry { ti with constraint := some c } se ρ := by
    refine ⟨by rw [hcan.table]; exact hci, ⟨hwf.nodupId, hwf.nodupName, hwf.byId, hwf.byName⟩, hw,
      ⟨c, rfl, hch⟩, ?_, ⟨hok.known, hok.once, hok.complete⟩, ⟨henv.key, henv.param, henv.priority⟩⟩
    obtain ⟨src', e, hi, ha⟩ := hch
    have := infer_sound hi ha
    rwa [hb] at this
  rw [reason_noAction hcase.found hact, hcase.iff hn]
  exact signed_means hh hs

/-- C35, without conditions on comparisons: an entry produced after any history satisfies each accepted constraint if
ordered comparisons of bit strings are read as signed. -/
theorem C35_signed {z : Z3Oracle} {sys : Sys} {ti : TableInfo} {skip : Str → Res Bool}
    {s s' : Solver} {cs : List Expr} {entry : RtEntry} (h : Reachable z sys ti skip s cs) (hz : z.Sound)
    (hwf : TableWF ti) (ho : Omittable ti fun n => skip n = .ok true) (hc : s.concretize z = (.ok entry, s')) :
    ∃ ρ, EntryEnv ti entry ρ ∧ ∀ c ∈ cs, ∀ se, Checked (.table ti.keysByName) c se →
      SignedHolds (sigOf (.table ti.keysByName)) ρ se := by
  obtain ⟨ks, as, hi⟩ := reachable_inv h
  obtain ⟨_, _, ρ, henv, hall⟩ := concretize_holds hi hz hwf ho hc
  exact ⟨ρ, henv, fun c hcm se hch => (hall c hcm se hch).2⟩

/-- The constraints in the history that were given as text are type checked, so that C35 applies to them. -/
theorem C35_texts_checked {sys : Sys} {ti : TableInfo} {text : Str} {e c : Expr}
    (hp : parseConstraint sys .table ⟨text, { src := .tableName ti.name }⟩ = .ok e)
    (hi : inferAndCheck ti.source (.table ti.keysByName) e = .ok c) :
    ∃ se, Checked (.table ti.keysByName) c se := by
  obtain ⟨toks, last, _, _, hg⟩ := parseConstraint_split.1 hp
  obtain ⟨se, hse⟩ := G_abs hg
  exact ⟨se, _, e, hi, hse⟩

/-! ### C36: canonical entries -/

/-- C36. -/
theorem C36_canonical {z : Z3Oracle} {sys : Sys} {ti : TableInfo} {skip : Str → Res Bool}
    {s s' : Solver} {cs : List Expr} {entry : RtEntry} (h : Reachable z sys ti skip s cs) (hz : z.Sound)
    (hwf : TableWF ti) (hc : s.concretize z = (.ok entry, s')) :
    CanonicalEntry ti (fun n => skip n = .ok true) entry := by
  obtain ⟨ks, as, hi⟩ := reachable_inv h
  obtain ⟨_, _, _, _, hcan, _⟩ := concretize_spec hi hz hwf hc
  exact hcan

/-! ### C37: adding constraints is transactional -/

/-- C37: if a constraint is not accepted, the state is unchanged. -/
theorem C37_unchanged {z : Z3Oracle} {s s' : Solver} {c : Expr} {src : ConstraintSource} {r : Res Bool}
    (h : s.addConstraint z c src = (r, s')) (hr : r ≠ .ok true) : SameState s s' := by
  obtain ⟨h1, h2, h3, h4⟩ := addConstraint_cases h
  rcases h4 with ⟨h, _⟩ | ⟨_, h⟩
  · exact (hr h).elim
  · exact ⟨h, h1, h2, h3⟩

/-- C37 for constraints given as text. -/
theorem C37_unchanged_text {z : Z3Oracle} {sys : Sys} {s s' : Solver} {text : Str} {r : Res Bool}
    (h : s.addConstraintStr z sys text = (r, s')) (hr : r ≠ .ok true) : SameState s s' := by
  rcases addConstraintStr_cases h with ⟨e, c, _, _, h⟩ | ⟨_, rfl⟩
  · exact C37_unchanged h hr
  · exact ⟨rfl, rfl, rfl, rfl⟩

/-- Concretizing does not change the state. -/
theorem C37_unchanged_concretize {z : Z3Oracle} {s s' : Solver} {r : Res RtEntry} (h : s.concretize z = (r, s')) :
    SameState s s' := by
  obtain ⟨h1, h2, h3, h4⟩ := concretize_state h
  exact ⟨h4, h1, h2, h3⟩

/-- C37: states that are the same in this sense give the same answers ever after, if the answers of Z3 depend only on
the assertions. -/
theorem C37_same_answers {z : Z3Oracle} (hz : Z3Oracle.Deterministic z) {sys : Sys} {s s' : Solver} (h : SameState s s')
    (ops : List Op) : answers z sys s ops = answers z sys s' ops := by
  induction ops generalizing s s' with
  | nil => rfl
  | cons op ops ih =>
    cases op with
    | add c src =>
      obtain ⟨h1, h2⟩ := sameState_add hz h c src
      simp only [answers, h1, ih h2]
    | addText t =>
      obtain ⟨h1, h2⟩ := sameState_addStr hz h sys t
      simp only [answers, h1, ih h2]
    | concretize =>
      obtain ⟨h1, h2⟩ := sameState_concretize hz h
      simp only [answers, h1, ih h2]

/-- C37: if a constraint is accepted, exactly its formula is added to the assertions. -/
theorem C37_added {z : Z3Oracle} {s s' : Solver} {c : Expr} {src : ConstraintSource}
    (h : s.addConstraint z c src = (.ok true, s')) :
    ∃ t : Term .bool, evaluateConstraintSymbolically c src s.env = .ok ⟨.bool, t⟩ ∧
      s'.assertions = s.assertions ++ [t] ∧ s'.table = s.table ∧ s'.env = s.env ∧ s'.skip = s.skip := by
  obtain ⟨h1, h2, h3, h4⟩ := addConstraint_cases h
  rcases h4 with ⟨_, t, ht, ha, _⟩ | ⟨h, _⟩
  · exact ⟨t, ht, ha, h1, h2, h3⟩
  · exact (h rfl).elim

/-- C37 for constraints given as text. -/
theorem C37_added_text {z : Z3Oracle} {sys : Sys} {s s' : Solver} {text : Str}
    (h : s.addConstraintStr z sys text = (.ok true, s')) :
    ∃ e c, ∃ t : Term .bool, parseConstraint sys .table ⟨text, { src := .tableName s.table.name }⟩ = .ok e ∧
      inferAndCheck s.table.source (.table s.table.keysByName) e = .ok c ∧
      evaluateConstraintSymbolically c ⟨text, { src := .tableName s.table.name }⟩ s.env = .ok ⟨.bool, t⟩ ∧
      s'.assertions = s.assertions ++ [t] ∧ s'.table = s.table ∧ s'.env = s.env ∧ s'.skip = s.skip := by
  rcases addConstraintStr_cases h with ⟨e, c, he, hc, h⟩ | ⟨h, _⟩
  · obtain ⟨t, ht⟩ := C37_added h
    exact ⟨e, c, t, he, hc, ht⟩
  · exact (h rfl).elim

/-- C37: after any history the assertions are satisfiable. -/
theorem C37_satisfiable {z : Z3Oracle} {sys : Sys} {ti : TableInfo} {skip : Str → Res Bool} {s : Solver} {cs : List Expr}
    (hz : z.Sound) (hwf : TableWF ti) (h : Reachable z sys ti skip s cs) :
    ∃ m : Interp, ∀ a ∈ s.assertions, a.den m = true := reachable_sat hz hwf h

/-- C37: a constraint is refused (rather than accepted) only if it has no solution together with the accepted ones, or
Z3 gives up. -/
theorem C37_refused {z : Z3Oracle} {s s' : Solver} {c : Expr} {src : ConstraintSource} (hz : z.Sound)
    (hd : Z3Oracle.Decides z) (h : s.addConstraint z c src = (.ok false, s')) :
    ∃ t : Term .bool, evaluateConstraintSymbolically c src s.env = .ok ⟨.bool, t⟩ ∧
      ∀ m : Interp, ∃ a ∈ s.assertions ++ [t], a.den m = false := by
  unfold Solver.addConstraint Solver.check at h
  dsimp only at h
  split at h
  · split at h
    · rename_i t ht
      split at h
      · cases h
      · rename_i hne
        refine ⟨t, ht, ?_⟩
        cases hc : z.check (s.calls + 1) (s.assertions ++ [t]) with
        | sat v hi => exact (hne v hi hc).elim
        | unsat => exact hz.unsat _ _ hc
        | unknown => exact (hd _ _ hc).elim
    · cases h
    · cases h
    · cases h
    · cases h
  · cases h

/-! ### C38: skipped keys -/

/-- C38: skipped keys do not occur in entries. -/
theorem C38_omitted {z : Z3Oracle} {sys : Sys} {ti : TableInfo} {skip : Str → Res Bool}
    {s s' : Solver} {cs : List Expr} {entry : RtEntry} (h : Reachable z sys ti skip s cs) (hz : z.Sound)
    (hwf : TableWF ti) (hc : s.concretize z = (.ok entry, s')) {n : Str} {ki : VarInfo} (hmem : (n, ki) ∈ ti.keysByName)
    (hs : skip n = .ok true) : ∀ fm ∈ entry.matches_, fm.fieldId ≠ ki.id := by
  obtain ⟨ks, as, hi⟩ := reachable_inv h
  obtain ⟨_, _, _, _, _, hkeys, _⟩ := concretize_spec hi hz hwf hc
  rcases hkeys n ki hmem with ⟨_, h⟩ | ⟨h, _⟩
  · exact h
  · rw [hs] at h
    cases h

/-- C38: a constraint that mentions a skipped key (or the priority of a table without priorities) is neither accepted nor
refused: adding it is an error. -/
theorem C38_rejected {z : Z3Oracle} {sys : Sys} {ti : TableInfo} {skip : Str → Res Bool} {s : Solver} {cs : List Expr}
    (h : Reachable z sys ti skip s cs) (hwf : TableWF ti) {c : Expr} {se : SExpr}
    (hch : Checked (.table ti.keysByName) c se) (hx : ¬ Expressible ti (fun n => skip n = .ok true) se)
    (src : ConstraintSource) (b : Bool) : (s.addConstraint z c src).1 ≠ .ok b := by
  obtain ⟨ks, as, hi⟩ := reachable_inv h
  intro hok
  unfold Solver.addConstraint Solver.check at hok
  dsimp only at hok
  split at hok
  · split at hok
    · rename_i t ht
      exact hx ((known_iff hi hwf se).1 (formula_known hch ht).2)
    · cases hok
    · cases hok
    · cases hok
    · cases hok
  · cases hok

/-- C38: so is creating a solver for a table whose constraint mentions a skipped key. -/
theorem C38_create {z : Z3Oracle} {ti : TableInfo} {skip : Str → Res Bool} {s : Solver} (hwf : TableWF ti)
    (h : Solver.create z ti skip = .ok s) {c : Expr} {se : SExpr} (hc : ti.constraint = some c)
    (hch : Checked (.table ti.keysByName) c se) : Expressible ti (fun n => skip n = .ok true) se := by
  obtain ⟨ks, as, hk, h⟩ := create_ok.1 h
  have h0 : SolverInv ti skip ks as (initSolver ti skip ks as) [] :=
    ⟨hk, rfl, rfl, rfl, [], by simp [initSolver], by simp, by simp⟩
  rcases h with ⟨hn, _⟩ | ⟨c', hc', h⟩
  · rw [hn] at hc
    cases hc
  · rw [hc] at hc'
    cases hc'
    obtain ⟨_, ht, _⟩ := C37_added h
    exact (known_iff h0 hwf se).1 (formula_known hch ht).2

/-- C38: a solver exists only if the skip function gives an answer for every key of the table. -/
theorem C38_skip_errors {z : Z3Oracle} {sys : Sys} {ti : TableInfo} {skip : Str → Res Bool} {s : Solver} {cs : List Expr}
    (h : Reachable z sys ti skip s cs) (hwf : TableWF ti) {n : Str} {ki : VarInfo} (hmem : (n, ki) ∈ ti.keysByName) :
    skip n = .ok true ∨ skip n = .ok false ∧ SymSupported ki.ty := by
  obtain ⟨ks, as, hi⟩ := reachable_inv h
  rcases (hi.key hwf).1 n ki hmem with ⟨h, _⟩ | ⟨h, k, a, hk, _⟩
  · exact .inl h
  · exact .inr ⟨h, symSupported_iff.2 ⟨k, a, hk⟩⟩

/-! ### C39: byte strings -/

/-- C39: the byte string for a bit-vector value, as printed by Z3, is canonical and is read back as this value. -/
theorem C39_bytes {w : Nat} (v : BitVec w) : ∃ bs, z3ToBytes (bvToString v) w = .ok bs ∧
    parseP4RTInteger bs = v.toNat ∧ CanonicalBytes bs := by
  obtain ⟨bs, h1, h2, h3⟩ := z3ToBytes_spec v
  exact ⟨bs, h1, by rw [parseP4RTInteger_eq, h2], h3⟩

/-- C39: there is only one canonical byte string for a value. -/
theorem C39_unique {a b : Bytes} (ha : CanonicalBytes a) (hb : CanonicalBytes b)
    (h : parseP4RTInteger a = parseP4RTInteger b) : a = b := by
  rw [parseP4RTInteger_eq, parseP4RTInteger_eq] at h
  exact canonicalBytes_unique ha hb (by omega)

/-! ### C40: completeness -/

/-- C40: if some canonical entry satisfies the accepted constraints and `c`, then `c` is accepted. Full statement: without
`hs'`/`hcs` (ordered comparisons), `hx` (names without symbolic counterpart) and `hd` (names of Z3 constants). It fails
then: `C40_fails_signed`, `C40_fails_priority`, `C40_fails_names`. -/
theorem C40_add_partial {z : Z3Oracle} {sys : Sys} {ti : TableInfo} {skip : Str → Res Bool} {s : Solver} {cs : List Expr}
    (h : Reachable z sys ti skip s cs) (hz : z.Sound) (hdec : Z3Oracle.Decides z) (hwf : TableWF ti)
    (hd : NamesDistinct ti) {entry : RtEntry} {ρ : Env} (hcan : CanonicalEntry ti (fun n => skip n = .ok true) entry)
    (henv : EntryEnv ti entry ρ)
    (hcs : ∀ c ∈ cs, ∃ se, Checked (.table ti.keysByName) c se ∧ OrderSafe (sigOf (.table ti.keysByName)) ρ se ∧
      Holds (sigOf (.table ti.keysByName)) ρ se)
    {c : Expr} {se : SExpr} (hch : Checked (.table ti.keysByName) c se) (hb : c.ty = .boolean)
    (hx : Expressible ti (fun n => skip n = .ok true) se) (hs' : OrderSafe (sigOf (.table ti.keysByName)) ρ se)
    (hh : Holds (sigOf (.table ti.keysByName)) ρ se) (src : ConstraintSource) :
    (s.addConstraint z c src).1 = .ok true := by
  obtain ⟨ks, as, hi⟩ := reachable_inv h
  refine add_complete hi hz hdec hwf hd hcan henv (fun c hc => ?_) hch hb hx (means_signed hh hs') src
  obtain ⟨se, h1, h2, h3⟩ := hcs c hc
  exact ⟨se, h1, means_signed h3 h2⟩

/-- C40: if some canonical entry satisfies the constraint of the table, the solver is created. -/
theorem C40_create_partial {z : Z3Oracle} {ti : TableInfo} {skip : Str → Res Bool} {entry : RtEntry} {ρ : Env}
    (hz : z.Sound) (hdec : Z3Oracle.Decides z) (hwf : TableWF ti) (hd : NamesDistinct ti) (hsup : KeysSupported ti skip)
    (hcan : CanonicalEntry ti (fun n => skip n = .ok true) entry) (henv : EntryEnv ti entry ρ)
    (hc : ∀ c, ti.constraint = some c → ∃ se, Checked (.table ti.keysByName) c se ∧ c.ty = .boolean ∧
      Expressible ti (fun n => skip n = .ok true) se ∧ OrderSafe (sigOf (.table ti.keysByName)) ρ se ∧
      Holds (sigOf (.table ti.keysByName)) ρ se) : ∃ s, Solver.create z ti skip = .ok s :=
  create_complete hz hdec hwf hd hsup hcan henv fun c h => by
    obtain ⟨se, h1, h2, h3, h4, h5⟩ := hc c h
    exact ⟨se, h1, h2, h3, means_signed h5 h4⟩

/-- C40, the answer exactly, without conditions on comparisons: `c` is accepted if some canonical entry satisfies it and
the constraints accepted before, ordered comparisons of bit strings being read as signed, and else it is refused. -/
theorem C40_signed {z : Z3Oracle} {sys : Sys} {ti : TableInfo} {skip : Str → Res Bool} {s : Solver} {cs : List Expr}
    (h : Reachable z sys ti skip s cs) (hz : z.Sound) (hdec : Z3Oracle.Decides z) (hwf : TableWF ti)
    (hd : NamesDistinct ti) (ho : Omittable ti fun n => skip n = .ok true)
    (hlpm : ∀ n ki w, (n, ki) ∈ ti.keysByName → ki.ty = .lpm w → w ≤ 2147483647)
    (hcs : ∀ c ∈ cs, ∃ se, Checked (.table ti.keysByName) c se)
    {c : Expr} {se : SExpr} (hch : Checked (.table ti.keysByName) c se) (hb : c.ty = .boolean)
    (hx : Expressible ti (fun n => skip n = .ok true) se) (src : ConstraintSource) :
    ∃ b, (s.addConstraint z c src).1 = .ok b ∧ (b = true ↔ ∃ entry ρ,
      CanonicalEntry ti (fun n => skip n = .ok true) entry ∧ EntryEnv ti entry ρ ∧
      ∀ c' ∈ c :: cs, ∀ se', Checked (.table ti.keysByName) c' se' → SignedHolds (sigOf (.table ti.keysByName)) ρ se') :=
  add_exact h hz hdec hwf hd ho hlpm hcs hch hb hx src

/-- C40, creation exactly: a solver is created just if some canonical entry satisfies the constraint of the table, ordered
comparisons of bit strings being read as signed. -/
theorem C40_create_signed {z : Z3Oracle} {ti : TableInfo} {skip : Str → Res Bool} (hz : z.Sound)
    (hdec : Z3Oracle.Decides z) (hwf : TableWF ti) (hd : NamesDistinct ti) (hsup : KeysSupported ti skip)
    (ho : Omittable ti fun n => skip n = .ok true)
    (hlpm : ∀ n ki w, (n, ki) ∈ ti.keysByName → ki.ty = .lpm w → w ≤ 2147483647)
    {c : Expr} {se : SExpr} (hc : ti.constraint = some c) (hch : Checked (.table ti.keysByName) c se)
    (hb : c.ty = .boolean) (hx : Expressible ti (fun n => skip n = .ok true) se) :
    (∃ s, Solver.create z ti skip = .ok s) ↔ ∃ entry ρ, CanonicalEntry ti (fun n => skip n = .ok true) entry ∧
      EntryEnv ti entry ρ ∧ SignedHolds (sigOf (.table ti.keysByName)) ρ se := by
  constructor
  · rintro ⟨s, hs⟩
    have hr : Reachable z ⟨fun _ => none⟩ ti skip s ti.constraint.toList := .create hs
    obtain ⟨ks, as, hi⟩ := reachable_inv hr
    obtain ⟨m, hm⟩ := reachable_sat hz hwf hr
    obtain ⟨entry, ρ, hcan, _, _, henv, hcorr⟩ := model_env hi hwf ho hlpm hm
    exact ⟨entry, ρ, hcan, henv, model_holds hi hm hcorr (by rw [hc]; simp) hch⟩
  · rintro ⟨entry, ρ, hcan, henv, hh⟩
    refine create_complete hz hdec hwf hd hsup hcan henv fun c' h => ?_
    rw [hc] at h
    cases h
    exact ⟨se, hch, hb, hx, hh⟩

/-! ### C49: constraints given as text -/

/-- C49: an answer other than an error is given only for texts that are constraints of boolean type on the keys of the
table. -/
theorem C49_accepts_only {z : Z3Oracle} {sys : Sys} {s s' : Solver} {text : Str} {b : Bool}
    (h : s.addConstraintStr z sys text = (.ok b, s')) :
    ∃ e se, Constraint sys.inetPton6 .table (tokenize ⟨text, { src := .tableName s.table.name }⟩) e ∧ abs e = some se ∧
      HasTy (sigOf (.table s.table.keysByName)) se .boolean := by
  unfold Solver.addConstraintStr at h
  dsimp only at h
  split at h
  · rename_i c hc
    obtain ⟨e, he, hi⟩ := Res.bind_eq_ok.1 hc
    obtain ⟨toks, last, _, _, hg⟩ := parseConstraint_split.1 he
    obtain ⟨se, hse⟩ := G_abs hg
    have hty := infer_sound hi hse
    refine ⟨e, se, parseConstraint_iff.1 he, hse, ?_⟩
    have hb : c.ty = .boolean := by
      unfold Solver.addConstraint Solver.check at h
      dsimp only at h
      split at h
      · split at h
        · rename_i ht
          unfold evaluateConstraintSymbolically at ht
          split at ht
          · cases ht
          · rename_i hb
            exact Classical.not_not.1 hb
        all_goals cases h
      · cases h
    rwa [hb] at hty
  all_goals cases h

/-- C49: a text that is not a constraint is rejected with an InvalidArgument error, and the solver is as before. -/
theorem C49_syntax {z : Z3Oracle} {sys : Sys} {s : Solver} {text : Str} (ht : CrLf text)
    (h : ¬ ∃ e, Constraint sys.inetPton6 .table (tokenize ⟨text, { src := .tableName s.table.name }⟩) e) :
    s.addConstraintStr z sys text = (.err .invalidArgument, s) := by
  have hp : parseConstraint sys .table ⟨text, { src := .tableName s.table.name }⟩ = .err .invalidArgument := by
    rcases parse_total (sys := sys) (k := .table) (src := ⟨text, { src := .tableName s.table.name }⟩) ht
      nofun (by simp) with ⟨e, he⟩ | he
    · exact (h ⟨e, parseConstraint_iff.1 he⟩).elim
    · exact he
  unfold Solver.addConstraintStr
  dsimp only
  rw [hp]
  rfl

/-- C49, for type errors: a text that is a constraint, but not of boolean type, is rejected and the solver is as before.
Missing: the error is InvalidArgument; it may be Internal, see `C49_fails`. -/
theorem C49_type_partial {z : Z3Oracle} {sys : Sys} {s s' : Solver} {text : Str} {r : Res Bool} {e : Expr} {se : SExpr}
    (h : s.addConstraintStr z sys text = (r, s'))
    (hg : Constraint sys.inetPton6 .table (tokenize ⟨text, { src := .tableName s.table.name }⟩) e) (ha : abs e = some se)
    (ht : ¬ HasTy (sigOf (.table s.table.keysByName)) se .boolean) : (∀ b, r ≠ .ok b) ∧ SameState s s' := by
  have hr : ∀ b, r ≠ .ok b := by
    rintro b rfl
    obtain ⟨e', se', hg', ha', ht'⟩ := C49_accepts_only h
    rw [← parseConstraint_iff (src := ⟨text, _⟩)] at hg hg'
    rw [hg] at hg'
    cases hg'
    rw [ha] at ha'
    cases ha'
    exact ht ht'
  exact ⟨hr, C37_unchanged_text h (hr true)⟩

/-- C49: a text of a type other than boolean is rejected with InvalidArgument, if Z3 finds the accepted constraints
satisfiable. -/
theorem C49_not_boolean {z : Z3Oracle} {sys : Sys} {s : Solver} {text : Str} {e : Expr} {se : SExpr} {t : Ty}
    (hz : ∃ m hi, z.check s.calls s.assertions = .sat m hi)
    (hg : Constraint sys.inetPton6 .table (tokenize ⟨text, { src := .tableName s.table.name }⟩) e) (ha : abs e = some se)
    (ht : HasTy (sigOf (.table s.table.keysByName)) se t) (hn : t ≠ .boolean) :
    (s.addConstraintStr z sys text).1 = .err .invalidArgument := by
  obtain ⟨c, hc, hty⟩ := infer_complete (src := s.table.source) ha ht
  obtain ⟨m, hi, hz⟩ := hz
  unfold Solver.addConstraintStr
  dsimp only
  rw [parseConstraint_iff.2 hg, Res.ok_bind, hc]
  simp only [Solver.addConstraint, Solver.check, hz, evaluateConstraintSymbolically, hty]
  rw [if_pos hn]

/-! ### C50: concretizing succeeds -/

/-- C50: after any history, an entry is produced. -/
theorem C50_concretize {z : Z3Oracle} {sys : Sys} {ti : TableInfo} {skip : Str → Res Bool} {s : Solver}
    {cs : List Expr} (hz : z.Sound) (hdec : Z3Oracle.Decides z) (hp : Z3Oracle.InterpretsPriority z) (hwf : TableWF ti)
    (hlpm : ∀ n ki w, (n, ki) ∈ ti.keysByName → ki.ty = .lpm w → w ≤ 2147483647)
    (hr : Reachable z sys ti skip s cs) : ∃ entry s', s.concretize z = (.ok entry, s') :=
  concretize_total hz hdec hp hwf hlpm hr

end P4C
