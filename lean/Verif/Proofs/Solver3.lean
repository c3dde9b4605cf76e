import Verif.Proofs.Solver2
import Verif.Proofs.Explain3

/-
The solver: concretizing always succeeds, failed operations have no effect.
-/

namespace P4C

open Spec

theorem concretizeKeys_total {skip : Str → Res Bool} {env : SymEnv} {m : Interp} : ∀ (l : List (Str × VarInfo)),
    (∀ n ki, (n, ki) ∈ l → skip n = .ok true ∨ skip n = .ok false ∧ ∃ k a, lookup n env.keys = some k ∧
      SymKeyFor ki.name ki.ty k a ∧ (∀ t ∈ a, t.den m = true) ∧ ∀ w, ki.ty = .lpm w → w ≤ 2147483647) →
    ∃ fms, concretizeKeys skip env m l = .ok fms := by
  intro l
  induction l with
  | nil => exact fun _ => ⟨[], rfl⟩
  | cons x l ih =>
    obtain ⟨n, ki⟩ := x
    intro h
    obtain ⟨fms, hf⟩ := ih fun n ki hm => h n ki (List.mem_cons_of_mem _ hm)
    rcases h n ki List.mem_cons_self with hs | ⟨hs, k, a, hl, hk, ha, hw⟩
    · refine ⟨fms, ?_⟩
      simp only [concretizeKeys, hs, Res.ok_bind, if_true]
      exact hf
    · rcases concretizeKey_spec hk ha with ⟨r, v, hr, _⟩ | ⟨_, w, hty, hlt⟩
      · refine ⟨match r with | some fm => fm :: fms | none => fms, ?_⟩
        simp only [concretizeKeys, hs, Res.ok_bind, Bool.false_eq_true, if_false, findPtrOrStatus, hl, hr, hf]
        cases r <;> rfl
      · have := hw w hty
        omega

theorem concretize_ok {z : Z3Oracle} {ti : TableInfo} {skip : Str → Res Bool} {ks : List (Str × SymKey)}
    {as : List (Term .bool)} {s : Solver} {cs : List Expr} (h : SolverInv ti skip ks as s cs) (hwf : TableWF ti)
    (hlpm : ∀ n ki w, (n, ki) ∈ ti.keysByName → ki.ty = .lpm w → w ≤ 2147483647)
    {m : Interp} {hi : Str → Srt → Bool} (hc : z.check s.calls s.assertions = .sat m hi)
    (hm : ∀ a ∈ s.assertions, a.den m = true)
    (hint : (∀ a ∈ priorityAssertions, a ∈ s.assertions) → hi c!"priority" .int = true) :
    ∃ entry s', s.concretize z = (.ok entry, s') := by
  obtain ⟨hk1, _, _⟩ := h.key hwf
  obtain ⟨fms, hf⟩ := concretizeKeys_total (skip := s.skip) (env := s.env) (m := m) (ordered s.table.keysByName) (by
    rintro n ki hmem
    rw [h.table] at hmem
    rw [h.skip, h.env]
    replace hmem := ordered_mem.1 hmem
    rcases hk1 n ki hmem with ⟨hs, _⟩ | ⟨hs, k, a, hsk, hl, ha⟩
    · exact .inl hs
    · exact .inr ⟨hs, k, a, hl, hsk, fun t ht => hm t (ha t ht), fun w => hlpm n ki w hmem⟩)
  have hprio : ∃ p, concretizePriority s.env m hi = .ok p := by
    rw [h.env]
    unfold solverEnv concretizePriority
    cases hpr : prioritized ti with
    | false => exact ⟨0, rfl⟩
    | true =>
      have hsub : ∀ a ∈ priorityAssertions, a ∈ s.assertions := by
        intro a ha
        obtain ⟨ts, hts, _⟩ := h.assertions
        rw [hts]
        refine List.mem_append_left _ (List.mem_append_right _ ?_)
        rw [hpr, if_pos rfl]
        exact ha
      have hint := hint hsub
      have h1 := hm _ (hsub _ List.mem_cons_self)
      have h2 := hm _ (hsub _ (List.mem_cons_of_mem _ List.mem_cons_self))
      simp only [if_true, lookup, priorityTerm, hint]
      have h1' : (0 : Int) < (m c!"priority" .int : Int) := of_decide_eq_true h1
      have h2' : (m c!"priority" .int : Int) ≤ 2147483647 := of_decide_eq_true h2
      refine ⟨_, if_neg ?_⟩
      rintro (h | h)
      · exact Int.lt_irrefl _ (Int.lt_trans h (Int.lt_trans (by decide) h1'))
      · exact Int.lt_irrefl _ (Int.lt_of_lt_of_le h h2')
  obtain ⟨p, hpr⟩ := hprio
  refine ⟨{ tableId := s.table.id, matches_ := fms, priority := p }, { s with calls := s.calls + 1 }, ?_⟩
  simp only [Solver.concretize, Solver.check, hc, hf, hpr, Res.ok_bind]

theorem concretize_total {z : Z3Oracle} {sys : Sys} {ti : TableInfo} {skip : Str → Res Bool} {s : Solver}
    {cs : List Expr} (hz : z.Sound) (hdec : Z3Oracle.Decides z) (hp : Z3Oracle.InterpretsPriority z) (hwf : TableWF ti)
    (hlpm : ∀ n ki w, (n, ki) ∈ ti.keysByName → ki.ty = .lpm w → w ≤ 2147483647)
    (hr : Reachable z sys ti skip s cs) : ∃ entry s', s.concretize z = (.ok entry, s') := by
  obtain ⟨ks, as, h⟩ := reachable_inv hr
  obtain ⟨m0, hm0⟩ := reachable_sat hz hwf hr
  obtain ⟨m, hi, hc⟩ := decides_sat hz hdec (n := s.calls) hm0
  exact concretize_ok h hwf hlpm hc (hz.sat _ _ _ _ hc) (hp _ _ _ _ hc)

/-- A solver that knows a single model: it answers with this model if it satisfies the assertions, and otherwise gives
up. -/
def constOracle (m : Interp) : Z3Oracle where
  check _ as := if as.all (fun a => (a.den m : Bool)) then .sat m fun _ _ => true else .unknown

theorem constOracle_sound (m : Interp) : (constOracle m).Sound := by
  constructor
  · intro n as val h hc a ha
    simp only [constOracle] at hc
    split at hc
    · rename_i hall
      cases hc
      exact List.all_eq_true.1 hall a ha
    · cases hc
  · intro n as hc
    simp only [constOracle] at hc
    split at hc <;> cases hc

/-- Every model of the assertions describes an entry. -/
theorem model_env {ti : TableInfo} {skip : Str → Res Bool} {ks : List (Str × SymKey)}
    {as : List (Term .bool)} {s : Solver} {cs : List Expr} (h : SolverInv ti skip ks as s cs) (hwf : TableWF ti)
    (ho : Omittable ti fun n => skip n = .ok true)
    (hlpm : ∀ n ki w, (n, ki) ∈ ti.keysByName → ki.ty = .lpm w → w ≤ 2147483647)
    {m : Interp} (hm : ∀ a ∈ s.assertions, a.den m = true) :
    ∃ entry ρ, CanonicalEntry ti (fun n => skip n = .ok true) entry ∧ EntryOk ti entry ∧ entry.action = none ∧
      EntryEnv ti entry ρ ∧ EnvCorr m (sigOf (.table ti.keysByName)) s.env ρ := by
  have hc : (constOracle m).check s.calls s.assertions = .sat m fun _ _ => true := by
    simp only [constOracle]
    rw [if_pos (List.all_eq_true.2 hm)]
  obtain ⟨entry, s', he⟩ := concretize_ok (z := constOracle m) h hwf hlpm hc hm fun _ => rfl
  obtain ⟨_, _, _, _, hcan, _⟩ := concretize_spec h (constOracle_sound m) hwf he
  obtain ⟨hok, m', ρ, ⟨hi, hm'⟩, _, hact, henv, hcorr⟩ := concretize_env h (constOracle_sound m) hwf ho he
  rw [hc] at hm'
  cases hm'
  exact ⟨entry, ρ, hcan, hok, hact, henv, hcorr⟩

/-! ### States that differ in the number of calls -/

theorem sameState_add {z : Z3Oracle} (hz : Z3Oracle.Deterministic z) {s s' : Solver} (h : SameState s s') (c : Expr)
    (src : ConstraintSource) : (s.addConstraint z c src).1 = (s'.addConstraint z c src).1 ∧
      SameState (s.addConstraint z c src).2 (s'.addConstraint z c src).2 := by
  obtain ⟨h1, h2, h3, h4⟩ := h
  unfold Solver.addConstraint Solver.check
  dsimp only
  rw [h1, h3, hz s'.calls s.calls]
  cases z.check s.calls s.assertions with
  | unsat => exact ⟨rfl, rfl, h2, rfl, h4⟩
  | unknown => exact ⟨rfl, rfl, h2, rfl, h4⟩
  | sat v hi =>
    dsimp only
    cases evaluateConstraintSymbolically c src s.env with
    | err => exact ⟨rfl, rfl, h2, rfl, h4⟩
    | crash => exact ⟨rfl, rfl, h2, rfl, h4⟩
    | oof => exact ⟨rfl, rfl, h2, rfl, h4⟩
    | ok e =>
      obtain ⟨srt, t⟩ := e
      cases srt with
      | int => exact ⟨rfl, rfl, h2, rfl, h4⟩
      | bv => exact ⟨rfl, rfl, h2, rfl, h4⟩
      | bool =>
        dsimp only
        rw [hz (s'.calls + 1) (s.calls + 1)]
        cases z.check (s.calls + 1) (s.assertions ++ [t]) with
        | unsat => exact ⟨rfl, rfl, h2, rfl, h4⟩
        | unknown => exact ⟨rfl, rfl, h2, rfl, h4⟩
        | sat v hi => exact ⟨rfl, rfl, h2, rfl, h4⟩

theorem sameState_addStr {z : Z3Oracle} (hz : Z3Oracle.Deterministic z) {s s' : Solver} (h : SameState s s') (sys : Sys)
    (text : Str) : (s.addConstraintStr z sys text).1 = (s'.addConstraintStr z sys text).1 ∧
      SameState (s.addConstraintStr z sys text).2 (s'.addConstraintStr z sys text).2 := by
  have ht := h.table
  unfold Solver.addConstraintStr
  dsimp only
  rw [ht]
  cases (parseConstraint sys .table ⟨text, { src := .tableName s.table.name }⟩ >>= fun e =>
    inferAndCheck s.table.source (.table s.table.keysByName) e) with
  | ok e => exact sameState_add hz h e _
  | err => exact ⟨rfl, h⟩
  | crash => exact ⟨rfl, h⟩
  | oof => exact ⟨rfl, h⟩

theorem sameState_concretize {z : Z3Oracle} (hz : Z3Oracle.Deterministic z) {s s' : Solver} (h : SameState s s') :
    (s.concretize z).1 = (s'.concretize z).1 ∧ SameState (s.concretize z).2 (s'.concretize z).2 := by
  obtain ⟨h1, h2, h3, h4⟩ := h
  unfold Solver.concretize Solver.check
  dsimp only
  rw [h1, h2, h3, h4, hz s'.calls s.calls]
  cases z.check s.calls s.assertions with
  | unsat => exact ⟨rfl, rfl, rfl, rfl, rfl⟩
  | unknown => exact ⟨rfl, rfl, rfl, rfl, rfl⟩
  | sat v hi => exact ⟨rfl, rfl, rfl, rfl, rfl⟩

/-- The constraints accepted hold of the entry that a model describes. -/
theorem model_holds {ti : TableInfo} {skip : Str → Res Bool} {ks : List (Str × SymKey)}
    {as : List (Term .bool)} {s : Solver} {cs : List Expr} (h : SolverInv ti skip ks as s cs) {m : Interp} {ρ : Env}
    (hm : ∀ a ∈ s.assertions, a.den m = true) (hcorr : EnvCorr m (sigOf (.table ti.keysByName)) s.env ρ)
    {c : Expr} (hc : c ∈ cs) {se : SExpr} (hch : Checked (.table ti.keysByName) c se) :
    SignedHolds (sigOf (.table ti.keysByName)) ρ se := by
  obtain ⟨ts, hts, h1, _⟩ := h.assertions
  obtain ⟨t, ht, src, heval⟩ := h1 c hc
  obtain ⟨hb, hk⟩ := formula_known hch heval
  obtain ⟨t', ht', hmeans⟩ := formula_means (src := src) hcorr hch hb hk
  rw [heval] at ht'
  cases ht'
  rw [hm t (by rw [hts]; exact List.mem_append_right _ ht)] at hmeans
  exact hmeans

theorem add_exact {z : Z3Oracle} {sys : Sys} {ti : TableInfo} {skip : Str → Res Bool} {s : Solver} {cs : List Expr}
    (h : Reachable z sys ti skip s cs) (hz : z.Sound) (hdec : Z3Oracle.Decides z) (hwf : TableWF ti)
    (hd : NamesDistinct ti) (ho : Omittable ti fun n => skip n = .ok true)
    (hlpm : ∀ n ki w, (n, ki) ∈ ti.keysByName → ki.ty = .lpm w → w ≤ 2147483647)
    (hcs : ∀ c ∈ cs, ∃ se, Checked (.table ti.keysByName) c se)
    {c : Expr} {se : SExpr} (hch : Checked (.table ti.keysByName) c se) (hb : c.ty = .boolean)
    (hx : Expressible ti (fun n => skip n = .ok true) se) (src : ConstraintSource) :
    ∃ b, (s.addConstraint z c src).1 = .ok b ∧ (b = true ↔ ∃ entry ρ,
      CanonicalEntry ti (fun n => skip n = .ok true) entry ∧ EntryEnv ti entry ρ ∧
      ∀ c' ∈ c :: cs, ∀ se', Checked (.table ti.keysByName) c' se' →
        SignedHolds (sigOf (.table ti.keysByName)) ρ se') := by
  obtain ⟨ks, as, hi⟩ := reachable_inv h
  obtain ⟨m0, hm0⟩ := reachable_sat hz hwf h
  have hk := (known_iff hi hwf se).2 hx
  obtain ⟨_, ρ0, _, _, _, _, hcorr0⟩ := model_env hi hwf ho hlpm hm0
  obtain ⟨t, ht, _⟩ := formula_means (src := src) hcorr0 hch hb hk
  obtain ⟨v1, h1, hc1⟩ := decides_sat hz hdec (n := s.calls) hm0
  cases hc2 : z.check (s.calls + 1) (s.assertions ++ [t]) with
  | sat val hh =>
    refine ⟨true, by simp only [Solver.addConstraint, Solver.check, hc1, ht, hc2], fun _ => ?_, fun _ => rfl⟩
    have hsat := hz.sat _ _ _ _ hc2
    have hm : ∀ a ∈ s.assertions, a.den val = true := fun a ha => hsat a (List.mem_append_left _ ha)
    obtain ⟨entry, ρ, hcan, _, _, henv, hcorr⟩ := model_env hi hwf ho hlpm hm
    refine ⟨entry, ρ, hcan, henv, fun c' hc' se' hch' => ?_⟩
    rcases List.mem_cons.1 hc' with rfl | hc'
    · obtain ⟨src1, e1, i1, a1⟩ := hch
      obtain ⟨src2, e2, i2, a2⟩ := hch'
      have : se = se' := by
        have := checked_abs ⟨src1, e1, i1, a1⟩ i2
        rw [a2] at this
        exact (Option.some.inj this).symm
      subst this
      obtain ⟨t', ht', hmeans⟩ := formula_means (src := src) hcorr ⟨src1, e1, i1, a1⟩ hb hk
      rw [ht] at ht'
      cases ht'
      rw [hsat t (List.mem_append_right _ List.mem_cons_self)] at hmeans
      exact hmeans
    · exact model_holds hi hm hcorr hc' hch'
  | unknown => exact (hdec _ _ hc2).elim
  | unsat =>
    have hr : (s.addConstraint z c src).1 = .ok false := by
      simp only [Solver.addConstraint, Solver.check, hc1, ht, hc2]
    refine ⟨false, hr, nofun, ?_⟩
    rintro ⟨entry, ρ, hcan, henv, hall⟩
    have := add_complete hi hz hdec hwf hd hcan henv (fun c' hc' => by
      obtain ⟨se', hse'⟩ := hcs c' hc'
      exact ⟨se', hse', hall c' (List.mem_cons_of_mem _ hc') se' hse'⟩) hch hb hx (hall c List.mem_cons_self se hch) src
    rw [hr] at this
    cases this

end P4C
