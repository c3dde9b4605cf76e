import Verif.Proofs.SymFault
import Verif.Props.Symbolic
import Verif.Proofs.Explain3

/-! What the solver reports. -/

namespace P4C

open Spec

theorem erase_true {skip : Str → MRes Bool} : (fun n => (skip n).erase = .ok true) = fun n => skip n = .ok true := by
  funext n
  cases skip n <;> simp [MRes.erase]

theorem fine_supported {ti : TableInfo} {skip : Str → MRes Bool}
    (h : ∀ n ki, (n, ki) ∈ ti.keysByName → KeyFine skip n ki) : KeysSupported ti fun n => (skip n).erase := by
  intro n ki hm
  rcases h n ki hm with h1 | ⟨h1, h2⟩
  · exact .inl (by show (skip n).erase = _; rw [h1]; rfl)
  · exact .inr ⟨by show (skip n).erase = _; rw [h1]; rfl, h2⟩

theorem before_total {a b : Str} : Before a b ∨ a = b ∨ Before b a := by
  by_cases hne : a = b
  · exact .inr (.inl hne)
  · cases h : strLt a b with
    | true => exact .inl (strLt_iff.1 h)
    | false => exact .inr (.inr (strLt_iff.1 (strLt_total h hne)))

theorem createM_eq (z : Z3Oracle) (x : SymTexts) (ti : TableInfo) (skip : Str → MRes Bool) :
    Solver.createM z x ti skip = (createKeysM x skip [] [] (ordered ti.keysByName) >>= fun p =>
      match ti.constraint with
      | none => .ok (initSolver ti (fun n => (skip n).erase) p.1 p.2)
      | some c =>
        match (initSolver ti (fun n => (skip n).erase) p.1 p.2).addConstraintM z x c ti.source with
        | (.ok true, s) => .ok s
        | (.ok false, _) => .err .invalidArgument (c!"TableInfo provided an unsatisfiable constraint. " ++
            c!"ConstraintSolver must contain a satisfiable constraint at all times so creation failed.\n " ++
            c!"Unsatisfiable Constraint: " ++ ti.source.str)
        | (.err c m, _) => .err c m
        | (.crash, _) => .crash
        | (.oof, _) => .oof) := by
  unfold Solver.createM
  dsimp only
  cases createKeysM x skip [] [] (ordered ti.keysByName) with
  | ok p =>
    obtain ⟨ks, as⟩ := p
    simp only [MRes.ok_bind]
    have : (if ((ordered ti.keysByName).any fun kv => needsPriority kv.2.ty) = true then
        (⟨0, as ++ priorityAssertions, ti, ⟨ks, [(c!"priority", ⟨.int, priorityTerm⟩)]⟩, fun n => (skip n).erase⟩ : Solver)
      else ⟨0, as, ti, ⟨ks, []⟩, fun n => (skip n).erase⟩) = initSolver ti (fun n => (skip n).erase) ks as := by
      unfold initSolver baseAssertions solverEnv prioritized
      split <;> simp
    rw [this]
    cases ti.constraint <;> rfl
  | err c m => rfl
  | crash => rfl
  | oof => rfl

/-- What becomes of a constraint that is added. -/
theorem addM_cases {z : Z3Oracle} (x : SymTexts) {ti : TableInfo} {skip : Str → MRes Bool} {ks : List (Str × SymKey)}
    {as : List (Term .bool)} {s : Solver} {cs : List Expr}
    (h : SolverInv ti (fun n => (skip n).erase) ks as s cs) (hz : z.Sound) (hdec : Z3Oracle.Decides z) (hwf : TableWF ti)
    (hw : NonNegWidths ti) {m : Interp} (hm : ∀ a ∈ s.assertions, a.den m = true)
    {e : Expr} {se : SExpr} (hch : Checked (.table ti.keysByName) e se) (src : ConstraintSource) :
    (∃ c m, SolverFault x ti skip e se c m ∧ (s.addConstraintM z x e src).1 = .err c m) ∨
    (SolverCrash ti skip e se ∧ (s.addConstraintM z x e src).1 = .crash) ∨
    (e.ty = .boolean ∧ Expressible ti (fun n => skip n = .ok true) se ∧ ∃ b, (s.addConstraintM z x e src).1 = .ok b) := by
  obtain ⟨v1, h1, hc1⟩ := decides_sat hz hdec (n := s.calls) hm
  rcases evaluateM_cases x h hwf hw hch src with ⟨c, msg, hf, hev⟩ | ⟨hf, hev⟩ | ⟨hb, hx, t, hev⟩
  · left
    refine ⟨c, msg, hf, ?_⟩
    simp only [Solver.addConstraintM, Solver.check, hc1, hev]
  · right; left
    refine ⟨hf, ?_⟩
    simp only [Solver.addConstraintM, Solver.check, hc1, hev]
  · right; right
    refine ⟨hb, by rw [erase_true] at hx; exact hx, ?_⟩
    simp only [Solver.addConstraintM, Solver.check, hc1, hev]
    split
    · exact ⟨true, rfl⟩
    · exact ⟨false, rfl⟩

theorem add_faults {z : Z3Oracle} (x : SymTexts) {ti : TableInfo} {skip : Str → MRes Bool} {ks : List (Str × SymKey)}
    {as : List (Term .bool)} {s : Solver} {cs : List Expr}
    (h : SolverInv ti (fun n => (skip n).erase) ks as s cs) (hz : z.Sound) (hdec : Z3Oracle.Decides z) (hwf : TableWF ti)
    (hw : NonNegWidths ti) {m : Interp} (hm : ∀ a ∈ s.assertions, a.den m = true)
    {e : Expr} {se : SExpr} (hch : Checked (.table ti.keysByName) e se) (src : ConstraintSource) :
    (∀ c m, (s.addConstraintM z x e src).1 = .err c m ↔ SolverFault x ti skip e se c m) ∧
    ((s.addConstraintM z x e src).1 = .crash ↔ SolverCrash ti skip e se) ∧
    ((∃ b, (s.addConstraintM z x e src).1 = .ok b) ↔ (∀ c m, ¬ SolverFault x ti skip e se c m) ∧ ¬ SolverCrash ti skip e se) := by
  have hf := fine_of_inv h hwf
  rcases addM_cases x h hz hdec hwf hw hm hch src with ⟨c, msg, h1, h2⟩ | ⟨h1, h2⟩ | ⟨hb, hx, b, h2⟩
  · refine ⟨fun c' m' => ⟨fun h3 => ?_, fun h3 => ?_⟩, ⟨fun h3 => ?_, fun h3 => (solverCrash_fault hf hwf h3 h1).elim⟩, ?_,
      fun h3 => (h3.1 _ _ h1).elim⟩
    · rw [h2] at h3
      cases h3
      exact h1
    · obtain ⟨rfl, rfl⟩ := solverFault_unique hf hwf h1 h3
      exact h2
    · rw [h2] at h3
      cases h3
    · rintro ⟨b, h3⟩
      rw [h2] at h3
      cases h3
  · rw [h2]
    exact ⟨fun c' m' => ⟨nofun, fun h3 => (solverCrash_fault hf hwf h1 h3).elim⟩, ⟨fun _ => h1, fun _ => rfl⟩,
      nofun, fun h3 => (h3.2 h1).elim⟩
  · have hno : ∀ c m, ¬ SolverFault x ti skip e se c m := fun c m h3 =>
      solverFault_expressible hf hwf h3 hb (by rw [erase_true]; exact hx)
    have hnc : ¬ SolverCrash ti skip e se := fun h3 => solverCrash_expressible hf hwf h3 (by rw [erase_true]; exact hx)
    rw [h2]
    exact ⟨fun c' m' => ⟨nofun, fun h3 => (hno _ _ h3).elim⟩, ⟨nofun, fun h3 => (hnc h3).elim⟩, fun _ => ⟨hno, hnc⟩,
      fun _ => ⟨b, rfl⟩⟩

/-- What is reported when a solver is created. -/
theorem create_faults {z : Z3Oracle} (x : SymTexts) {ti : TableInfo} {skip : Str → MRes Bool} (hz : z.Sound)
    (hdec : Z3Oracle.Decides z) (hwf : TableWF ti) (hd : NamesDistinct ti) (ho : Omittable ti fun n => skip n = .ok true)
    (hlpm : ∀ n ki w, (n, ki) ∈ ti.keysByName → ki.ty = .lpm w → w ≤ 2147483647) (hret : Returns skip)
    (hw : NonNegWidths ti) (hc : ∀ e, ti.constraint = some e → ∃ s, Checked (.table ti.keysByName) e s) :
    (∃ c m, Solver.createM z x ti skip = .err c m ∧ (∀ c' m', CreateFault x ti skip c' m' ↔ c' = c ∧ m' = m) ∧
      ¬ CreateCrash ti skip) ∨
    (Solver.createM z x ti skip = .crash ∧ (∀ c' m', ¬ CreateFault x ti skip c' m') ∧ CreateCrash ti skip) ∨
    ((∃ s, Solver.createM z x ti skip = .ok s) ∧ (∀ c' m', ¬ CreateFault x ti skip c' m') ∧ ¬ CreateCrash ti skip) := by
  have hchu : ∀ {e s s'}, Checked (.table ti.keysByName) e s → Checked (.table ti.keysByName) e s' → s = s' := by
    intro e s s' h1 h2
    obtain ⟨src, e0, h3, h4⟩ := h2
    have := checked_abs h1 h3
    rw [h4] at this
    exact (Option.some.inj this).symm
  rcases createKeysM_table (x := x) hret hwf hw with hfine | ⟨c, m, n, ki, herr, hmem, hkf, hbefore⟩
  · have hkeyno : ∀ {n ki c m}, (n, ki) ∈ ti.keysByName → KeyFault x skip n ki c m → False :=
      fun hm hk => keyFault_fine hk (hfine _ _ hm)
    obtain ⟨⟨ks, as⟩, hq⟩ := createKeysM_ok (x := x) (skip := skip) (ordered ti.keysByName) [] [] (by
      intro p hp
      exact hfine _ _ (ordered_mem.1 hp))
    have hk : createKeys (fun n => (skip n).erase) [] [] (ordered ti.keysByName) = .ok (ks, as) := by
      rw [← erase_createKeys x, hq]; rfl
    have h0 : SolverInv ti (fun n => (skip n).erase) ks as (initSolver ti (fun n => (skip n).erase) ks as) [] :=
      ⟨hk, rfl, rfl, rfl, [], by simp [initSolver], by simp, by simp⟩
    cases hct : ti.constraint with
    | none =>
      right; right
      refine ⟨⟨_, by rw [createM_eq, hq, MRes.ok_bind, hct]⟩, ?_, ?_⟩
      · intro c' m' hf
        cases hf with
        | key hm hk _ => exact hkeyno hm hk
        | constraint _ h _ _ => rw [hct] at h; cases h
        | unsatisfiable _ h _ _ _ _ => rw [hct] at h; cases h
      · rintro ⟨_, e, s, h, _⟩
        rw [hct] at h; cases h
    | some e =>
      obtain ⟨se, hch⟩ := hc e hct
      have hm : ∀ a ∈ (initSolver ti (fun n => (skip n).erase) ks as).assertions, a.den zeroInterp = true :=
        baseAssertions_zero fun t ht => by
          obtain ⟨n, ki, k, a, _, _, hsk, hta⟩ := (h0.key hwf).2.2 t ht
          exact symKeyFor_zero hsk t hta
      obtain ⟨hadd, hadd3, hadd2⟩ := add_faults (z := z) x h0 hz hdec hwf hw hm hch ti.source
      have hcr : Solver.createM z x ti skip =
          match (initSolver ti (fun n => (skip n).erase) ks as).addConstraintM z x e ti.source with
          | (.ok true, s) => .ok s
          | (.ok false, _) => .err .invalidArgument (c!"TableInfo provided an unsatisfiable constraint. " ++
              c!"ConstraintSolver must contain a satisfiable constraint at all times so creation failed.\n " ++
              c!"Unsatisfiable Constraint: " ++ ti.source.str)
          | (.err c m, _) => .err c m
          | (.crash, _) => .crash
          | (.oof, _) => .oof := by
        rw [createM_eq, hq, MRes.ok_bind, hct]
      have hcc : CreateCrash ti skip ↔ SolverCrash ti skip e se := by
        constructor
        · rintro ⟨_, e', s', h, h', h''⟩
          rw [hct] at h
          cases h
          rw [hchu h' hch] at h''
          exact h''
        · exact fun h => ⟨hfine, e, se, hct, hch, h⟩
      rcases addM_cases (z := z) x h0 hz hdec hwf hw hm hch ti.source with ⟨c, msg, h1, h2⟩ | ⟨h1, h2⟩ | ⟨hb, hx, b, h2⟩
      · left
        refine ⟨c, msg, ?_, ?_, fun h => solverCrash_fault hfine hwf (hcc.1 h) h1⟩
        · rw [hcr]
          generalize (initSolver ti (fun n => (skip n).erase) ks as).addConstraintM z x e ti.source = q at h2 ⊢
          obtain ⟨r, s'⟩ := q
          cases h2
          rfl
        · intro c' m'
          constructor
          · intro hf
            cases hf with
            | key hm hk _ => exact (hkeyno hm hk).elim
            | constraint _ h h' h'' =>
              rw [hct] at h
              cases h
              rw [hchu h' hch] at h''
              exact solverFault_unique hfine hwf h'' h1
            | unsatisfiable _ h h' h'' _ _ =>
              rw [hct] at h
              cases h
              rw [hchu h' hch] at h''
              exact (h'' _ _ h1).elim
          · rintro ⟨rfl, rfl⟩
            exact .constraint hfine hct hch h1
      · right; left
        refine ⟨?_, ?_, hcc.2 h1⟩
        · rw [hcr]
          generalize (initSolver ti (fun n => (skip n).erase) ks as).addConstraintM z x e ti.source = q at h2 ⊢
          obtain ⟨r, s'⟩ := q
          cases h2
          rfl
        · intro c' m' hf
          cases hf with
          | key hm hk _ => exact (hkeyno hm hk).elim
          | constraint _ h h' h'' =>
            rw [hct] at h
            cases h
            rw [hchu h' hch] at h''
            exact solverCrash_fault hfine hwf h1 h''
          | unsatisfiable _ h h' _ h'' _ =>
            rw [hct] at h
            cases h
            rw [hchu h' hch] at h''
            exact h'' h1
      · have hno : ∀ c m, ¬ SolverFault x ti skip e se c m := (hadd2.1 ⟨b, h2⟩).1
        have hnc : ¬ SolverCrash ti skip e se := (hadd2.1 ⟨b, h2⟩).2
        have hsat := C40_create_signed (z := z) (skip := fun n => (skip n).erase) hz hdec hwf hd (fine_supported hfine)
          (by rw [erase_true]; exact ho) hlpm hct hch hb (by rw [erase_true]; exact hx)
        rw [erase_true] at hsat
        cases b with
        | true =>
          right; right
          have hok : ∃ s, Solver.createM z x ti skip = .ok s := by
            rw [hcr]
            generalize (initSolver ti (fun n => (skip n).erase) ks as).addConstraintM z x e ti.source = q at h2 ⊢
            obtain ⟨r, s'⟩ := q
            cases h2
            exact ⟨_, rfl⟩
          refine ⟨hok, ?_, fun h => hnc (hcc.1 h)⟩
          intro c' m' hf
          cases hf with
          | key hm hk _ => exact hkeyno hm hk
          | constraint _ h h' h'' =>
            rw [hct] at h
            cases h
            rw [hchu h' hch] at h''
            exact hno _ _ h''
          | unsatisfiable _ h h' _ _ h'' =>
            rw [hct] at h
            cases h
            rw [hchu h' hch] at h''
            obtain ⟨s, hok⟩ := hok
            exact h'' (hsat.1 ⟨s, by rw [← erase_create z x, hok]; rfl⟩)
        | false =>
          left
          refine ⟨.invalidArgument, c!"TableInfo provided an unsatisfiable constraint. " ++
              c!"ConstraintSolver must contain a satisfiable constraint at all times so creation failed.\n " ++
              c!"Unsatisfiable Constraint: " ++ ti.source.str, ?_, ?_, fun h => hnc (hcc.1 h)⟩
          · rw [hcr]
            generalize (initSolver ti (fun n => (skip n).erase) ks as).addConstraintM z x e ti.source = q at h2 ⊢
            obtain ⟨r, s'⟩ := q
            cases h2
            rfl
          · intro c' m'
            constructor
            · intro hf
              cases hf with
              | key hm hk _ => exact (hkeyno hm hk).elim
              | constraint _ h h' h'' =>
                rw [hct] at h
                cases h
                rw [hchu h' hch] at h''
                exact (hno _ _ h'').elim
              | unsatisfiable _ _ _ _ _ _ => exact ⟨rfl, rfl⟩
            · rintro ⟨rfl, rfl⟩
              refine .unsatisfiable hfine hct hch hno hnc fun hs => ?_
              obtain ⟨s, hok⟩ := hsat.2 hs
              rw [← erase_create z x, hcr] at hok
              generalize (initSolver ti (fun n => (skip n).erase) ks as).addConstraintM z x e ti.source = q at h2 hok
              obtain ⟨r, s'⟩ := q
              cases h2
              cases hok
  · left
    refine ⟨c, m, by rw [createM_eq, herr]; rfl, fun c' m' => ⟨fun hf => ?_, ?_⟩, fun h => keyFault_fine hkf (h.1 _ _ hmem)⟩
    · cases hf with
      | @key n' ki' _ _ hm' hk' hb' =>
        have hn : n = n' := by
          rcases before_total (a := n) (b := n') with h | h | h
          · exact (keyFault_fine hkf (hb' _ _ hmem h)).elim
          · exact h
          · exact (keyFault_fine hk' (hbefore _ _ hm' h)).elim
        subst hn
        have hki : ki = ki' := by
          have h1 := (lookup_iff_mem hwf.nodupName).2 hmem
          have h2 := (lookup_iff_mem hwf.nodupName).2 hm'
          rw [h1] at h2
          exact Option.some.inj h2
        subst hki
        have h1 := (keyFault_iff hret (hw _ _ · hmem)).1 hkf
        have h2 := (keyFault_iff hret (hw _ _ · hmem)).1 hk'
        rcases h1 with h1 | ⟨h1, h1'⟩ <;> rcases h2 with h2 | ⟨h2, h2'⟩ <;> rw [h1] at h2 <;> cases h2
        · exact ⟨rfl, rfl⟩
        · rw [h1'] at h2'
          cases h2'
          exact ⟨rfl, rfl⟩
      | constraint h _ _ _ => exact (keyFault_fine hkf (h _ _ hmem)).elim
      | unsatisfiable h _ _ _ _ _ => exact (keyFault_fine hkf (h _ _ hmem)).elim
    · rintro ⟨rfl, rfl⟩
      exact .key hmem hkf hbefore

end P4C
