import Verif.Spec.SolverCost
import Verif.Proofs.Solve
import Verif.Proofs.Cost2

/-
The size of what a constraint solver asserts, and how often it asks Z3.
-/

namespace P4C

open Spec

/-- The size of a term of some sort. -/
def znodes (z : Z3Expr) : Nat := termNodes z.term

/-- The size of a key. -/
def knodes : SymKey → Nat
  | .exact v => znodes v
  | .ternary v m => znodes v + znodes m
  | .lpm v p => znodes v + znodes p

/-- The size of a result. -/
def rnodes : SymResult → Nat
  | .key k => knodes k
  | .expr z => znodes z

/-- Keys consist of constants. -/
def FlatKey : SymKey → Prop
  | .exact v => znodes v = 1
  | .ternary v m => znodes v = 1 ∧ znodes m = 1
  | .lpm v p => znodes v = 1 ∧ znodes p = 1

/-- Keys and attributes consist of constants. -/
structure FlatEnv (env : SymEnv) : Prop where
  keys : ∀ x ∈ env.keys, FlatKey x.2
  attrs : ∀ x ∈ env.attrs, znodes x.2 = 1

theorem Res.ite_eq_ok {α : Type} {c : Prop} [Decidable c] {x y : Res α} {a : α} (h : (if c then x else y) = .ok a) :
    (c ∧ x = .ok a) ∨ (¬ c ∧ y = .ok a) := by
  by_cases hc : c
  · exact .inl ⟨hc, by rwa [if_pos hc] at h⟩
  · exact .inr ⟨hc, by rwa [if_neg hc] at h⟩

theorem sameSort_ok {α : Type} {a b : Z3Expr} {f : (s : Srt) → Term s → Term s → Res α} {r : α}
    (h : Z3Expr.sameSort a b f = .ok r) : ∃ s x y, a = ⟨s, x⟩ ∧ b = ⟨s, y⟩ ∧ f s x y = .ok r := by
  obtain ⟨s, x⟩ := a
  obtain ⟨s', y⟩ := b
  unfold Z3Expr.sameSort at h
  split at h
  · rename_i e
    cases e
    exact ⟨s, x, y, rfl, rfl, h⟩
  · cases h

theorem cmp_nodes {fi : Term .int → Term .int → Term .bool} {fb : (w : Nat) → Term (.bv w) → Term (.bv w) → Term .bool}
    (hi : ∀ x y, termNodes (fi x y) = 1 + termNodes x + termNodes y)
    (hb : ∀ w x y, termNodes (fb w x y) = 1 + termNodes x + termNodes y) {a b z : Z3Expr}
    (h : Z3Expr.cmp fi fb a b = .ok z) : znodes z = 1 + znodes a + znodes b := by
  obtain ⟨s, x, y, rfl, rfl, h'⟩ := sameSort_ok h
  cases s <;> cases h'
  · exact hi x y
  · exact hb _ x y

theorem conn_nodes {f : Term .bool → Term .bool → Term .bool}
    (hf : ∀ x y, termNodes (f x y) = 1 + termNodes x + termNodes y) {a b z : Z3Expr}
    (h : Z3Expr.conn f a b = .ok z) : znodes z = 1 + znodes a + znodes b := by
  obtain ⟨s, x⟩ := a
  obtain ⟨s', y⟩ := b
  cases s <;> cases s' <;> cases h
  exact hf x y

theorem symBinExpr_nodes {op : BinOp} {a b z : Z3Expr} (h : symBinExpr op a b = .ok z) :
    znodes z = 1 + znodes a + znodes b := by
  cases op <;> simp only [symBinExpr] at h
  case eq | ne =>
    obtain ⟨s, x, y, rfl, rfl, h'⟩ := sameSort_ok h
    cases h'
    rfl
  case gt | ge | lt | le => exact cmp_nodes (fun _ _ => rfl) (fun _ _ _ => rfl) h
  case and | or | implies => exact conn_nodes (fun _ _ => rfl) h
  case unknown => cases h

theorem symBinPair_nodes {op : BinOp} {a b c d z : Z3Expr} (h : symBinPair op a b c d = .ok z) :
    znodes z = 3 + znodes a + znodes b + znodes c + znodes d := by
  unfold symBinPair at h
  split at h
  · cases h
  · simp only [Res.bind_eq_ok] at h
    obtain ⟨x, hx, y, hy, h⟩ := h
    have h1 := symBinExpr_nodes hx
    have h2 := symBinExpr_nodes hy
    have : znodes z = 1 + znodes x + znodes y := by
      split at h
      · exact conn_nodes (fun _ _ => rfl) h
      · exact conn_nodes (fun _ _ => rfl) h
    omega

theorem symBin_nodes {op : BinOp} {l r : SymResult} {z : Z3Expr} (h : symBin op l r = .ok z) :
    znodes z ≤ 3 + rnodes l + rnodes r := by
  unfold symBin at h
  split at h
  · have := symBinExpr_nodes h
    simp only [rnodes]
    omega
  · have := symBinExpr_nodes h
    simp only [rnodes, knodes]
    omega
  · have := symBinPair_nodes h
    simp only [rnodes, knodes]
    omega
  · have := symBinPair_nodes h
    simp only [rnodes, knodes]
    omega
  · cases h

theorem symCast_nodes {e : Z3Expr} {t : Ty} {r : SymResult} (h : symCast e t = .ok r) : rnodes r ≤ 1 + znodes e := by
  simp only [symCast, Res.bind_eq_ok] at h
  obtain ⟨w, hw, h⟩ := h
  split at h
  · simp only [Res.bind_eq_ok] at h
    obtain ⟨z, hz, h⟩ := h
    cases h
    obtain ⟨s, x⟩ := e
    cases s <;> simp only [Z3Expr.int2bv] at hz
    · cases hz
    · split at hz <;> cases hz
      exact Nat.le_refl _
    · cases hz
  · cases h
    simp only [rnodes, knodes]
    omega
  · simp only [Res.bind_eq_ok] at h
    obtain ⟨m, hm, h⟩ := h
    cases h
    unfold bvAllOnes at hm
    split at hm <;> cases hm
    simp only [rnodes, knodes]
    rw [Nat.add_comm]
    exact Nat.le_refl _
  · simp only [Res.bind_eq_ok] at h
    obtain ⟨m, hm, h⟩ := h
    cases h
    unfold bvAllOnes at hm
    split at hm <;> cases hm
    simp only [rnodes, knodes]
    rw [Nat.add_comm]
    exact Nat.le_refl _
  · cases h
    simp only [rnodes, knodes]
    rw [Nat.add_comm]
    exact Nat.le_refl _
  · cases h
  · cases h

theorem findPtr_mem {α : Type} {n : Str} {m : List (Str × α)} {a : α} (h : findPtrOrStatus n m = .ok a) : (n, a) ∈ m := by
  unfold findPtrOrStatus at h
  split at h
  · cases h
    rename_i he
    exact lookup_some_mem he
  · cases h

theorem symToExpr_nodes {src : ConstraintSource} {e : Expr} {x : Res SymResult} {z : Z3Expr}
    (h : symToExpr src e x = .ok z) : x = .ok (.expr z) := by
  simp only [symToExpr, Res.bind_eq_ok] at h
  obtain ⟨r, rfl, h⟩ := h
  split at h
  · cases h
    rfl
  · unfold runtimeTypeError at h
    split at h <;> cases h

theorem intVal_nodes {s : Str} {z : Z3Expr} (h : intVal s = .ok z) : rnodes (.expr z) = 1 := by
  unfold intVal at h
  dsimp only at h
  rcases Res.ite_eq_ok h with ⟨_, h⟩ | ⟨_, h⟩
  · split at h <;> cases h
    rfl
  · cases h

theorem evalSym_nodes {src : ConstraintSource} {env : SymEnv} (hf : FlatEnv env) (e : Expr) :
    ∀ {r : SymResult}, evalSym src env e = .ok r → rnodes r + 1 ≤ 3 * nodes e := by
  induction e with
  | boolConst i b => intro r h; cases h; exact Nat.le_succ _
  | notSet | actionParam => intro r h; cases h
  | intConst i s =>
    intro r h
    simp only [evalSym, Res.bind_eq_ok] at h
    obtain ⟨z, hz, h⟩ := h
    cases h
    rw [intVal_nodes hz]
    exact Nat.le_succ _
  | key i n =>
    intro r h
    simp only [evalSym, Res.bind_eq_ok] at h
    obtain ⟨k, hk, h⟩ := h
    cases h
    have := hf.keys _ (findPtr_mem hk)
    cases k <;> simp only [FlatKey] at this <;> simp only [rnodes, knodes, nodes] <;> omega
  | attr i n =>
    intro r h
    simp only [evalSym, Res.bind_eq_ok] at h
    obtain ⟨z, hz, h⟩ := h
    cases h
    have : znodes z = 1 := hf.attrs _ (findPtr_mem hz)
    simp only [rnodes, nodes]
    omega
  | boolNeg i e ih =>
    intro r h
    simp only [evalSym, Res.bind_eq_ok] at h
    obtain ⟨z, hz, z', hz', h⟩ := h
    cases h
    have := ih (symToExpr_nodes hz)
    obtain ⟨s, x⟩ := z
    cases s <;> cases hz'
    simp only [rnodes, znodes, nodes, termNodes] at *
    omega
  | arithNeg i e ih =>
    intro r h
    simp only [evalSym, Res.bind_eq_ok] at h
    obtain ⟨z, hz, z', hz', h⟩ := h
    cases h
    have := ih (symToExpr_nodes hz)
    obtain ⟨s, x⟩ := z
    cases s <;> cases hz'
    all_goals
      simp only [rnodes, znodes, nodes, termNodes] at *
      omega
  | field i e f ih =>
    intro r h
    simp only [evalSym, Res.bind_eq_ok] at h
    obtain ⟨k, hk, z, hz, h⟩ := h
    cases h
    have := hf.keys _ (findPtr_mem hk)
    have h1 : znodes z = 1 := by
      cases k <;> simp only [FlatKey] at this <;> simp only [getFieldAccess] at hz
      · split at hz <;> cases hz
        exact this
      · split at hz
        · cases hz; exact this.1
        · split at hz <;> cases hz
          exact this.2
      · split at hz
        · cases hz; exact this.1
        · split at hz <;> cases hz
          exact this.2
    simp only [rnodes, nodes]
    omega
  | typeCast i e ih =>
    intro r h
    simp only [evalSym, Res.bind_eq_ok] at h
    obtain ⟨z, hz, h⟩ := h
    have h1 := ih (symToExpr_nodes hz)
    have h2 := symCast_nodes h
    simp only [rnodes, nodes] at *
    omega
  | bin i op l r ihl ihr =>
    intro x h
    simp only [evalSym, Res.bind_eq_ok] at h
    obtain ⟨a, ha, b, hb, z, hz, h⟩ := h
    cases h
    have h1 := ihl ha
    have h2 := ihr hb
    have h3 := symBin_nodes hz
    simp only [rnodes, nodes] at *
    omega

theorem formula_nodes {c : Expr} {src : ConstraintSource} {env : SymEnv} (hf : FlatEnv env) {z : Z3Expr}
    (h : evaluateConstraintSymbolically c src env = .ok z) : znodes z + 1 ≤ 3 * nodes c := by
  unfold evaluateConstraintSymbolically at h
  split at h
  · cases h
  · exact evalSym_nodes hf c (symToExpr_nodes h)

/-! ### Keys -/

theorem symKeyFor_flat {n : Str} {t : Ty} {k : SymKey} {as : List (Term .bool)} (h : SymKeyFor n t k as) :
    FlatKey k ∧ (as.map termNodes).sum ≤ 21 ∧ as.length ≤ 2 := by
  cases h with
  | exact w hw => exact ⟨rfl, Nat.zero_le _, Nat.zero_le _⟩
  | ternary w hw v m hv hm => subst hv hm; exact ⟨⟨rfl, rfl⟩, by simp [termNodes], by simp⟩
  | optional w hw v m hv hm => subst hv hm; exact ⟨⟨rfl, rfl⟩, by simp [termNodes], by simp⟩
  | lpm w hw v p x hv hp hx => subst hv hp hx; exact ⟨⟨rfl, rfl⟩, by simp [termNodes], by simp⟩

theorem createKeys_flat {skip : Str → Res Bool} : ∀ (l : List (Str × VarInfo)) {ks ks' : List (Str × SymKey)}
    {as as' : List (Term .bool)}, (∀ x ∈ ks, FlatKey x.2) → createKeys skip ks as l = .ok (ks', as') →
    (∀ x ∈ ks', FlatKey x.2) ∧ (as'.map termNodes).sum ≤ (as.map termNodes).sum + 21 * l.length ∧
      as'.length ≤ as.length + 2 * l.length := by
  intro l
  induction l with
  | nil =>
    intro ks ks' as as' hf h
    cases h
    exact ⟨hf, Nat.le_refl _, Nat.le_refl _⟩
  | cons x l ih =>
    obtain ⟨n, ki⟩ := x
    intro ks ks' as as' hf h
    simp only [createKeys, Res.bind_eq_ok] at h
    obtain ⟨b, hb, h⟩ := h
    cases b with
    | true =>
      rw [if_pos rfl] at h
      obtain ⟨h1, h2, h3⟩ := ih hf h
      refine ⟨h1, ?_, ?_⟩ <;> simp only [List.length_cons] <;> omega
    | false =>
      rw [if_neg (by decide)] at h
      simp only [Res.bind_eq_ok] at h
      obtain ⟨⟨k, a⟩, hk, h⟩ := h
      obtain ⟨hk1, hk2, hk3⟩ := symKeyFor_flat (addSymbolicKey_iff.1 hk)
      have hf' : ∀ x ∈ (insertNew n k ks).getD ks, FlatKey x.2 := by
        cases hi : insertNew n k ks with
        | none => exact hf
        | some m =>
          obtain ⟨_, rfl⟩ := insertNew_some.1 hi
          intro x hx
          rcases List.mem_cons.1 hx with rfl | hx
          · exact hk1
          · exact hf x hx
      obtain ⟨h1, h2, h3⟩ := ih hf' h
      refine ⟨h1, ?_, ?_⟩
      · simp only [List.length_cons, List.map_append, List.sum_append] at *
        omega
      · simp only [List.length_cons, List.length_append] at *
        omega

/-! ### Solvers -/

/-- A solver that asserts at most so many formulas with so many nodes. -/
structure Asserts (s : Solver) (size count : Nat) : Prop where
  flat : FlatEnv s.env
  size : assertedNodes s ≤ size
  count : s.assertions.length ≤ count

theorem initSolver_asserts {ti : TableInfo} {skip : Str → Res Bool} {ks : List (Str × SymKey)} {as : List (Term .bool)}
    (h : createKeys skip [] [] (ordered ti.keysByName) = .ok (ks, as)) :
    Asserts (initSolver ti skip ks as) (21 * ti.keysByName.length + 6) (2 * ti.keysByName.length + 2) := by
  obtain ⟨h1, h2, h3⟩ := createKeys_flat _ (fun _ hx => absurd hx List.not_mem_nil) h
  rw [(ordered_perm _).length_eq] at h2 h3
  simp only [List.map_nil, List.sum_nil, List.length_nil, Nat.zero_add] at h2 h3
  refine ⟨⟨h1, ?_⟩, ?_, ?_⟩
  · intro x hx
    simp only [initSolver, solverEnv] at hx
    split at hx
    · cases List.mem_singleton.1 hx
      rfl
    · exact absurd hx List.not_mem_nil
  · simp only [assertedNodes, initSolver, baseAssertions]
    split
    · have : (priorityAssertions.map termNodes).sum = 6 := rfl
      rw [List.map_append, List.sum_append]
      omega
    · rw [List.append_nil]
      omega
  · simp only [initSolver, baseAssertions]
    split
    · have : priorityAssertions.length = 2 := rfl
      rw [List.length_append]
      omega
    · rw [List.append_nil]
      omega

theorem Asserts.add {z : Z3Oracle} {s s' : Solver} {c : Expr} {src : ConstraintSource} {r : Res Bool} {size count : Nat}
    (h : s.addConstraint z c src = (r, s')) (ha : Asserts s size count) :
    (r = .ok true ∧ Asserts s' (size + 3 * nodes c) (count + 1)) ∨ (r ≠ .ok true ∧ Asserts s' size count) := by
  obtain ⟨_, h2, _, h4⟩ := addConstraint_cases h
  rcases h4 with ⟨hr, t, ht, hass, _⟩ | ⟨hr, hass⟩
  · refine .inl ⟨hr, by rw [h2]; exact ha.flat, ?_, ?_⟩
    · have := formula_nodes ha.flat ht
      have := ha.size
      simp only [assertedNodes, znodes, hass, List.map_append, List.sum_append, List.map_cons, List.map_nil, List.sum_cons,
        List.sum_nil] at *
      omega
    · have := ha.count
      rw [hass, List.length_append]
      simp only [List.length_cons, List.length_nil]
      omega
  · exact .inr ⟨hr, by rw [h2]; exact ha.flat, by simpa [assertedNodes, hass] using ha.size, by rw [hass]; exact ha.count⟩

theorem readText_nodes {sys : Sys} {sc : Scope} {s0 src : ConstraintSource} {e c : Expr}
    (h : parseConstraint sys .table src = .ok e) (h' : inferAndCheck s0 sc e = .ok c) : nodes c ≤ 3 * src.str.length := by
  have h1 := nodes_infer h'
  have h2 := nodes_text (parseConstraint_iff.1 h)
  omega

theorem Asserts.addStr {z : Z3Oracle} {sys : Sys} {s s' : Solver} {text : Str} {r : Res Bool} {size count : Nat}
    (h : s.addConstraintStr z sys text = (r, s')) (ha : Asserts s size count) :
    (r = .ok true ∧ Asserts s' (size + 9 * text.length) (count + 1)) ∨ (r ≠ .ok true ∧ Asserts s' size count) := by
  rcases addConstraintStr_cases h with ⟨e, c, he, hc, h⟩ | ⟨hr, rfl⟩
  · rcases ha.add h with ⟨hr, ha'⟩ | ⟨hr, ha'⟩
    · have := readText_nodes he hc
      dsimp only at this
      exact .inl ⟨hr, ha'.flat, Nat.le_trans ha'.size (by omega), ha'.count⟩
    · exact .inr ⟨hr, ha'⟩
  · exact .inr ⟨hr, ha⟩

/-- What a solver with this history asserts at most. -/
def bound (ti : TableInfo) (texts : List Str) : Nat :=
  21 * ti.keysByName.length + 6 + 3 * nodesOf ti.constraint + 9 * (texts.map List.length).sum

theorem run_asserts {z : Z3Oracle} {sys : Sys} {ti : TableInfo} {skip : Str → Bool} {s : Solver} {texts : List Str}
    (hr : SolverRun z sys ti skip s texts) : Asserts s (bound ti texts) (2 * ti.keysByName.length + 3 + texts.length) := by
  induction hr with
  | create h =>
    obtain ⟨ks, as, hk, ⟨hc, rfl⟩ | ⟨c, hc, h⟩⟩ := create_ok.1 h
    · have := initSolver_asserts hk
      exact ⟨this.flat, Nat.le_trans this.size (by unfold bound; omega), Nat.le_trans this.count (by simp)⟩
    · rcases (initSolver_asserts hk).add h with ⟨_, this⟩ | ⟨hr, _⟩
      · refine ⟨this.flat, Nat.le_trans this.size ?_, this.count⟩
        unfold bound
        rw [hc]
        exact Nat.le_refl _
      · exact absurd rfl hr
  | accepted _ h ih =>
    rcases ih.addStr h with ⟨_, this⟩ | ⟨hr, _⟩
    · refine ⟨this.flat, Nat.le_trans this.size ?_, this.count⟩
      unfold bound
      simp only [List.map_cons, List.sum_cons]
      omega
    · exact absurd rfl hr
  | rejected _ h hne ih =>
    rcases ih.addStr h with ⟨hr, _⟩ | ⟨_, this⟩
    · exact absurd hr hne
    · exact this
  | concretize _ h ih =>
    obtain ⟨_, h2, _, h4⟩ := concretize_state h
    exact ⟨by rw [h2]; exact ih.flat, by simpa [assertedNodes, h4] using ih.size, by rw [h4]; exact ih.count⟩

theorem bound_text {sys : Sys} {p : P4Info} {ci : ConstraintInfo} (h : p4ToConstraintInfo sys p = .ok ci) {id : Nat}
    {ti : TableInfo} (hti : lookup id ci.tables = some ti) (texts : List Str) : bound ti texts ≤ solverSize ti texts := by
  obtain ⟨d, _, _, hd⟩ := (table_of_info h).1 hti
  obtain ⟨_, _, _, _, hp⟩ := parseTableInfo_parts hd
  have := nodesOf_text hp
  unfold bound solverSize
  omega

/-! ### Queries -/

theorem addConstraint_agree {z z' : Z3Oracle} {s : Solver} {c : Expr} (src : ConstraintSource) {size count : Nat}
    (ha : Asserts s size count) (h : SameAnswers z z' s.calls (s.calls + 2) (size + 3 * nodes c)) :
    s.addConstraint z c src = s.addConstraint z' c src := by
  have h1 : z.check s.calls s.assertions = z'.check s.calls s.assertions :=
    h _ _ (Nat.le_refl _) (by omega) (Nat.le_trans ha.size (Nat.le_add_right ..))
  unfold Solver.addConstraint Solver.check
  dsimp only
  rw [h1]
  cases z'.check s.calls s.assertions with
  | sat val hi =>
    dsimp only
    cases he : evaluateConstraintSymbolically c src s.env with
    | ok x =>
      obtain ⟨srt, t⟩ := x
      cases srt with
      | bool =>
        dsimp only
        rw [h _ _ (Nat.le_succ _) (by omega)]
        have := formula_nodes ha.flat he
        have := ha.size
        simp only [assertedNodes, znodes, List.map_append, List.sum_append, List.map_cons, List.map_nil, List.sum_cons,
          List.sum_nil] at *
        omega
      | _ => rfl
    | _ => rfl
  | _ => rfl

theorem addConstraintStr_agree {z z' : Z3Oracle} {sys : Sys} {s : Solver} {text : Str} {size count : Nat}
    (ha : Asserts s size count) (h : SameAnswers z z' s.calls (s.calls + 2) (size + 9 * text.length)) :
    s.addConstraintStr z sys text = s.addConstraintStr z' sys text := by
  unfold Solver.addConstraintStr
  dsimp only
  split
  · rename_i c hc
    rw [Res.bind_eq_ok] at hc
    obtain ⟨e, he, hc⟩ := hc
    have := readText_nodes he hc
    dsimp only at this
    exact addConstraint_agree _ ha fun n as h1 h2 h3 => h n as h1 h2 (by omega)
  all_goals rfl

theorem concretize_agree {z z' : Z3Oracle} {s : Solver} {size count : Nat}
    (ha : Asserts s size count) (h : SameAnswers z z' s.calls (s.calls + 1) size) : s.concretize z = s.concretize z' := by
  have h1 : z.check s.calls s.assertions = z'.check s.calls s.assertions :=
    h _ _ (Nat.le_refl _) (by omega) ha.size
  unfold Solver.concretize Solver.check
  dsimp only
  rw [h1]

theorem create_agree {z z' : Z3Oracle} {ti : TableInfo} {skip : Str → Res Bool}
    (h : SameAnswers z z' 0 2 (bound ti [])) : Solver.create z ti skip = Solver.create z' ti skip := by
  rw [create_eq, create_eq]
  cases hk : createKeys skip [] [] (ordered ti.keysByName) with
  | ok p =>
    simp only [Res.ok_bind]
    cases hc : ti.constraint with
    | none => rfl
    | some c =>
      dsimp only
      rw [addConstraint_agree (z := z) (z' := z') (c := c) ti.source (initSolver_asserts hk)]
      intro n as h1 h2 h3
      refine h n as h1 h2 (Nat.le_trans h3 ?_)
      unfold bound
      rw [hc]
      exact Nat.le_refl _
  | _ => rfl

theorem addConstraint_calls {z : Z3Oracle} {s s' : Solver} {c : Expr} {src : ConstraintSource} {r : Res Bool}
    (h : s.addConstraint z c src = (r, s')) :
    (∃ b, r = .ok b ∧ s'.calls = s.calls + 2) ∨ ((∀ b, r ≠ .ok b) ∧ s'.calls = s.calls + 1) := by
  unfold Solver.addConstraint Solver.check at h
  dsimp only at h
  split at h
  · split at h
    · split at h
      · cases h
        exact .inl ⟨_, rfl, rfl⟩
      · cases h
        exact .inl ⟨_, rfl, rfl⟩
    all_goals
      cases h
      exact .inr ⟨nofun, rfl⟩
  · cases h
    exact .inr ⟨nofun, rfl⟩

theorem concretize_calls {z : Z3Oracle} {s s' : Solver} {r : Res RtEntry} (h : s.concretize z = (r, s')) :
    s' = { s with calls := s.calls + 1 } := by
  unfold Solver.concretize Solver.check at h
  dsimp only at h
  split at h <;> cases h <;> rfl

end P4C
