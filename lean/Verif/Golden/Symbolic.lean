import Verif.Model.Symbolic

/-
The tests of `backend/symbolic_interpreter_test.cc`, run on the model. In place of Z3, the tests of satisfiability are given
the interpretation of the constants that Z3 might find, which is checked to satisfy the assertions; for the others it is
proved that there is none.
-/

namespace P4C.Golden.Symbolic

/-- The keys of `GetTableInfoWithConstraint`. -/
def vars : List VarInfo :=
  [⟨1, c!"exact32", .exact 32⟩, ⟨2, c!"ternary32", .ternary 32⟩, ⟨3, c!"lpm32", .lpm 32⟩,
   ⟨4, c!"optional32", .optionalMatch 32⟩, ⟨5, c!"exact11", .exact 11⟩, ⟨6, c!"optional28", .optionalMatch 28⟩]

/-- `inet_pton` is not used. -/
def sys : Sys := ⟨fun _ => none⟩

/-- `GetTableInfoWithConstraint`; without constraint if it is not accepted. -/
def tableOf (vs : List VarInfo) (text : Str) : TableInfo :=
  let src : ConstraintSource := ⟨text, ⟨0, 0, .tableName c!"table"⟩⟩
  let byName := vs.map fun v => (v.name, v)
  { id := 1
    name := c!"table"
    constraint :=
      match (do
        let e ← parseConstraint sys .table src
        inferAndCheck src (.table byName) e : Res Expr) with
      | .ok e => some e
      | _ => none
    source := src
    keysById := vs.map fun v => (v.id, v)
    keysByName := byName }

@[inherit_doc tableOf] def table (text : Str) : TableInfo := tableOf vars text

/-- An interpretation: numbers for the constants, and zero for all others. -/
def interp (vals : List (Str × Int)) : Interp := fun n s =>
  let z := (lookup n vals).getD 0
  match s with
  | .bool => false
  | .int => z
  | .bv w => BitVec.ofInt w z

/-- A solver that only looks at the given interpretation. -/
def oracle (m : Interp) : Z3Oracle := ⟨fun _ as => if as.all fun a => a.den m then .sat m (fun _ _ => true) else .unknown⟩

/-- No key is skipped. -/
def all_ : Str → Res Bool := fun _ => .ok false

/-- `Create` and `ConcretizeEntry`. -/
def solve (m : List (Str × Int)) (skip : Str → Res Bool) (text : Str) : Res RtEntry := do
  let s ← Solver.create (oracle (interp m)) (table text) skip
  (s.concretize (oracle (interp m))).1

/-- `Create`, `AddConstraint`, which has the value true, and `ConcretizeEntry`. -/
def solveWith (m : List (Str × Int)) (text more : Str) : Res RtEntry := do
  let s ← Solver.create (oracle (interp m)) (table text) all_
  match s.addConstraintStr (oracle (interp m)) sys more with
  | (.ok true, s) => (s.concretize (oracle (interp m))).1
  | _ => .crash

/-- An entry was found that satisfies the constraint. -/
def good (text : Str) (r : Res RtEntry) : Bool :=
  (table text).constraint.isSome &&
  match r with
  | .ok e => decide (reasonEntryViolatesConstraint e ⟨[], [(1, table text)]⟩ = .ok [])
  | _ => false

/-! ### AddSymbolicKey -/

/-- The assertions for a key, together with others on its parts. -/
def keyWith (ty : Ty) (more : SymKey → Res (List (Term .bool))) : Res (List (Term .bool)) := do
  let (k, as) ← addSymbolicKey ⟨1, c!"key", ty⟩
  let bs ← more k
  .ok (as ++ bs)

/-- The interpretation satisfies the assertions. -/
def satBy (m : List (Str × Int)) (r : Res (List (Term .bool))) : Bool :=
  match r with
  | .ok as => as.all fun a => a.den (interp m)
  | _ => false

/-- No interpretation satisfies the assertions. -/
def Unsat (r : Res (List (Term .bool))) : Prop :=
  match r with
  | .ok as => ∀ m : Interp, ¬ ∀ a ∈ as, a.den m = true
  | _ => False

/-- `solver.add(field == z)`. -/
def fieldIs (f : Str) (z : Int) (k : SymKey) : Res (List (Term .bool)) := do
  let e ← getFieldAccess k f
  match e with
  | ⟨.bv w, t⟩ => .ok [.eq t (.bvVal (BitVec.ofInt w z))]
  | ⟨.int, t⟩ => .ok [.eq t (.intVal z)]
  | _ => .crash

/-- Is the value available? -/
def isOk {α : Type} : Res α → Bool
  | .ok _ => true
  | _ => false

/-- Is the error InvalidArgument? -/
def isInvalid {α : Type} : Res α → Bool
  | .err c => c = .invalidArgument
  | _ => false

/-- The keys of the basic tests. -/
def basic : List Ty :=
  [.exact 32, .optionalMatch 32, .ternary 32, .lpm 32, .optionalMatch 2, .ternary 128, .lpm 128]

-- AddSymbolicKeyIsOkAndSatisfiable
example : ∀ t ∈ basic, satBy [] (keyWith t fun _ => .ok []) := by decide +kernel

-- GetValueIsOk
example : ∀ t ∈ basic, isOk (keyWith t fun k => do let _ ← getFieldAccess k c!"value"; .ok []) := by decide +kernel

-- GetMaskIsOnlyOkForTernaryAndOptional
example : ∀ t ∈ basic, (match t with
    | .ternary _ | .optionalMatch _ => isOk
    | _ => isInvalid) (keyWith t fun k => do let _ ← getFieldAccess k c!"mask"; .ok []) = true := by decide +kernel

-- GetPrefixLengthIsOnlyOkForLpm
example : ∀ t ∈ basic, (match t with
    | .lpm _ => isOk
    | _ => isInvalid) (keyWith t fun k => do let _ ← getFieldAccess k c!"prefix_length"; .ok []) = true := by decide +kernel

-- AddSymbolicKeyReturnsStatus
example : ∀ t ∈ [.exact 0, .fixedUnsigned 10, .boolean], isInvalid (keyWith t fun _ => .ok []) := by decide +kernel

-- OptionalCanHaveZeroMask, OptionalCanHaveFullMask
example : satBy [] (keyWith (.optionalMatch 32) (fieldIs c!"mask" 0)) := by decide +kernel
example : satBy [(c!"key_mask", -1)] (keyWith (.optionalMatch 32) (fieldIs c!"mask" (-1))) := by decide +kernel

-- OptionalCantHaveArbitraryMask
example : Unsat (keyWith (.optionalMatch 32) (fieldIs c!"mask" 0x10)) := by
  intro m h
  have h1 := h _ (List.getElem_mem (n := 1) (by decide))
  have h2 := h _ (List.getElem_mem (n := 2) (by decide))
  change (m c!"key_mask" (.bv 32) == 0#32 || m c!"key_mask" (.bv 32) == BitVec.ofInt 32 (-1)) = true at h1
  change (m c!"key_mask" (.bv 32) == 0x10#32) = true at h2
  rw [eq_of_beq h2] at h1
  exact absurd h1 (by decide)

/-- `solver.add(a == x); solver.add(b == y)`. -/
def fieldsAre (a : Str) (x : Int) (b : Str) (y : Int) (k : SymKey) : Res (List (Term .bool)) := do
  let as ← fieldIs a x k
  let bs ← fieldIs b y k
  .ok (as ++ bs)

-- OptionalCantHaveSetBitsInValueNotSetInMask
example : Unsat (keyWith (.optionalMatch 32) (fieldsAre c!"value" 0xF00F00 c!"mask" 0)) := by
  intro m h
  have h1 := h _ (List.getElem_mem (n := 0) (by decide))
  have h2 := h _ (List.getElem_mem (n := 2) (by decide))
  have h3 := h _ (List.getElem_mem (n := 3) (by decide))
  change ((m c!"key_mask" (.bv 32) : BitVec 32) &&& m c!"key" (.bv 32) == m c!"key" (.bv 32)) = true at h1
  change (m c!"key" (.bv 32) == 0xF00F00#32) = true at h2
  change (m c!"key_mask" (.bv 32) == 0#32) = true at h3
  rw [eq_of_beq h2, eq_of_beq h3] at h1
  exact absurd h1 (by decide)

-- TernaryCanHaveZeroMask, TernaryCanHaveFullMask, TernaryCanHaveArbitraryMask
example : satBy [] (keyWith (.ternary 32) (fieldIs c!"mask" 0)) := by decide +kernel
example : satBy [(c!"key_mask", -1)] (keyWith (.ternary 32) (fieldIs c!"mask" (-1))) := by decide +kernel
example : satBy [(c!"key_mask", 16)] (keyWith (.ternary 32) (fieldIs c!"mask" 0x10)) := by decide +kernel

-- TernaryCantHaveSetBitsInValueNotSetInMask
example : Unsat (keyWith (.ternary 32) (fieldsAre c!"value" 0xF00F00 c!"mask" 0xF00E00)) := by
  intro m h
  have h1 := h _ (List.getElem_mem (n := 0) (by decide))
  have h2 := h _ (List.getElem_mem (n := 1) (by decide))
  have h3 := h _ (List.getElem_mem (n := 2) (by decide))
  change ((m c!"key_mask" (.bv 32) : BitVec 32) &&& m c!"key" (.bv 32) == m c!"key" (.bv 32)) = true at h1
  change (m c!"key" (.bv 32) == 0xF00F00#32) = true at h2
  change (m c!"key_mask" (.bv 32) == 0xF00E00#32) = true at h3
  rw [eq_of_beq h2, eq_of_beq h3] at h1
  exact absurd h1 (by decide)

-- TernaryCanHaveSetBitsInMaskNotSetInValue
example : satBy [(c!"key", 0xF00E00), (c!"key_mask", 0xF00F00)]
    (keyWith (.ternary 32) (fieldsAre c!"value" 0xF00E00 c!"mask" 0xF00F00)) := by decide +kernel

-- LpmCanHavePrefixLengthZero, LpmCanHavePrefixLengthOfBitwidth, LpmCanHavePrefixLengthBetweenZeroAndBitwidth
example : ∀ p ∈ [0, 32, 6], satBy [(c!"key_prefix_length", p)] (keyWith (.lpm 32) (fieldIs c!"prefix_length" p)) := by
  decide +kernel

-- LpmCantHavePrefixLengthLargerThanBitwidth
example : Unsat (keyWith (.lpm 32) (fieldIs c!"prefix_length" 50)) := by
  intro m h
  have h1 := h _ (List.getElem_mem (n := 0) (by decide))
  have h2 := h _ (List.getElem_mem (n := 1) (by decide))
  change ((decide (0 ≤ (m c!"key_prefix_length" .int : Int)) && decide ((m c!"key_prefix_length" .int : Int) ≤ 32)) && _)
    = true at h1
  change (m c!"key_prefix_length" .int == (50 : Int)) = true at h2
  rw [eq_of_beq h2] at h1
  exact absurd h1 (by simp)

-- LpmCantHaveValueNotIncludedWithinPrefixLength
example : Unsat (keyWith (.lpm 32) (fieldsAre c!"prefix_length" 2 c!"value" 0xF00F00)) := by
  intro m h
  have h1 := h _ (List.getElem_mem (n := 0) (by decide))
  have h2 := h _ (List.getElem_mem (n := 1) (by decide))
  have h3 := h _ (List.getElem_mem (n := 2) (by decide))
  change (_ && ((m c!"key" (.bv 32) : BitVec 32) >>> BitVec.ofInt 32 (32 - (m c!"key_prefix_length" .int : Int))
      <<< BitVec.ofInt 32 (32 - (m c!"key_prefix_length" .int : Int)) == m c!"key" (.bv 32))) = true at h1
  change (m c!"key_prefix_length" .int == (2 : Int)) = true at h2
  change (m c!"key" (.bv 32) == 0xF00F00#32) = true at h3
  rw [eq_of_beq h2, eq_of_beq h3] at h1
  exact absurd (Bool.and_eq_true_iff.1 h1).2 (by decide)

/-! ### AddSymbolicPriority -/

-- IsSatisfiable, ZeroIsUnsat, Positive32BitIntegerIsSat, PositiveTooLargeIntegerIsUnsat
example : satBy [(c!"priority", 1)] (.ok priorityAssertions) := by decide +kernel
example : Unsat (.ok (priorityAssertions ++ [.eq priorityTerm (.intVal 0)])) := by
  intro m h
  have h1 := h _ (List.getElem_mem (n := 0) (by decide))
  have h2 := h _ (List.getElem_mem (n := 2) (by decide))
  change decide ((0 : Int) < m c!"priority" .int) = true at h1
  change (m c!"priority" .int == (0 : Int)) = true at h2
  rw [eq_of_beq h2] at h1
  exact absurd h1 (by decide)
example : satBy [(c!"priority", 42)] (.ok (priorityAssertions ++ [.eq priorityTerm (.intVal 42)])) := by decide +kernel
example : Unsat (.ok (priorityAssertions ++ [.gt priorityTerm (.intVal 0xFFFFFFFFFFFFFFF)])) := by
  intro m h
  have h1 := h _ (List.getElem_mem (n := 1) (by decide))
  have h2 := h _ (List.getElem_mem (n := 2) (by decide))
  change decide ((m c!"priority" .int : Int) ≤ 2147483647) = true at h1
  change decide ((0xFFFFFFFFFFFFFFF : Int) < m c!"priority" .int) = true at h2
  exact absurd (Int.lt_of_lt_of_le (of_decide_eq_true h2) (of_decide_eq_true h1)) (by decide)

/-! ### EvaluateConstraintSymbolically -/

-- SanityCheckAllKeysAreValid
example : ∀ v ∈ vars, isOk (addSymbolicKey v) := by decide +kernel

-- NonBooleanConstraintGivesInvalidArgument: the type of the constraint is cleared.
example : isInvalid (evaluateConstraintSymbolically (.boolConst {} true) (table c!"true").source {}) := by decide +kernel

/-- The assertions of `Create`, and further ones for `AddConstraint`. -/
def assertions (text : Str) (more : List Str) : Res (List (Term .bool)) := do
  let t := table text
  let (ks, as) ← createKeys all_ [] [] (ordered t.keysByName)
  let env : SymEnv := ⟨ks, [(c!"priority", ⟨.int, priorityTerm⟩)]⟩
  let rec go : List Str → Res (List (Term .bool))
    | [] => .ok []
    | s :: rest => do
      match (table s).constraint with
      | none => .err .invalidArgument
      | some c =>
        match (← evaluateConstraintSymbolically c (table s).source env) with
        | ⟨.bool, b⟩ => do
          let bs ← go rest
          .ok (b :: bs)
        | _ => .crash
  let bs ← go (text :: more)
  .ok (as ++ priorityAssertions ++ bs)

-- The satisfiable cases of ConstraintTest: the assertions can be satisfied, `Create` works, and the entry found satisfies
-- the constraint.
example : ∀ c ∈ ([(c!"true", []), (c!"!false", []), (c!"42 == 42", []), (c!"exact32 == 42", [(c!"exact32", 42)]),
      (c!"exact32::value == ternary32::value", [(c!"exact32", 5), (c!"ternary32", 5), (c!"ternary32_mask", 7)]),
      (c!"optional32::mask == 0", []), (c!"optional32 == 1", [(c!"optional32", 1), (c!"optional32_mask", -1)]),
      (c!"ternary32 == 42", [(c!"ternary32", 42), (c!"ternary32_mask", -1)]),
      (c!"lpm32 != 42", [(c!"lpm32_prefix_length", 3)]), (c!"::priority > 50", [(c!"priority", 51)]),
      (c!"exact11 == 137", [(c!"exact11", 137)]), (c!"lpm32::prefix_length == 0", []),
      (c!"optional28 == 1", [(c!"optional28", 1), (c!"optional28_mask", -1)])] : List (Str × List (Str × Int))),
    satBy (c.2 ++ [(c!"priority", 1)]) (assertions c.1 []) ∧ good c.1 (solve (c.2 ++ [(c!"priority", 1)]) all_ c.1) := by
  decide +kernel

-- The unsatisfiable cases: false_is_unsat
example : Unsat (assertions c!"false" []) := by
  intro m h
  have h1 := h _ (List.getElem_mem (n := 8) (by decide +kernel))
  exact absurd (show false = true from h1) (by decide)

-- integer_negation_unsat
example : Unsat (assertions c!"-42 > 12398712983" []) := by
  intro m h
  have h1 := h _ (List.getElem_mem (n := 8) (by decide +kernel))
  exact absurd (show decide ((12398712983 : Int) < -42) = true from h1) (by decide)

-- lpm_prefix_length_field_access_unsat
example : Unsat (assertions c!"lpm32::prefix_length < -1" []) := by
  intro m h
  have h1 := h _ (List.getElem_mem (n := 0) (by decide +kernel))
  have h2 := h _ (List.getElem_mem (n := 8) (by decide +kernel))
  change ((decide (0 ≤ (m c!"lpm32_prefix_length" .int : Int)) && _) && _) = true at h1
  change decide ((m c!"lpm32_prefix_length" .int : Int) < -1) = true at h2
  have h1 := of_decide_eq_true (Bool.and_eq_true_iff.1 (Bool.and_eq_true_iff.1 h1).1).1
  exact absurd (Int.lt_of_le_of_lt h1 (of_decide_eq_true h2)) (by decide)

-- optional_mask_field_access_unsat
example : Unsat (assertions c!"optional32::mask == 50" []) := by
  intro m h
  have h1 := h _ (List.getElem_mem (n := 4) (by decide +kernel))
  have h2 := h _ (List.getElem_mem (n := 8) (by decide +kernel))
  change (m c!"optional32_mask" (.bv 32) == 0#32 || m c!"optional32_mask" (.bv 32) == BitVec.ofInt 32 (-1)) = true at h1
  change (m c!"optional32_mask" (.bv 32) == 50#32) = true at h2
  rw [eq_of_beq h2] at h1
  exact absurd h1 (by decide)

-- priority_unsat
example : Unsat (assertions c!"::priority < 1" []) := by
  intro m h
  have h1 := h _ (List.getElem_mem (n := 6) (by decide +kernel))
  have h2 := h _ (List.getElem_mem (n := 8) (by decide +kernel))
  change decide ((0 : Int) < m c!"priority" .int) = true at h1
  change decide ((m c!"priority" .int : Int) < 1) = true at h2
  exact absurd (Int.lt_of_le_of_lt (show (1 : Int) ≤ _ from of_decide_eq_true h1) (of_decide_eq_true h2)) (by decide)

/-! ### Create -/

-- WorksWithoutConstraints, WorksWithoutPriority
example : isOk (Solver.create (oracle (interp [])) { table c!"true" with constraint := none } all_) := by decide +kernel
example : isOk (Solver.create (oracle (interp []))
    (tableOf (vars.filter fun v => !needsPriority v.ty) c!"true") all_) := by decide +kernel

/-! ### FullySpecifiedConstraintTest -/

/-- An exact match on keys 1 and 5 with the given bytes. -/
def exacts (bs : Bytes) (prio : Int) (more : List FieldMatch) : RtEntry :=
  ⟨1, [⟨5, .exact bs⟩, ⟨1, .exact bs⟩] ++ more, prio, none⟩

/-- The entry is found, and it satisfies the constraint. -/
def gives (text : Str) (r : Res RtEntry) (e : RtEntry) : Prop := r = .ok e ∧ good text r

instance (text : Str) (r : Res RtEntry) (e : RtEntry) : Decidable (gives text r e) :=
  inferInstanceAs (Decidable (_ ∧ _))

-- only_equals
example : gives
    c!"exact11 == 5; exact32 == 5; ::priority == 50; lpm32::prefix_length == 0; ternary32::mask == 0; optional32::mask == 0; optional28::mask == 0;"
    (solve [(c!"exact11", 5), (c!"exact32", 5), (c!"priority", 50)] all_
      c!"exact11 == 5; exact32 == 5; ::priority == 50; lpm32::prefix_length == 0; ternary32::mask == 0; optional32::mask == 0; optional28::mask == 0;")
    (exacts [5] 50 []) := by decide +kernel

-- last_byte_zero_in_exacts
example : gives
    c!"exact11 == 1280; exact32 == 1280; ::priority == 50; lpm32::prefix_length == 0; ternary32::mask == 0; optional32::mask == 0; optional28::mask == 0;"
    (solve [(c!"exact11", 1280), (c!"exact32", 1280), (c!"priority", 50)] all_
      c!"exact11 == 1280; exact32 == 1280; ::priority == 50; lpm32::prefix_length == 0; ternary32::mask == 0; optional32::mask == 0; optional28::mask == 0;")
    (exacts [5, 0] 50 []) := by decide +kernel

-- with_inequalities
example : gives
    c!"::priority > 1; ::priority < 3; lpm32::prefix_length == 0; ternary32::mask == 0; optional32::mask == 0; exact11 == 1; exact32 == 1; optional28::mask == 0;"
    (solve [(c!"exact11", 1), (c!"exact32", 1), (c!"priority", 2)] all_
      c!"::priority > 1; ::priority < 3; lpm32::prefix_length == 0; ternary32::mask == 0; optional32::mask == 0; exact11 == 1; exact32 == 1; optional28::mask == 0;")
    (exacts [1] 2 []) := by decide +kernel

-- set_lpm
example : gives
    c!"lpm32 == 5; ternary32::mask == 0; optional32::mask == 0; exact11 == 1; exact32 == 1; ::priority == 1; optional28::mask == 0;"
    (solve [(c!"exact11", 1), (c!"exact32", 1), (c!"priority", 1), (c!"lpm32", 5), (c!"lpm32_prefix_length", 32)] all_
      c!"lpm32 == 5; ternary32::mask == 0; optional32::mask == 0; exact11 == 1; exact32 == 1; ::priority == 1; optional28::mask == 0;")
    (exacts [1] 1 [⟨3, .lpm [5] 32⟩]) := by decide +kernel

-- set_ternary
example : gives
    c!"ternary32 == 5; lpm32::prefix_length == 0; optional32::mask == 0; exact11 == 1; exact32 == 1; ::priority == 1; optional28::mask == 0;"
    (solve [(c!"exact11", 1), (c!"exact32", 1), (c!"priority", 1), (c!"ternary32", 5), (c!"ternary32_mask", -1)] all_
      c!"ternary32 == 5; lpm32::prefix_length == 0; optional32::mask == 0; exact11 == 1; exact32 == 1; ::priority == 1; optional28::mask == 0;")
    (exacts [1] 1 [⟨2, .ternary [5] [255, 255, 255, 255]⟩]) := by decide +kernel

-- set_optional32
example : gives
    c!"optional32 == 5; lpm32::prefix_length == 0; ternary32::mask == 0;  exact11 == 1; exact32 == 1; ::priority == 1; optional28::mask == 0;"
    (solve [(c!"exact11", 1), (c!"exact32", 1), (c!"priority", 1), (c!"optional32", 5), (c!"optional32_mask", -1)] all_
      c!"optional32 == 5; lpm32::prefix_length == 0; ternary32::mask == 0;  exact11 == 1; exact32 == 1; ::priority == 1; optional28::mask == 0;")
    (exacts [1] 1 [⟨4, .optional [5]⟩]) := by decide +kernel

-- set_optional28
example : gives
    c!"optional28 == 5; lpm32::prefix_length == 0; ternary32::mask == 0; exact11 == 1; exact32 == 1; ::priority == 1; optional32::mask == 0;"
    (solve [(c!"exact11", 1), (c!"exact32", 1), (c!"priority", 1), (c!"optional28", 5), (c!"optional28_mask", -1)] all_
      c!"optional28 == 5; lpm32::prefix_length == 0; ternary32::mask == 0; exact11 == 1; exact32 == 1; ::priority == 1; optional32::mask == 0;")
    (exacts [1] 1 [⟨6, .optional [5]⟩]) := by decide +kernel

-- skip_optionals
example : gives
    c!"lpm32::prefix_length == 0; ternary32::mask == 0; exact11 == 1;exact32 == 1; ::priority == 1;"
    (solve [(c!"exact11", 1), (c!"exact32", 1), (c!"priority", 1)]
      (fun n => .ok (n = c!"optional32" || n = c!"optional28"))
      c!"lpm32::prefix_length == 0; ternary32::mask == 0; exact11 == 1;exact32 == 1; ::priority == 1;")
    (exacts [1] 1 []) := by decide +kernel

/-! ### AddConstraint -/

/-- `AddConstraint` on the solver for the table with the constraint `true`. -/
def addTo (text : Str) : Res Bool := do
  let m := interp [(c!"priority", 1)]
  let s ← Solver.create (oracle m) (table c!"true") all_
  (s.addConstraintStr (oracle m) sys text).1

-- NonBooleanConstraintGivesInvalidArgument, UnknownVariableGivesInvalidArgument, OnlySatisfiableConstraintCanBeAdded
example : addTo c!"42" = .err .invalidArgument := by decide +kernel
example : addTo c!"dragon == 42" = .err .invalidArgument := by decide +kernel
example : addTo c!"false" = .ok false ∧ addTo c!"true" = .ok true := by decide +kernel

-- The satisfiable cases of AdditionalConstraintTest
example : good c!"true" (solveWith [(c!"priority", 1)] c!"true" c!"true") := by decide +kernel
example : good c!"exact32 == 42;"
    (solveWith [(c!"priority", 1), (c!"exact32", 42)] c!"exact32 == 42;" c!"optional32 != 42") := by decide +kernel
example : good c!"exact32 == 42;"
    (solveWith [(c!"priority", 1), (c!"exact32", 42)] c!"exact32 == 42;" c!"exact32 != 7") := by decide +kernel

-- The unsatisfiable ones: adding_unsat_forces_unsat, related_and_conflicting_sats_are_unsat
example : Unsat (assertions c!"true" [c!"false"]) := by
  intro m h
  have h1 := h _ (List.getElem_mem (n := 9) (by decide +kernel))
  exact absurd (show false = true from h1) (by decide)
example : Unsat (assertions c!"exact32 == 42;" [c!"exact32 != 42"]) := by
  intro m h
  have h1 := h _ (List.getElem_mem (n := 8) (by decide +kernel))
  have h2 := h _ (List.getElem_mem (n := 9) (by decide +kernel))
  change (m c!"exact32" (.bv 32) == 42#32) = true at h1
  change (m c!"exact32" (.bv 32) != 42#32) = true at h2
  rw [eq_of_beq h1] at h2
  exact absurd h2 (by decide)

-- only_equals_across_both_constraints
example : gives c!"exact11 == 5; ::priority == 50; optional32::mask == 0; optional28::mask == 0;"
    (solveWith [(c!"exact11", 5), (c!"exact32", 5), (c!"priority", 50)]
      c!"exact11 == 5; ::priority == 50; optional32::mask == 0; optional28::mask == 0;"
      c!"exact32 == 5; lpm32::prefix_length == 0; ternary32::mask == 0; ")
    (exacts [5] 50 []) := by decide +kernel

-- exact_inequalities_across_both_constraints
example : gives
    c!"::priority > 1; exact32::value > 1; exact11::value > 1;lpm32::prefix_length == 0; ternary32::mask == 0; optional32::mask == 0;  optional28::mask == 0;"
    (solveWith [(c!"exact11", 2), (c!"exact32", 2), (c!"priority", 2)]
      c!"::priority > 1; exact32::value > 1; exact11::value > 1;lpm32::prefix_length == 0; ternary32::mask == 0; optional32::mask == 0;  optional28::mask == 0;"
      c!"::priority < 3; exact32::value < 3; exact11::value < 3;")
    (exacts [2] 2 []) := by decide +kernel

end P4C.Golden.Symbolic
