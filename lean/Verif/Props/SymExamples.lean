import Verif.Proofs.Solver3
import Verif.Props.Examples

/-
Programs and models used in the examples beside the theorems on the symbolic interpreter.
-/

namespace P4C.Ex

open Spec

open Classical in
/-- A perfect solver. -/
noncomputable def perfect : Z3Oracle where
  check _ as := if h : ∃ m : Interp, ∀ a ∈ as, a.den m = true then .sat (choose h) fun _ _ => true else .unsat

theorem perfect_sound : perfect.Sound := by
  constructor
  · intro n as val h hc
    simp only [perfect] at hc
    split at hc
    · rename_i hex
      cases hc
      exact Classical.choose_spec hex
    · cases hc
  · intro n as hc val
    simp only [perfect] at hc
    split at hc
    · cases hc
    · rename_i hex
      refine Classical.byContradiction fun hne => hex ⟨val, fun a ha => ?_⟩
      cases hv : (a.den val : Bool) with
      | true => rfl
      | false => exact (hne ⟨a, ha, hv⟩).elim

theorem perfect_decides : Z3Oracle.Decides perfect := by
  intro n as hc
  simp only [perfect] at hc
  split at hc <;> cases hc

theorem perfect_deterministic : Z3Oracle.Deterministic perfect := fun _ _ _ => rfl

theorem perfect_priority : Z3Oracle.InterpretsPriority perfect := by
  intro n as val h hc _
  simp only [perfect] at hc
  split at hc
  · cases hc
    rfl
  · cases hc

/-- The annotation with the constraint. -/
def annotations (constraint : Str) : List Str :=
  match constraint with
  | [] => []
  | _ => [c!"@entry_restriction(\"" ++ constraint ++ c!"\")"]

/-- A table with one key of every supported match kind. -/
def symDecl (constraint : Str) : TableDecl :=
  { preamble := ⟨1, c!"tbl", annotations constraint⟩
    matchFields := [⟨1, c!"ex", 32, .matchType .exact⟩, ⟨2, c!"tern", 8, .matchType .ternary⟩,
      ⟨3, c!"pre", 16, .matchType .lpm⟩, ⟨4, c!"opt", 4, .matchType .optional⟩] }

/-- The program. -/
def symInfo (d : TableDecl) : P4Info := ⟨[d], []⟩

/-- The definitions of the program. -/
def symCi (d : TableDecl) : ConstraintInfo := get ⟨[], []⟩ (p4ToConstraintInfo sys (symInfo d))

/-- The definition of the table. -/
def symTi (d : TableDecl) : TableInfo := get ⟨0, [], none, {}, [], []⟩ (parseTableInfo sys d)

/-- The constraint of the table as parsed. -/
def symExpr (d : TableDecl) : Expr := get (.notSet {}) (parseConstraint sys .table (symTi d).source)

/-- The constraint of the table. -/
def symC (d : TableDecl) : Expr := (symTi d).constraint.getD (.notSet {})

/-- Nothing is skipped. -/
def noSkip : Str → Res Bool := fun _ => .ok false

/-- A model that gives the constants below the values listed, and 0 (or 1, for integers) to others. -/
def model (l : List (Str × Nat)) : Interp := fun n s =>
  match s with
  | .bool => false
  | .int => (((lookup n l).getD 1 : Nat) : Int)
  | .bv w => BitVec.ofNat w ((lookup n l).getD 0)

/-- The table is read successfully, its constraint has the abstract syntax `s`. -/
def symOk (d : TableDecl) (s : SExpr) : Bool :=
  isOk (parseTableInfo sys d) &&
  isOk (inferAndCheck (symTi d).source (.table (symTi d).keysByName) (symExpr d)) &&
  decide ((symTi d).constraint = some (symC d)) &&
  decide (get (.notSet {}) (inferAndCheck (symTi d).source (.table (symTi d).keysByName) (symExpr d)) = symC d) &&
  decide (abs (symExpr d) = some s) && decide ((symC d).ty = .boolean) &&
  (symTi d).keysByName.all (fun k => nonNegB k.2.ty)

theorem sym_of_ok {d : TableDecl} {s : SExpr} (h : symOk d s = true) :
    TableWF (symTi d) ∧ WidthsOk (sigOf (.table (symTi d).keysByName)) ∧
    (symTi d).constraint = some (symC d) ∧ Checked (.table (symTi d).keysByName) (symC d) s ∧ (symC d).ty = .boolean := by
  simp only [symOk, Bool.and_eq_true, decide_eq_true_eq] at h
  obtain ⟨⟨⟨⟨⟨⟨h1, h2⟩, h3⟩, h4⟩, h5⟩, h6⟩, h7⟩ := h
  exact ⟨parseTableInfo_wf (get_of_isOk h1), widthsOk_table h7, h3,
    ⟨_, symExpr d, by rw [get_of_isOk (d := .notSet {}) h2, h4], h5⟩, h6⟩

/-- A constraint using most of the language, and its abstract syntax. -/
def sc1 : Str := c!"ex == 5 && (tern::mask == 0 -> pre::prefix_length < 9); !(opt != 3) || ::priority > 100"

def d1 : TableDecl := symDecl sc1

theorem d1_ok : symOk d1 s1 = true := by decide +kernel

/-- A model of the constraint. -/
def m1 : Interp := model [(c!"ex", 5), (c!"tern", 16), (c!"tern_mask", 240), (c!"pre", 0xab00), (c!"pre_prefix_length", 8),
  (c!"opt", 3), (c!"opt_mask", 15), (c!"priority", 7)]

/-- The entry described by the model. -/
def e1 : RtEntry :=
  { tableId := 1, priority := 7,
    matches_ := [⟨1, .exact [5]⟩, ⟨4, .optional [3]⟩, ⟨3, .lpm [0xab, 0] 8⟩, ⟨2, .ternary [16] [240]⟩] }

example : ∃ s, Solver.create (constOracle m1) (symTi d1) noSkip = .ok s ∧ (s.concretize (constOracle m1)).1 = .ok e1 := by
  have h : isOk (Solver.create (constOracle m1) (symTi d1) noSkip) = true := by decide +kernel
  refine ⟨_, get_of_isOk (d := ⟨0, [], symTi d1, ⟨[], []⟩, noSkip⟩) h, by decide +kernel⟩

end P4C.Ex
