import Verif.Spec.Solve
import Verif.Spec.Cost

/-
The size of what a constraint solver asserts.
-/

namespace P4C.Spec

/-- The number of nodes of a Z3 term. -/
def termNodes : {s : Srt} → Term s → Nat
  | _, .boolVal _ | _, .intVal _ | _, .bvVal _ | _, .const .. => 1
  | _, .not a | _, .neg a | _, .bvneg a | _, .int2bv _ a => 1 + termNodes a
  | _, .eq a b | _, .ne a b | _, .and a b | _, .or a b | _, .implies a b
  | _, .lt a b | _, .le a b | _, .gt a b | _, .ge a b | _, .slt a b | _, .sle a b | _, .sgt a b | _, .sge a b
  | _, .sub a b | _, .bvand a b | _, .shl a b | _, .lshr a b => 1 + termNodes a + termNodes b

/-- The number of nodes of all assertions of a solver. -/
def assertedNodes (s : Solver) : Nat := (s.assertions.map termNodes).sum

/-- An allowance for each key of the table, for the priority, and for each character of the constraint of the table and of
the texts. -/
def solverSize (ti : TableInfo) (texts : List Str) : Nat :=
  21 * ti.keysByName.length + 6 + 9 * (ti.source.str.length + (texts.map List.length).sum)

/-- Two versions of Z3 that give the same answers to the queries from the given number on, up to another one, about assertions
with at most so many nodes. -/
def SameAnswers (z z' : Z3Oracle) (first last size : Nat) : Prop :=
  ∀ n as, first ≤ n → n < last → (as.map termNodes).sum ≤ size → z.check n as = z'.check n as

end P4C.Spec
