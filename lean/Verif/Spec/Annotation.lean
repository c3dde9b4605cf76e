import Verif.Spec.Numeral
import Verif.Spec.Lexical
import Verif.Model.ConstraintInfo

/-
Specification of the annotations by which constraints are attached to tables and actions
(docs/language-specification.md, constraint_info.cc:84-103), for property C30.
-/

namespace P4C.Spec

/-- The annotation that carries a constraint. -/
def restriction : ConstraintKind → Str
  | .table => c!"@entry_restriction"
  | .action => c!"@action_restriction"

/-- `@file("f")`, possibly followed by more text. -/
inductive FileAnn : Str → Str → Prop where
  | mk {f : Str} (rest : Str) : Runes f → '"' ∉ f → FileAnn (c!"@file(\"" ++ f ++ c!"\")" ++ rest) f

/-- `@line(n)`, possibly followed by more text; `n` is below 2^31. -/
inductive LineAnn : Str → Nat → Prop where
  | mk {ds : Str} {n : Nat} (rest : Str) : NumVal 10 ds n → n ≤ 2147483647 →
      LineAnn (c!"@line(" ++ ds ++ c!")" ++ rest) n

/-- The file and the line set by a list of annotations: in each case the last one counts. -/
inductive Position : List Str → Str → Nat → Prop where
  | start : Position [] [] 0
  | file {as : List Str} {a f f' : Str} {n : Nat} : Position as f n → FileAnn a f' → Position (as ++ [a]) f' n
  | line {as : List Str} {a f : Str} {n n' : Nat} : Position as f n → LineAnn a n' → Position (as ++ [a]) f n'
  | other {as : List Str} {a f : Str} {n : Nat} : Position as f n → (∀ f', ¬ FileAnn a f') → (∀ n', ¬ LineAnn a n') →
      Position (as ++ [a]) f n

/-- Texts joined by a separator. -/
def join (sep : Str) : List Str → Str
  | [] => []
  | [s] => s
  | s :: ss => s ++ sep ++ join sep ss

/-- `("s1" "s2" ... "sn")`, where no part contains a quotation mark. -/
def Quoted (body : Str) (parts : List Str) : Prop :=
  parts ≠ [] ∧ (∀ s ∈ parts, '"' ∉ s) ∧ body = c!"(\"" ++ join c!"\" \"" parts ++ c!"\")"

/-- The location reported for a constraint: the line set by `@line`, column 0, and the file set by `@file`, or
else the name of the table or action. -/
def location (k : ConstraintKind) (name file : Str) (line : Nat) : Loc :=
  { line := line, col := 0,
    src := if file ≠ [] then .filePath file else
      match k with
      | .table => .tableName name
      | .action => .actionName name }

end P4C.Spec
