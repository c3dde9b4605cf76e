import Verif.Spec.Numeral
import Verif.Model.Quote

/-
Quotations of constraints in messages.
-/

namespace P4C.Spec

/-- `Shows text n line col len`: the last two lines of the text show the source line `line`, preceded by its
number `n`, and below it `len` markers starting at column `col` of the line. -/
def Shows (text : Str) (n : Int) (line : Str) (col len : Nat) : Prop :=
  ∃ header num, (∀ m : Nat, n = m → Canonical num m) ∧
    text = header ++ (num ++ c!" | " ++ line ++ c!"\n") ++
      (List.replicate num.length ' ' ++ c!" | " ++ List.replicate col ' ' ++ List.replicate len '^' ++ c!"\n")

/-- The canonical decimal numeral of a natural number given as an integer. -/
def Numeral (z : Int) (s : Str) : Prop := ∃ n : Nat, z = n ∧ Canonical s n

/-- How the interval from `a` to `b` of a file is written after the position of `a`: lines and columns are counted
from one, and the last column is that of the last character. -/
inductive FileEnd (a b : Loc) : Str → Prop where
  | lines {l c : Str} : a.line < b.line → Numeral (b.line + 1) l → Numeral b.col c → FileEnd a b (c!"-" ++ l ++ c!":" ++ c)
  | columns {c : Str} : b.line ≤ a.line → a.col + 1 < b.col → Numeral b.col c → FileEnd a b (c!"-" ++ c)
  | single : b.line ≤ a.line → b.col ≤ a.col + 1 → FileEnd a b []

/-- The same for the text of an annotation. (In the first case the code omits a space.) -/
inductive Columns (a b : Loc) : Str → Prop where
  | lines {k l c : Str} : a.line < b.line → Numeral (a.col + 1) k → Numeral (b.line + 1) l → Numeral b.col c →
      Columns a b (c!", column " ++ k ++ c!" to line " ++ l ++ c!", column" ++ c)
  | columns {k c : Str} : b.line ≤ a.line → a.col + 1 < b.col → Numeral (a.col + 1) k → Numeral b.col c →
      Columns a b (c!", columns " ++ k ++ c!" to " ++ c)
  | single {k : Str} : b.line ≤ a.line → b.col ≤ a.col + 1 → Numeral (a.col + 1) k → Columns a b (c!", column " ++ k)

/-- The first line of a quotation of the interval from `a` to `b`, which says where the constraint comes from and
where in it the interval lies. -/
inductive Header (a b : Loc) : Str → Prop where
  | file {f l c t : Str} : a.src = .filePath f → Numeral (a.line + 1) l → Numeral (a.col + 1) c → FileEnd a b t →
      Header a b (f ++ c!":" ++ l ++ c!":" ++ c ++ t ++ c!":\n")
  | table {n l t : Str} : a.src = .tableName n → Numeral (a.line + 1) l → Columns a b t →
      Header a b (c!"In @entry_restriction of table '" ++ n ++ c!"'; at offset line " ++ l ++ t ++ c!":\n")
  | action {n l t : Str} : a.src = .actionName n → Numeral (a.line + 1) l → Columns a b t →
      Header a b (c!"In @action_restriction of action '" ++ n ++ c!"'; at offset line " ++ l ++ t ++ c!":\n")

/-- `LineOf s n line p`: the text `s` has `n` line breaks before the line `line`, which starts `p` characters
into the text. Line breaks are `\n`. -/
def LineOf (s : Str) (n : Nat) (line : Str) (p : Nat) : Prop :=
  ∃ a b, s = a ++ line ++ b ∧ a.length = p ∧ a.count '\n' = n ∧ (a = [] ∨ ∃ a', a = a' ++ ['\n']) ∧ '\n' ∉ line ∧
    (b = [] ∨ ∃ b', b = '\n' :: b')

/-- What is shown of the text before the line with `n` line breaks before it: the previous line, if there is one,
next to a blank margin. -/
inductive Context (s : Str) (n : Nat) (margin : Str) : Str → Prop where
  | first : n = 0 → Context s n margin []
  | previous {line : Str} {p : Nat} : 0 < n → LineOf s (n - 1) line p →
      Context s n margin (margin ++ c!" | " ++ line ++ c!"\n")

/-- The rest of the quotation of the interval from `a` to `b`: the line on which the interval starts, with its number,
the line before it, and markers below, from the column of `a` on. They end before the column of `b` if this is on the
same line. (Otherwise the code deducts the width of the margin from the length of the line.) -/
inductive Excerpt (src : ConstraintSource) (a b : Loc) : Str → Prop where
  | empty : a = b → Excerpt src a b []
  | line {num ctx line : Str} {p len : Nat} : a ≠ b → Numeral (a.line + 1) num →
      LineOf src.str (a.line - src.loc.line).toNat line p → p < src.str.length →
      Context src.str (a.line - src.loc.line).toNat (List.replicate num.length ' ') ctx →
      (a.line = b.line → b.col = a.col + len) →
      (a.line ≠ b.line → line.length = num.length + 3 + a.col.toNat + len) →
      Excerpt src a b (ctx ++ (num ++ c!" | " ++ line ++ c!"\n") ++ (List.replicate num.length ' ' ++ c!" | " ++
        List.replicate a.col.toNat ' ' ++ List.replicate len '^' ++ c!"\n"))

/-- The quotation of an interval of a constraint. -/
def Quotation (src : ConstraintSource) (a b : Loc) (text : Str) : Prop :=
  a.src = src.loc.src ∧ b.src = src.loc.src ∧ ∃ h q, Header a b h ∧ Excerpt src a b q ∧ text = h ++ q

/-- The text has no carriage return that is not followed by a line feed. -/
def CrLf (s : Str) : Prop := ∀ a b, s = a ++ '\r' :: b → ∃ c, b = '\n' :: c

/-- Nodes of a syntax tree. -/
inductive NodeOf : Expr → Expr → Prop where
  | self (e : Expr) : NodeOf e e
  | boolNeg {i : Info} {x e : Expr} : NodeOf x e → NodeOf x (.boolNeg i e)
  | arithNeg {i : Info} {x e : Expr} : NodeOf x e → NodeOf x (.arithNeg i e)
  | typeCast {i : Info} {x e : Expr} : NodeOf x e → NodeOf x (.typeCast i e)
  | field {i : Info} {x e : Expr} {f : Str} : NodeOf x e → NodeOf x (.field i e f)
  | left {i : Info} {op : BinOp} {x l r : Expr} : NodeOf x l → NodeOf x (.bin i op l r)
  | right {i : Info} {op : BinOp} {x l r : Expr} : NodeOf x r → NodeOf x (.bin i op l r)

end P4C.Spec
