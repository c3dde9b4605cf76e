import Verif.Spec.Quote

/-
Parts of constraints that cannot be quoted, and what is said instead.
-/

namespace P4C.Spec

/-- The part of the source from `a` to `b` cannot be quoted: it ends on another line than it starts on, and the line on which
it starts, from which the code deducts the width of the margin, is too short. (`p` is where that line starts. Lone carriage
returns increase the line numbers, too, but do not end lines that can be quoted; so there need not be such a line.) -/
def Unquotable (src : ConstraintSource) (a b : Loc) : Prop :=
  a.line ≠ b.line ∧ ∃ num line p, Numeral (a.line + 1) num ∧ LineOf src.str (a.line - src.loc.line).toNat line p ∧
    p < src.str.length ∧ line.length < num.length + 3 + a.col.toNat

/-- The position is on a line that the source does not have. (Lone carriage returns increase the line numbers, but do not end
the lines that are quoted.) -/
def NoSuchLine (src : ConstraintSource) (a : Loc) : Prop :=
  ∀ line p, LineOf src.str (a.line - src.loc.line).toNat line p → src.str.length ≤ p

/-- There is nothing to quote: the source has no name, or the part from `a` to `b` is on a line that it does not have. -/
def Missing (src : ConstraintSource) (a b : Loc) : Prop := src.loc.src = .notSet ∨ a ≠ b ∧ NoSuchLine src a

/-- An error about the part of the source from `a` to `b`. It has the code `code` and consists of a quotation of the part, the
words `tag`, and `text`; or, if there is nothing to quote, is an internal error that says this (in the words `failure`). -/
inductive Shown (code : Code) (tag : Str) (failure : ConstraintSource → Loc → Loc → Str) (src : ConstraintSource) (a b : Loc)
    (text : Str) : Code → Str → Prop where
  | quoted {quotation : Str} : Quotation src a b quotation → Shown code tag failure src a b text code (quotation ++ tag ++ text)
  | missing : Missing src a b → Shown code tag failure src a b text .internal (failure src a b ++ text)

end P4C.Spec
