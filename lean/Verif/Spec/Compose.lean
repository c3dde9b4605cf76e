import Verif.Spec.Layout
import Verif.Spec.Accept

/-
Constraints made from the texts of other constraints.
-/

namespace P4C.Spec

/-- The text, on a line of its own, consists of whole separators and whole tokens. In particular a block comment in it has
an end. -/
def Closed (s : Str) : Prop := ∃ ts, Reads [] (s ++ c!"\n") ts

/-- The connective as written. -/
def connText : Conn → Str
  | .and => c!"&&"
  | .or => c!"||"
  | .implies => c!"->"

/-- The text of the constraint `(a) o (b)`, where `a` and `b` are on lines of their own. -/
def joined (o : Conn) (a b : Str) : Str := c!"(\n" ++ a ++ c!"\n) " ++ connText o ++ c!" (\n" ++ b ++ c!"\n)"

/-- The text of the constraint `!(a)`, where `a` is on a line of its own. -/
def negated (a : Str) : Str := c!"! (\n" ++ a ++ c!"\n)"

/-- The text of the constraint attached. -/
def Says (k : ConstraintKind) (p : Preamble) (s : Str) : Prop := ∃ src, Attached k p (some src) ∧ src.str = s

/-- Three declarations of a table, alike except for their constraints. That of `d` is made from those of `a` and `b`. -/
structure TableJoined (o : Conn) (a b d : TableDecl) : Prop where
  ids : a.preamble.id = d.preamble.id ∧ b.preamble.id = d.preamble.id
  keys : a.matchFields = d.matchFields ∧ b.matchFields = d.matchFields
  texts : ∃ s t, Says .table a.preamble s ∧ Says .table b.preamble t ∧ Says .table d.preamble (joined o s t) ∧ Closed s ∧ Closed t

/-- Two declarations of a table, alike except that the constraint of `d` is the negation of that of `a`. -/
structure TableNegated (a d : TableDecl) : Prop where
  ids : a.preamble.id = d.preamble.id
  keys : a.matchFields = d.matchFields
  texts : ∃ s, Says .table a.preamble s ∧ Says .table d.preamble (negated s) ∧ Closed s

structure ActionJoined (o : Conn) (a b d : ActionDecl) : Prop where
  ids : a.preamble.id = d.preamble.id ∧ b.preamble.id = d.preamble.id
  params : a.params = d.params ∧ b.params = d.params
  texts : ∃ s t, Says .action a.preamble s ∧ Says .action b.preamble t ∧ Says .action d.preamble (joined o s t) ∧ Closed s ∧ Closed t

structure ActionNegated (a d : ActionDecl) : Prop where
  ids : a.preamble.id = d.preamble.id
  params : a.params = d.params
  texts : ∃ s, Says .action a.preamble s ∧ Says .action d.preamble (negated s) ∧ Closed s

/-- The constraint of the table is of boolean type. -/
def TableBoolean (pton : Str → Option Bytes) (d : TableDecl) : Prop :=
  ∃ vs src e s, Each KeyDecl d.matchFields vs ∧ ReadConstraint pton .table (keySig vs) d.preamble (some (src, e, s, .boolean))

/-- The constraint of the action is of boolean type. -/
def ActionBoolean (pton : Str → Option Bytes) (d : ActionDecl) : Prop :=
  ∃ vs src e s, Each ParamIs d.params vs ∧ ReadConstraint pton .action (paramSig vs) d.preamble (some (src, e, s, .boolean))

end P4C.Spec
