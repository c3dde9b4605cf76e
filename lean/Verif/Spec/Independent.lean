import Verif.Spec.SolveSigned

/-
Constraints on different keys (C96).
-/

namespace P4C.Spec

/-- The constraint says something about the key. -/
def AboutKey (n : Str) : SExpr → Prop
  | .key m => m = n
  | .not e | .neg e | .field e _ => AboutKey n e
  | .cmp _ l r | .conn _ l r => AboutKey n l ∨ AboutKey n r
  | _ => False

/-- The constraint says something about the priority. -/
def AboutPriority : SExpr → Prop
  | .attr _ => True
  | .not e | .neg e | .field e _ => AboutPriority e
  | .cmp _ l r | .conn _ l r => AboutPriority l ∨ AboutPriority r
  | _ => False

/-- No key is mentioned by both, and the priority is not, either. -/
structure Unrelated (s u : SExpr) : Prop where
  key : ∀ n, ¬ (AboutKey n s ∧ AboutKey n u)
  priority : ¬ (AboutPriority s ∧ AboutPriority u)

/-- What `s` says is independent of the constraint of the table and of the texts. -/
structure Fresh (pton : Str → Option Bytes) (d : TableDecl) (texts : List Str) (s : SExpr) : Prop where
  table : ∀ u, TableSays pton d u → Unrelated s u
  texts : ∀ text ∈ texts, ∀ u, TextSays pton d text u → Unrelated s u

/-- `entry` is like `a` where the constraint says something, and like `b` elsewhere. -/
structure Mixed (d : TableDecl) (s : SExpr) (a b entry : RtEntry) : Prop where
  about : ∀ vs, Each KeyDecl d.matchFields vs → ∀ ki ∈ vs, AboutKey ki.name s → ∀ v, KeyValue entry ki v ↔ KeyValue a ki v
  other : ∀ vs, Each KeyDecl d.matchFields vs → ∀ ki ∈ vs, ¬ AboutKey ki.name s → ∀ v, KeyValue entry ki v ↔ KeyValue b ki v
  aboutPriority : AboutPriority s → entry.priority = a.priority
  otherPriority : ¬ AboutPriority s → entry.priority = b.priority

end P4C.Spec
