import Verif.Spec.Order

/-
Specification of entries that differ in the order of their parts only (property C63). P4Runtime gives no meaning
to the order of the match fields of an entry, nor to the order of the arguments of an action.
-/

namespace P4C.Spec

/-- Two action invocations that differ in the order of the arguments only. -/
structure ShuffledAction (a b : RtAction) : Prop where
  id : a.actionId = b.actionId
  params : a.params.Perm b.params

/-- Two actions of entries that differ in the order of the arguments of each action only. -/
inductive ShuffledTableAction : Option TableAction → Option TableAction → Prop where
  | none : ShuffledTableAction none none
  | notSet : ShuffledTableAction (some .notSet) (some .notSet)
  | member (n : Nat) : ShuffledTableAction (some (.memberId n)) (some (.memberId n))
  | group (n : Nat) : ShuffledTableAction (some (.groupId n)) (some (.groupId n))
  | action {a b : RtAction} : ShuffledAction a b → ShuffledTableAction (some (.action a)) (some (.action b))
  | set {as bs : List RtAction} : Each ShuffledAction as bs →
      ShuffledTableAction (some (.actionSet as)) (some (.actionSet bs))

/-- Two entries that differ in the order of match fields, and of the arguments of each action, only. -/
structure Shuffled (a b : RtEntry) : Prop where
  table : a.tableId = b.tableId
  priority : a.priority = b.priority
  matches_ : a.matches_.Perm b.matches_
  action : ShuffledTableAction a.action b.action

/-- Two entries that differ in the order of the members of an action set only. -/
structure SetShuffled (a b : RtEntry) : Prop where
  table : a.tableId = b.tableId
  priority : a.priority = b.priority
  matches_ : a.matches_ = b.matches_
  action : ∃ as bs, a.action = some (.actionSet as) ∧ b.action = some (.actionSet bs) ∧ as.Perm bs

/-- All keys of all tables are of one of the five match kinds, with sensible widths. -/
def KindsOk (ci : ConstraintInfo) : Prop :=
  ∀ t ti id ki, (t, ti) ∈ ci.tables → (id, ki) ∈ ti.keysById → MatchKind ki.ty

end P4C.Spec
