import Verif.Spec.Violation

/-
Changes of programs that leave the constraints and what they are about alone: keys that entries may omit, parameters,
tables and actions are added, or declarations are listed in another order.
-/

namespace P4C.Spec

/-- Keys that an entry need not mention. -/
def MayOmit (f : MatchField) : Prop :=
  f.kind = .matchType .ternary ∨ f.kind = .matchType .lpm ∨ f.kind = .matchType .range ∨ f.kind = .matchType .optional

/-- The table `d'` has the keys of `d`, in any order, and possibly more that entries need not mention. Different keys have
different ids and names. -/
structure TableGrows (d d' : TableDecl) : Prop where
  preamble : d'.preamble = d.preamble
  kept : ∀ f ∈ d.matchFields, f ∈ d'.matchFields
  added : ∀ f ∈ d'.matchFields, f ∈ d.matchFields ∨ MayOmit f
  ids : (d'.matchFields.map fun f => f.id).Nodup
  names : (d'.matchFields.map fun f => f.name).Nodup

/-- The action `d'` has the parameters of `d`, in any order, and possibly more. Different parameters have different ids and
names. -/
structure ActionGrows (d d' : ActionDecl) : Prop where
  preamble : d'.preamble = d.preamble
  kept : ∀ f ∈ d.params, f ∈ d'.params
  ids : (d'.params.map fun f => f.id).Nodup
  names : (d'.params.map fun f => f.name).Nodup

/-- The program `p'` has the tables and actions of `p`, grown, in any order, and possibly more. -/
structure ProgramGrows (p p' : P4Info) : Prop where
  tables : ∀ d ∈ p.tables, ∃ d' ∈ p'.tables, TableGrows d d'
  actions : ∀ d ∈ p.actions, ∃ d' ∈ p'.actions, ActionGrows d d'

/-- An invocation of an action of the program, with arguments for parameters of this action. -/
def KnownAction (p : P4Info) (a : RtAction) : Prop :=
  ∃ d ∈ p.actions, d.preamble.id = a.actionId ∧ ∀ q ∈ a.params, ∃ f ∈ d.params, f.id = q.1

/-- An entry for a table of the program, with matches for keys of this table and actions of the program. -/
def KnownEntry (p : P4Info) (entry : RtEntry) : Prop :=
  (∃ d ∈ p.tables, d.preamble.id = entry.tableId ∧ ∀ m ∈ entry.matches_, ∃ f ∈ d.matchFields, f.id = m.fieldId) ∧
  ∀ as, actionsOf entry.action = some as → ∀ a ∈ as, KnownAction p a

end P4C.Spec
