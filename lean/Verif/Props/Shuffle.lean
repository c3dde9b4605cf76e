import Verif.Proofs.Shuffle
import Verif.Props.Entries

/-
The order of the parts of an entry: property C63.
-/

namespace P4C

open Spec

/-- C63: entries that differ in the order of match fields and of arguments get the same answers: the same verdict,
with the same explanation. -/
theorem C63_answers {sys : Sys} {p : P4Info} {ci : ConstraintInfo} (hci : p4ToConstraintInfo sys p = .ok ci)
    {a b : RtEntry} (h : Shuffled a b) (msg : Str) :
    reasonEntryViolatesConstraint a ci = .ok msg ↔ reasonEntryViolatesConstraint b ci = .ok msg := by
  rcases reason_alike (s := False) (C07_wellFormed hci) False.elim h with h' | ⟨h1, h2⟩
  · rw [h']
  · exact ⟨fun h => absurd h (h1.1 msg), fun h => absurd h (h2.1 msg)⟩

/-- C63: if one of them is rejected with an error, so is the other. -/
theorem C63_errors {sys : Sys} {p : P4Info} {ci : ConstraintInfo} (hci : p4ToConstraintInfo sys p = .ok ci)
    (hk : KindsOk ci) {a b : RtEntry} (h : Shuffled a b) :
    reasonEntryViolatesConstraint a ci = reasonEntryViolatesConstraint b ci ∨
    ∃ c d, reasonEntryViolatesConstraint a ci = .err c ∧ reasonEntryViolatesConstraint b ci = .err d := by
  rcases reason_alike (s := True) (C07_wellFormed hci) (fun _ => hk) h with h' | ⟨h1, h2⟩
  · exact .inl h'
  · obtain ⟨c, hc⟩ := h1.2 trivial
    obtain ⟨d, hd⟩ := h2.2 trivial
    exact .inr ⟨c, d, hc, hd⟩

/-- C63: the order of the arguments of an action does not even change the error. -/
theorem C63_action {sys : Sys} {p : P4Info} {ci : ConstraintInfo} (hci : p4ToConstraintInfo sys p = .ok ci)
    {a b : RtAction} (h : ShuffledAction a b) : reasonAction a ci = reasonAction b ci :=
  reasonAction_shuffled (C07_wellFormed hci) h

/-- C63: whether an entry with an action set is accepted does not depend on the order of the set. (Which violation
is reported does, see C11.) -/
theorem C63_set {ci : ConstraintInfo} {a b : RtEntry} (h : SetShuffled a b) :
    reasonEntryViolatesConstraint a ci = .ok [] ↔ reasonEntryViolatesConstraint b ci = .ok [] := by
  cases hl : lookup b.tableId ci.tables with
  | none =>
    unfold reasonEntryViolatesConstraint getTableInfo
    rw [h.table, hl]
  | some ti =>
    obtain ⟨as, bs, ha, hb, hperm⟩ := h.action
    rw [reason_nil hl, reason_nil (h.table ▸ hl), tableReason_matches h.matches_ h.priority, ha, hb]
    exact and_congr_right fun _ => reasonActionSet_perm hperm

/-- An entry and the same entry in another order, which violate a constraint. -/
def Ex.inOrder : RtEntry :=
  { Ex.entry 5 with action := some (.actionSet [⟨7, [(1, [1]), (2, [2])]⟩, ⟨7, [(1, [9]), (2, [4])]⟩]) }

/-- The same in another order. -/
def Ex.outOfOrder : RtEntry :=
  { Ex.entry 5 with
    matches_ := [⟨5, .optional [3]⟩, ⟨1, .exact [5]⟩]
    action := some (.actionSet [⟨7, [(2, [2]), (1, [1])]⟩, ⟨7, [(1, [9]), (2, [4])]⟩]) }

theorem Ex.shuffled : Shuffled Ex.inOrder Ex.outOfOrder :=
  ⟨rfl, rfl, .swap _ _ _, .set (.cons ⟨rfl, .swap _ _ _⟩ (.cons ⟨rfl, .refl _⟩ .nil))⟩

/-- The entries are not equal, and are answered. -/
example : Ex.inOrder ≠ Ex.outOfOrder ∧ Shuffled Ex.inOrder Ex.outOfOrder ∧
    ∃ msg, msg ≠ [] ∧ reasonEntryViolatesConstraint Ex.inOrder (Ex.ci Ex.tc1 Ex.ac1) = .ok msg ∧
      reasonEntryViolatesConstraint Ex.outOfOrder (Ex.ci Ex.tc1 Ex.ac1) = .ok msg :=
  ⟨by decide, Ex.shuffled, Ex.get [] (reasonEntryViolatesConstraint Ex.inOrder (Ex.ci Ex.tc1 Ex.ac1)),
    by decide +kernel, Ex.get_of_isOk (by decide +kernel),
    (C63_answers (sys := Ex.sys) (p := Ex.p4info Ex.tc1 Ex.ac1) (Ex.get_of_isOk (by decide +kernel)) Ex.shuffled _).1
      (Ex.get_of_isOk (by decide +kernel))⟩

/-- An entry with two defects: the key `1` of the table is exact, and there is no key `99`. -/
def Ex.defects : RtEntry := { tableId := 1, matches_ := [⟨1, .optional [5]⟩, ⟨99, .exact [5]⟩], priority := 10 }

/-- C63: the codes may differ, since the first defect is reported. -/
theorem C63_codes_differ : ∃ sys p ci, p4ToConstraintInfo sys p = .ok ci ∧ ∃ a b : RtEntry, Shuffled a b ∧
    reasonEntryViolatesConstraint a ci = .err .internal ∧
    reasonEntryViolatesConstraint b ci = .err .invalidArgument :=
  ⟨Ex.sys, Ex.p4info Ex.tc1 Ex.ac1, Ex.ci Ex.tc1 Ex.ac1, Ex.get_of_isOk (d := ⟨[], []⟩) (by decide +kernel),
    Ex.defects, { Ex.defects with matches_ := Ex.defects.matches_.reverse },
    ⟨rfl, rfl, .swap _ _ _, .none⟩, by decide +kernel, by decide +kernel⟩

end P4C
