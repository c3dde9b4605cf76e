import Verif.Proofs.Locality
import Verif.Props.Program

/-
Definitions do not interfere: property C59.
-/

namespace P4C

open Spec

/-- C59: what is said of an entry depends only on the definitions of its table and of the actions it invokes: if two
programs are accepted and have the same such definitions, the answers are the same, be it a verdict, an explanation or an
error. -/
theorem C59_local {sys : Sys} {p p' : P4Info} {ci ci' : ConstraintInfo} {entry : RtEntry}
    (h : p4ToConstraintInfo sys p = .ok ci) (h' : p4ToConstraintInfo sys p' = .ok ci')
    (ht : ∀ d : TableDecl, d.preamble.id = entry.tableId → (d ∈ p.tables ↔ d ∈ p'.tables))
    (ha : ∀ as, actionsOf entry.action = some as → ∀ a ∈ as, ∀ d : ActionDecl, d.preamble.id = a.actionId →
      (d ∈ p.actions ↔ d ∈ p'.actions)) :
    reasonEntryViolatesConstraint entry ci = reasonEntryViolatesConstraint entry ci' :=
  reason_local (table_local h h' ht) fun as has a hm => action_local h h' (ha as has a hm)

/-- Another constraint of an action, a further table or a missing action do not matter for an entry without action. -/
example (ac : Str) (ci ci' : ConstraintInfo) (t : TableDecl) (ht : t.preamble.id = 3)
    (h : p4ToConstraintInfo Ex.sys (Ex.p4info Ex.tc1 ac) = .ok ci)
    (h' : p4ToConstraintInfo Ex.sys ⟨[t, Ex.tableDecl Ex.tc1], []⟩ = .ok ci') :
    reasonEntryViolatesConstraint (Ex.entry 4) ci = reasonEntryViolatesConstraint (Ex.entry 4) ci' := by
  refine C59_local h h' (fun d hd => ?_) ?_
  · have hd : d.preamble.id = 1 := hd
    show d ∈ [_, _] ↔ d ∈ [_, _]
    simp only [List.mem_cons, List.not_mem_nil, or_false]
    constructor
    · rintro (rfl | rfl)
      · exact .inr rfl
      · cases hd
    · rintro (rfl | rfl)
      · omega
      · exact .inl rfl
  · rintro as h a ha
    cases h
    cases ha

/-- C59: parts of an accepted program are accepted, and give the same answers about entries that only concern
definitions in them. -/
theorem C59_part {sys : Sys} {p p' : P4Info} {ci' : ConstraintInfo} (ht : p.tables.Sublist p'.tables)
    (ha : p.actions.Sublist p'.actions) (h' : p4ToConstraintInfo sys p' = .ok ci') :
    ∃ ci, p4ToConstraintInfo sys p = .ok ci ∧ ∀ entry : RtEntry, (∃ d ∈ p.tables, d.preamble.id = entry.tableId) →
      (∀ as, actionsOf entry.action = some as → ∀ a ∈ as, ∃ d ∈ p.actions, d.preamble.id = a.actionId) →
      reasonEntryViolatesConstraint entry ci = reasonEntryViolatesConstraint entry ci' := by
  obtain ⟨h1, h2, h3, h4⟩ := C31_succeeds.1 ⟨ci', h'⟩
  obtain ⟨ci, h⟩ := C31_succeeds.2 ⟨h1.sublist (ht.map _), h2.sublist (ha.map _), fun d hd => h3 d (ht.subset hd),
    fun d hd => h4 d (ha.subset hd)⟩
  refine ⟨ci, h, fun entry he hea => C59_local h h' (fun d hd => ⟨fun hm => ht.subset hm, fun hm => ?_⟩)
    fun as has a hm d hd => ⟨fun hm => ha.subset hm, fun hm' => ?_⟩⟩
  · obtain ⟨d', hd', e⟩ := he
    rw [inj_of_nodup_map h1 hm (ht.subset hd') (hd.trans e.symm)]
    exact hd'
  · obtain ⟨d', hd', e⟩ := hea as has a hm
    rw [inj_of_nodup_map h2 hm' (ha.subset hd') (hd.trans e.symm)]
    exact hd'

/-- Such programs exist, and the answer is a violation. -/
example : ∃ ci r, p4ToConstraintInfo Ex.sys ⟨[Ex.tableDecl Ex.tc1], []⟩ = .ok ci ∧
    reasonEntryViolatesConstraint (Ex.entry 4) ci = .ok r ∧ r ≠ [] := by
  obtain ⟨ci, h, h1⟩ := C59_part (p := ⟨[Ex.tableDecl Ex.tc1], []⟩) (p' := Ex.p4info Ex.tc1 Ex.ac1)
    (.cons_cons _ (.cons _ .slnil)) (.cons _ (.cons _ .slnil)) Ex.accepted
  have h2 : Ex.isOk (reasonEntryViolatesConstraint (Ex.entry 4) (Ex.ci Ex.tc1 Ex.ac1)) = true := by decide +kernel
  refine ⟨ci, Ex.get [] (reasonEntryViolatesConstraint (Ex.entry 4) (Ex.ci Ex.tc1 Ex.ac1)), h, ?_, by decide +kernel⟩
  rw [h1 (Ex.entry 4) ⟨_, List.mem_cons_self, rfl⟩ fun as h a ha => by cases h; cases ha]
  exact Ex.get_of_isOk h2

end P4C
