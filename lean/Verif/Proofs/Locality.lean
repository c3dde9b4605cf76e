import Verif.Proofs.Program2
import Verif.Spec.Verdict

/-
What a verdict depends on in the program.
-/

namespace P4C

open Spec

theorem inj_of_nodup_map {α β : Type} {f : α → β} {l : List α} (h : (l.map f).Nodup) {a b : α} (ha : a ∈ l) (hb : b ∈ l)
    (hab : f a = f b) : a = b := by
  induction l with
  | nil => cases ha
  | cons x l ih =>
    rw [List.map_cons, List.nodup_cons] at h
    rcases List.mem_cons.1 ha with rfl | ha'
    · rcases List.mem_cons.1 hb with rfl | hb
      · rfl
      · exact (h.1 (hab ▸ List.mem_map_of_mem hb)).elim
    · rcases List.mem_cons.1 hb with rfl | hb
      · exact (h.1 (hab ▸ List.mem_map_of_mem ha')).elim
      · exact ih h.2 ha' hb

theorem reason_local {ci ci' : ConstraintInfo} {entry : RtEntry}
    (ht : lookup entry.tableId ci.tables = lookup entry.tableId ci'.tables)
    (ha : ∀ as, actionsOf entry.action = some as → ∀ a ∈ as, lookup a.actionId ci.actions = lookup a.actionId ci'.actions) :
    reasonEntryViolatesConstraint entry ci = reasonEntryViolatesConstraint entry ci' := by
  have h1 : ∀ a, lookup a.actionId ci.actions = lookup a.actionId ci'.actions → reasonAction a ci = reasonAction a ci' := by
    intro a h
    unfold reasonAction getActionInfo
    rw [h]
  have h2 : ∀ as : List RtAction, (∀ a ∈ as, lookup a.actionId ci.actions = lookup a.actionId ci'.actions) →
      reasonActionSet ci as = reasonActionSet ci' as := by
    intro as h
    induction as with
    | nil => rfl
    | cons a as ih =>
      unfold reasonActionSet
      rw [h1 a (h a List.mem_cons_self), ih fun b hb => h b (List.mem_cons_of_mem _ hb)]
  have h3 : reasonTableAction ci entry.action = reasonTableAction ci' entry.action := by
    unfold reasonTableAction
    cases hta : entry.action with
    | none => rfl
    | some ta =>
      rw [hta] at ha
      cases ta with
      | action a => exact h1 _ (ha [a] rfl a List.mem_cons_self)
      | actionSet as => exact h2 _ (ha as rfl)
      | notSet => rfl
      | memberId => rfl
      | groupId => rfl
  unfold reasonEntryViolatesConstraint getTableInfo
  rw [ht]
  simp only [h3]

theorem table_local {sys : Sys} {p p' : P4Info} {ci ci' : ConstraintInfo} (h : p4ToConstraintInfo sys p = .ok ci)
    (h' : p4ToConstraintInfo sys p' = .ok ci') {id : Nat}
    (hd : ∀ d : TableDecl, d.preamble.id = id → (d ∈ p.tables ↔ d ∈ p'.tables)) :
    lookup id ci.tables = lookup id ci'.tables := by
  apply Option.ext
  intro ti
  rw [table_of_info h, table_of_info h']
  constructor
  · rintro ⟨d, h1, h2, h3⟩
    exact ⟨d, (hd d h2).1 h1, h2, h3⟩
  · rintro ⟨d, h1, h2, h3⟩
    exact ⟨d, (hd d h2).2 h1, h2, h3⟩

theorem action_local {sys : Sys} {p p' : P4Info} {ci ci' : ConstraintInfo} (h : p4ToConstraintInfo sys p = .ok ci)
    (h' : p4ToConstraintInfo sys p' = .ok ci') {id : Nat}
    (hd : ∀ d : ActionDecl, d.preamble.id = id → (d ∈ p.actions ↔ d ∈ p'.actions)) :
    lookup id ci.actions = lookup id ci'.actions := by
  apply Option.ext
  intro ti
  rw [action_of_info h, action_of_info h']
  constructor
  · rintro ⟨d, h1, h2, h3⟩
    exact ⟨d, (hd d h2).1 h1, h2, h3⟩
  · rintro ⟨d, h1, h2, h3⟩
    exact ⟨d, (hd d h2).2 h1, h2, h3⟩

end P4C
