import Verif.Props.Accept

/-!
# C66: constraints made from the texts of other constraints
-/

namespace P4C

open Spec

section
variable {sys : Sys} {ts : List TableDecl} {as : List ActionDecl} {a b d : TableDecl} {ci ca cb : ConstraintInfo}

/-- C66: programs with the constraint `(A) o (B)` in place of the constraint `A`, or `B`, of a table are accepted exactly if
`A` and `B` are boolean. -/
theorem C66_accepted {o : Spec.Conn} (h : TableJoined o a b d) (ha : p4ToConstraintInfo sys ⟨a :: ts, as⟩ = .ok ca)
    (hb : p4ToConstraintInfo sys ⟨b :: ts, as⟩ = .ok cb) :
    (∃ ci, p4ToConstraintInfo sys ⟨d :: ts, as⟩ = .ok ci) ↔ TableBoolean sys.inetPton6 a ∧ TableBoolean sys.inetPton6 b := by
  obtain ⟨h1, h2, h3, h4⟩ := p4ToConstraintInfo_succeeds.1 ⟨_, ha⟩
  rw [← goodTable_joined h (goodTable_of ha) (goodTable_of hb), p4ToConstraintInfo_succeeds]
  constructor
  · exact fun h => h.2.2.1 d (by simp)
  · intro hg
    refine ⟨?_, h2, ?_, h4⟩
    · simpa [h.ids.1] using h1
    · exact List.forall_mem_cons.2 ⟨hg, fun x hx => h3 x (List.mem_cons_of_mem _ hx)⟩

/-- C66: the same for `!(A)`. -/
theorem C66_accepted_not (h : TableNegated a d) (ha : p4ToConstraintInfo sys ⟨a :: ts, as⟩ = .ok ca) :
    (∃ ci, p4ToConstraintInfo sys ⟨d :: ts, as⟩ = .ok ci) ↔ TableBoolean sys.inetPton6 a := by
  obtain ⟨h1, h2, h3, h4⟩ := p4ToConstraintInfo_succeeds.1 ⟨_, ha⟩
  rw [← goodTable_negated h (goodTable_of ha), p4ToConstraintInfo_succeeds]
  constructor
  · exact fun h => h.2.2.1 d (by simp)
  · intro hg
    refine ⟨?_, h2, ?_, h4⟩
    · simpa [h.ids] using h1
    · exact List.forall_mem_cons.2 ⟨hg, fun x hx => h3 x (List.mem_cons_of_mem _ hx)⟩

theorem nonNeg_keys {a d : TableDecl} (hk : a.matchFields = d.matchFields) (hw : NonNegProgram ⟨d :: ts, as⟩) :
    NonNegProgram ⟨a :: ts, as⟩ := by
  obtain ⟨h1, h2⟩ := hw
  refine ⟨fun x hx => ?_, h2⟩
  rcases List.mem_cons.1 hx with rfl | hx
  · rw [hk]
    exact h1 d (by simp)
  · exact h1 x (List.mem_cons_of_mem _ hx)

variable (hw : NonNegProgram ⟨d :: ts, as⟩) (ha : p4ToConstraintInfo sys ⟨a :: ts, as⟩ = .ok ca)
  (hb : p4ToConstraintInfo sys ⟨b :: ts, as⟩ = .ok cb) (hd : p4ToConstraintInfo sys ⟨d :: ts, as⟩ = .ok ci) (entry : RtEntry)

include hw ha hb hd

/-- C66: an entry satisfies `(A) && (B)` if and only if it satisfies `A` and satisfies `B`. -/
theorem C66_and (h : TableJoined .and a b d) :
    reasonEntryViolatesConstraint entry ci = .ok [] ↔
      reasonEntryViolatesConstraint entry ca = .ok [] ∧ reasonEntryViolatesConstraint entry cb = .ok [] := by
  have hv := tableValue_joined (entry := entry) h (goodTable_of ha) (goodTable_of hb) (goodTable_of hd)
  obtain ⟨⟨ia, ib⟩, ⟨ka, kb⟩, s, t, xa, xb, x, _, _⟩ := h
  by_cases hid : entry.tableId = d.preamble.id
  · obtain ⟨v1, _⟩ := verdict_here hd hw x hid
    obtain ⟨a1, _⟩ := verdict_here ha (nonNeg_keys ka hw) xa (hid.trans ia.symm)
    obtain ⟨b1, _⟩ := verdict_here hb (nonNeg_keys kb hw) xb (hid.trans ib.symm)
    rw [v1, a1, b1, hv]
    simp only [ConnValue]
    grind
  · rw [verdict_elsewhere hd hw hid, verdict_elsewhere ha (nonNeg_keys ka hw) (ia ▸ hid),
      verdict_elsewhere hb (nonNeg_keys kb hw) (ib ▸ hid), and_self]

/-- C66: an entry that satisfies `A` satisfies `(A) || (B)`, and so does one that satisfies `B` and violates `A`. Other entries
do not. -/
theorem C66_or (h : TableJoined .or a b d) :
    (reasonEntryViolatesConstraint entry ca = .ok [] → reasonEntryViolatesConstraint entry ci = .ok []) ∧
    (∀ m, reasonEntryViolatesConstraint entry ca = .ok m → reasonEntryViolatesConstraint entry cb = .ok [] →
      reasonEntryViolatesConstraint entry ci = .ok []) ∧
    (reasonEntryViolatesConstraint entry ci = .ok [] →
      reasonEntryViolatesConstraint entry ca = .ok [] ∨ reasonEntryViolatesConstraint entry cb = .ok []) := by
  have hv := tableValue_joined (entry := entry) h (goodTable_of ha) (goodTable_of hb) (goodTable_of hd)
  obtain ⟨⟨ia, ib⟩, ⟨ka, kb⟩, s, t, xa, xb, x, _, _⟩ := h
  by_cases hid : entry.tableId = d.preamble.id
  · obtain ⟨v1, _⟩ := verdict_here hd hw x hid
    obtain ⟨a1, a2, _⟩ := verdict_here ha (nonNeg_keys ka hw) xa (hid.trans ia.symm)
    obtain ⟨b1, _⟩ := verdict_here hb (nonNeg_keys kb hw) xb (hid.trans ib.symm)
    simp only [v1, a1, b1, hv, ConnValue]
    refine ⟨fun h => ⟨.inl h.1, h.2⟩, fun m hm h => ⟨?_, h.2⟩, ?_⟩
    · rcases a2 m hm with h' | h'
      · exact .inl h'
      · exact .inr ⟨h', h.1⟩
    · rintro ⟨h1 | ⟨_, h1⟩, h2⟩
      · exact .inl ⟨h1, h2⟩
      · exact .inr ⟨h1, h2⟩
  · rw [verdict_elsewhere hd hw hid, verdict_elsewhere ha (nonNeg_keys ka hw) (ia ▸ hid),
      verdict_elsewhere hb (nonNeg_keys kb hw) (ib ▸ hid)]
    exact ⟨id, fun _ _ => id, .inl⟩

/-- C66: an entry that violates `A` satisfies `(A) -> (B)`, and so does one that satisfies `B`, if it can be judged by `A`. An
entry that satisfies `(A) -> (B)` and `A` satisfies `B`. -/
theorem C66_implies (h : TableJoined .implies a b d) :
    (∀ m, entry.tableId = d.preamble.id → entry.action = none → reasonEntryViolatesConstraint entry ca = .ok m → m ≠ [] →
      reasonEntryViolatesConstraint entry ci = .ok []) ∧
    (∀ m, reasonEntryViolatesConstraint entry ca = .ok m → reasonEntryViolatesConstraint entry cb = .ok [] →
      reasonEntryViolatesConstraint entry ci = .ok []) ∧
    (reasonEntryViolatesConstraint entry ci = .ok [] → reasonEntryViolatesConstraint entry ca = .ok [] →
      reasonEntryViolatesConstraint entry cb = .ok []) := by
  have hv := tableValue_joined (entry := entry) h (goodTable_of ha) (goodTable_of hb) (goodTable_of hd)
  obtain ⟨⟨ia, ib⟩, ⟨ka, kb⟩, s, t, xa, xb, x, _, _⟩ := h
  by_cases hid : entry.tableId = d.preamble.id
  · obtain ⟨v1, _⟩ := verdict_here hd hw x hid
    obtain ⟨a1, a2, a3⟩ := verdict_here ha (nonNeg_keys ka hw) xa (hid.trans ia.symm)
    obtain ⟨b1, _⟩ := verdict_here hb (nonNeg_keys kb hw) xb (hid.trans ib.symm)
    simp only [v1, a1, b1, hv, ConnValue]
    refine ⟨fun m _ hn hm hne => ⟨.inl (a3 m hn hm hne), hn ▸ .none⟩, fun m hm h => ⟨?_, h.2⟩, ?_⟩
    · rcases a2 m hm with h' | h'
      · exact .inr ⟨h', h.1⟩
      · exact .inl h'
    · rintro ⟨h1 | ⟨_, h1⟩, h2⟩ ⟨h3, _⟩
      · exact (tableValue_unique ⟨h3, h1⟩).elim
      · exact ⟨h1, h2⟩
  · rw [verdict_elsewhere hd hw hid, verdict_elsewhere ha (nonNeg_keys ka hw) (ia ▸ hid),
      verdict_elsewhere hb (nonNeg_keys kb hw) (ib ▸ hid)]
    exact ⟨fun _ h => (hid h).elim, fun _ _ => id, fun h _ => h⟩

omit hb in
/-- C66: an entry that violates `A` satisfies `!(A)`; one that satisfies `A` does not. -/
theorem C66_not (h : TableNegated a d) (hid : entry.tableId = d.preamble.id) :
    (∀ m, entry.action = none → reasonEntryViolatesConstraint entry ca = .ok m → m ≠ [] →
      reasonEntryViolatesConstraint entry ci = .ok []) ∧
    ¬ (reasonEntryViolatesConstraint entry ci = .ok [] ∧ reasonEntryViolatesConstraint entry ca = .ok []) ∧
    (∀ m, entry.action = none → reasonEntryViolatesConstraint entry ci = .ok m → m ≠ [] →
      reasonEntryViolatesConstraint entry ca = .ok []) := by
  have hv := tableValue_negated (entry := entry) h (goodTable_of ha) (goodTable_of hd)
  obtain ⟨ia, ka, s, xa, x, _⟩ := h
  obtain ⟨v1, _, v3⟩ := verdict_here hd hw x hid
  obtain ⟨a1, _, a3⟩ := verdict_here ha (nonNeg_keys ka hw) xa (hid.trans ia.symm)
  rw [v1, a1]
  refine ⟨fun m hn hm hne => ⟨(hv false).2 (a3 m hn hm hne), hn ▸ .none⟩, fun ⟨h1, h2⟩ => ?_,
    fun m hn hm hne => ⟨(hv true).1 (v3 m hn hm hne), hn ▸ .none⟩⟩
  exact tableValue_unique ⟨h2.1, (hv false).1 h1.1⟩

omit hb in
/-- C66, exactly: an entry of the table satisfies `!(A)` if and only if `A` has the value `false` and its actions are accepted. -/
theorem C66_not_exact (h : TableNegated a d) (hid : entry.tableId = d.preamble.id) :
    reasonEntryViolatesConstraint entry ci = .ok [] ↔
      TableValue sys.inetPton6 a entry false ∧ ActionsAccepted sys.inetPton6 ⟨[], as⟩ entry.action := by
  have hv := tableValue_negated (entry := entry) h (goodTable_of ha) (goodTable_of hd)
  obtain ⟨ia, ka, s, xa, x, _⟩ := h
  rw [(verdict_here hd hw x hid).1]
  exact and_congr_left fun _ => hv false

/-- C66, exactly: an entry of the table satisfies `(A) || (B)` if and only if it satisfies `A`, or `A` has the value `false` and it
satisfies `B`. -/
theorem C66_or_exact (h : TableJoined .or a b d) (hid : entry.tableId = d.preamble.id) :
    reasonEntryViolatesConstraint entry ci = .ok [] ↔ reasonEntryViolatesConstraint entry ca = .ok [] ∨
      (TableValue sys.inetPton6 a entry false ∧ reasonEntryViolatesConstraint entry cb = .ok []) := by
  have hv := tableValue_joined (entry := entry) h (goodTable_of ha) (goodTable_of hb) (goodTable_of hd)
  obtain ⟨⟨ia, ib⟩, ⟨ka, kb⟩, s, t, xa, xb, x, _, _⟩ := h
  rw [(verdict_here hd hw x hid).1, (verdict_here ha (nonNeg_keys ka hw) xa (hid.trans ia.symm)).1,
    (verdict_here hb (nonNeg_keys kb hw) xb (hid.trans ib.symm)).1, hv]
  simp only [ConnValue]
  grind

/-- C66, exactly: an entry of the table satisfies `(A) -> (B)` if and only if it satisfies both, or `A` has the value `false` and its
actions are accepted. -/
theorem C66_implies_exact (h : TableJoined .implies a b d) (hid : entry.tableId = d.preamble.id) :
    reasonEntryViolatesConstraint entry ci = .ok [] ↔
      (reasonEntryViolatesConstraint entry ca = .ok [] ∧ reasonEntryViolatesConstraint entry cb = .ok []) ∨
      (TableValue sys.inetPton6 a entry false ∧ ActionsAccepted sys.inetPton6 ⟨[], as⟩ entry.action) := by
  have hv := tableValue_joined (entry := entry) h (goodTable_of ha) (goodTable_of hb) (goodTable_of hd)
  obtain ⟨⟨ia, ib⟩, ⟨ka, kb⟩, s, t, xa, xb, x, _, _⟩ := h
  rw [(verdict_here hd hw x hid).1, (verdict_here ha (nonNeg_keys ka hw) xa (hid.trans ia.symm)).1,
    (verdict_here hb (nonNeg_keys kb hw) xb (hid.trans ib.symm)).1, hv]
  simp only [ConnValue]
  grind

end

section
variable {sys : Sys} {ts : List TableDecl} {as : List ActionDecl} {a b d : ActionDecl} {ci ca cb : ConstraintInfo}

/-- C66 for actions: acceptance of the program. -/
theorem C66_action_accepted {o : Spec.Conn} (h : ActionJoined o a b d) (ha : p4ToConstraintInfo sys ⟨ts, a :: as⟩ = .ok ca)
    (hb : p4ToConstraintInfo sys ⟨ts, b :: as⟩ = .ok cb) :
    (∃ ci, p4ToConstraintInfo sys ⟨ts, d :: as⟩ = .ok ci) ↔ ActionBoolean sys.inetPton6 a ∧ ActionBoolean sys.inetPton6 b := by
  obtain ⟨h1, h2, h3, h4⟩ := p4ToConstraintInfo_succeeds.1 ⟨_, ha⟩
  rw [← goodAction_joined h (goodAction_of ha) (goodAction_of hb), p4ToConstraintInfo_succeeds]
  constructor
  · exact fun h => h.2.2.2 d (by simp)
  · intro hg
    refine ⟨h1, ?_, h3, ?_⟩
    · simpa [h.ids.1] using h2
    · exact List.forall_mem_cons.2 ⟨hg, fun x hx => h4 x (List.mem_cons_of_mem _ hx)⟩

theorem C66_action_accepted_not (h : ActionNegated a d) (ha : p4ToConstraintInfo sys ⟨ts, a :: as⟩ = .ok ca) :
    (∃ ci, p4ToConstraintInfo sys ⟨ts, d :: as⟩ = .ok ci) ↔ ActionBoolean sys.inetPton6 a := by
  obtain ⟨h1, h2, h3, h4⟩ := p4ToConstraintInfo_succeeds.1 ⟨_, ha⟩
  rw [← goodAction_negated h (goodAction_of ha), p4ToConstraintInfo_succeeds]
  constructor
  · exact fun h => h.2.2.2 d (by simp)
  · intro hg
    refine ⟨h1, ?_, h3, ?_⟩
    · simpa [h.ids] using h2
    · exact List.forall_mem_cons.2 ⟨hg, fun x hx => h4 x (List.mem_cons_of_mem _ hx)⟩

theorem nonNeg_params {a d : ActionDecl} (hk : a.params = d.params) (hw : NonNegProgram ⟨ts, d :: as⟩) :
    NonNegProgram ⟨ts, a :: as⟩ := by
  obtain ⟨h1, h2⟩ := hw
  refine ⟨h1, fun x hx => ?_⟩
  rcases List.mem_cons.1 hx with rfl | hx
  · rw [hk]
    exact h2 d (by simp)
  · exact h2 x (List.mem_cons_of_mem _ hx)

variable (hw : NonNegProgram ⟨ts, d :: as⟩) (ha : p4ToConstraintInfo sys ⟨ts, a :: as⟩ = .ok ca)
  (hb : p4ToConstraintInfo sys ⟨ts, b :: as⟩ = .ok cb) (hd : p4ToConstraintInfo sys ⟨ts, d :: as⟩ = .ok ci) (i : RtAction)

include hw ha hb hd

/-- C66 for actions: `(A) && (B)`. -/
theorem C66_action_and (h : ActionJoined .and a b d) :
    reasonAction i ci = .ok [] ↔ reasonAction i ca = .ok [] ∧ reasonAction i cb = .ok [] := by
  have hv := actionValue_joined (i := i) h (goodAction_of ha) (goodAction_of hb) (goodAction_of hd)
  obtain ⟨⟨ia, ib⟩, ⟨ka, kb⟩, s, t, xa, xb, x, _, _⟩ := h
  by_cases hid : i.actionId = d.preamble.id
  · obtain ⟨v1, _⟩ := actionVerdict_here hd hw x hid
    obtain ⟨a1, _⟩ := actionVerdict_here ha (nonNeg_params ka hw) xa (hid.trans ia.symm)
    obtain ⟨b1, _⟩ := actionVerdict_here hb (nonNeg_params kb hw) xb (hid.trans ib.symm)
    rw [v1, a1, b1, hv]
    rfl
  · rw [actionVerdict_elsewhere hd hw hid, actionVerdict_elsewhere ha (nonNeg_params ka hw) (ia ▸ hid),
      actionVerdict_elsewhere hb (nonNeg_params kb hw) (ib ▸ hid), and_self]

/-- C66 for actions: `(A) || (B)`. -/
theorem C66_action_or (h : ActionJoined .or a b d) :
    (reasonAction i ca = .ok [] → reasonAction i ci = .ok []) ∧
    (∀ m, reasonAction i ca = .ok m → reasonAction i cb = .ok [] → reasonAction i ci = .ok []) ∧
    (reasonAction i ci = .ok [] → reasonAction i ca = .ok [] ∨ reasonAction i cb = .ok []) := by
  have hv := actionValue_joined (i := i) h (goodAction_of ha) (goodAction_of hb) (goodAction_of hd)
  obtain ⟨⟨ia, ib⟩, ⟨ka, kb⟩, s, t, xa, xb, x, _, _⟩ := h
  by_cases hid : i.actionId = d.preamble.id
  · obtain ⟨v1, _⟩ := actionVerdict_here hd hw x hid
    obtain ⟨a1, a2, _⟩ := actionVerdict_here ha (nonNeg_params ka hw) xa (hid.trans ia.symm)
    obtain ⟨b1, _⟩ := actionVerdict_here hb (nonNeg_params kb hw) xb (hid.trans ib.symm)
    simp only [v1, a1, b1, hv, ConnValue]
    refine ⟨.inl, fun m hm h => ?_, ?_⟩
    · rcases a2 m hm with h' | h'
      · exact .inl h'
      · exact .inr ⟨h', h⟩
    · rintro (h1 | ⟨_, h1⟩)
      · exact .inl h1
      · exact .inr h1
  · rw [actionVerdict_elsewhere hd hw hid, actionVerdict_elsewhere ha (nonNeg_params ka hw) (ia ▸ hid),
      actionVerdict_elsewhere hb (nonNeg_params kb hw) (ib ▸ hid)]
    exact ⟨id, fun _ _ => id, .inl⟩

/-- C66 for actions: `(A) -> (B)`. -/
theorem C66_action_implies (h : ActionJoined .implies a b d) :
    (∀ m, i.actionId = d.preamble.id → reasonAction i ca = .ok m → m ≠ [] → reasonAction i ci = .ok []) ∧
    (∀ m, reasonAction i ca = .ok m → reasonAction i cb = .ok [] → reasonAction i ci = .ok []) ∧
    (reasonAction i ci = .ok [] → reasonAction i ca = .ok [] → reasonAction i cb = .ok []) := by
  have hv := actionValue_joined (i := i) h (goodAction_of ha) (goodAction_of hb) (goodAction_of hd)
  obtain ⟨⟨ia, ib⟩, ⟨ka, kb⟩, s, t, xa, xb, x, _, _⟩ := h
  by_cases hid : i.actionId = d.preamble.id
  · obtain ⟨v1, _⟩ := actionVerdict_here hd hw x hid
    obtain ⟨a1, a2, a3⟩ := actionVerdict_here ha (nonNeg_params ka hw) xa (hid.trans ia.symm)
    obtain ⟨b1, _⟩ := actionVerdict_here hb (nonNeg_params kb hw) xb (hid.trans ib.symm)
    simp only [v1, a1, b1, hv, ConnValue]
    refine ⟨fun m _ hm hne => .inl (a3 m hm hne), fun m hm h => ?_, ?_⟩
    · rcases a2 m hm with h' | h'
      · exact .inr ⟨h', h⟩
      · exact .inl h'
    · rintro (h1 | ⟨_, h1⟩) h3
      · exact (actionValue_unique ⟨h3, h1⟩).elim
      · exact h1
  · rw [actionVerdict_elsewhere hd hw hid, actionVerdict_elsewhere ha (nonNeg_params ka hw) (ia ▸ hid),
      actionVerdict_elsewhere hb (nonNeg_params kb hw) (ib ▸ hid)]
    exact ⟨fun _ h => (hid h).elim, fun _ _ => id, fun h _ => h⟩

omit hb in
/-- C66 for actions: `!(A)`. -/
theorem C66_action_not (h : ActionNegated a d) (hid : i.actionId = d.preamble.id) :
    (∀ m, reasonAction i ca = .ok m → m ≠ [] → reasonAction i ci = .ok []) ∧
    ¬ (reasonAction i ci = .ok [] ∧ reasonAction i ca = .ok []) ∧
    (∀ m, reasonAction i ci = .ok m → m ≠ [] → reasonAction i ca = .ok []) := by
  have hv := actionValue_negated (i := i) h (goodAction_of ha) (goodAction_of hd)
  obtain ⟨ia, ka, s, xa, x, _⟩ := h
  obtain ⟨v1, _, v3⟩ := actionVerdict_here hd hw x hid
  obtain ⟨a1, _, a3⟩ := actionVerdict_here ha (nonNeg_params ka hw) xa (hid.trans ia.symm)
  rw [v1, a1]
  exact ⟨fun m hm hne => (hv false).2 (a3 m hm hne), fun ⟨h1, h2⟩ => actionValue_unique ⟨h2, (hv false).1 h1⟩,
    fun m hm hne => (hv true).1 (v3 m hm hne)⟩

omit hb in
/-- C66, exactly, for actions: `!(A)`. -/
theorem C66_action_not_exact (h : ActionNegated a d) (hid : i.actionId = d.preamble.id) :
    reasonAction i ci = .ok [] ↔ ActionValue sys.inetPton6 a i false := by
  have hv := actionValue_negated (i := i) h (goodAction_of ha) (goodAction_of hd)
  obtain ⟨ia, ka, s, xa, x, _⟩ := h
  rw [(actionVerdict_here hd hw x hid).1]
  exact hv false

/-- C66, exactly, for actions: `(A) || (B)` and `(A) -> (B)`. -/
theorem C66_action_exact (hid : i.actionId = d.preamble.id) :
    (ActionJoined .or a b d → (reasonAction i ci = .ok [] ↔ reasonAction i ca = .ok [] ∨
      (ActionValue sys.inetPton6 a i false ∧ reasonAction i cb = .ok []))) ∧
    (ActionJoined .implies a b d → (reasonAction i ci = .ok [] ↔ ActionValue sys.inetPton6 a i false ∨
      (reasonAction i ca = .ok [] ∧ reasonAction i cb = .ok []))) := by
  constructor
  all_goals
    intro h
    have hv := actionValue_joined (i := i) h (goodAction_of ha) (goodAction_of hb) (goodAction_of hd)
    obtain ⟨⟨ia, ib⟩, ⟨ka, kb⟩, s, t, xa, xb, x, _, _⟩ := h
    rw [(actionVerdict_here hd hw x hid).1, (actionVerdict_here ha (nonNeg_params ka hw) xa (hid.trans ia.symm)).1,
      (actionVerdict_here hb (nonNeg_params kb hw) xb (hid.trans ib.symm)).1, hv]
    rfl

end

/-- C66: a text that is accepted as a constraint can be used in this way if it contains no `/*`. (Otherwise what matters is
that block comments have an end.) -/
theorem C66_closed {sys : Sys} {k : ConstraintKind} {src : ConstraintSource} {e : Expr}
    (h : parseConstraint sys k src = .ok e) (hb : ¬ c!"/*" <:+: src.str) : Closed src.str := parsed_closed h hb

/-! ### Examples -/

theorem Ex.says {tc : Str} {src : ConstraintSource} {s : Str}
    (h : extractConstraint .table (Ex.tableDecl tc).preamble = .ok (some src)) (hs : src.str = s) :
    Says .table (Ex.tableDecl tc).preamble s := ⟨src, attached_iff.1 h, hs⟩

theorem Ex.notInfix {a s : Str} (h : (List.range (s.length + 1)).all (fun n => !a.isPrefixOf (s.drop n)) = true) :
    ¬ a <:+: s := by
  rintro ⟨x, y, e⟩
  rw [List.all_eq_true] at h
  have := h x.length (by subst e; simp; omega)
  subst e
  simp at this
  rw [List.isPrefixOf_iff_prefix.2 (List.prefix_append _ _)] at this
  cases this

theorem Ex.joinedTables (o : Spec.Conn) :
    TableJoined o (Ex.tableDecl c!"opt == 3 // optional") (Ex.tableDecl c!"ex == 2;")
      (Ex.tableDecl (joined o c!"opt == 3 // optional" c!"ex == 2;")) := by
  refine ⟨⟨rfl, rfl⟩, ⟨rfl, rfl⟩, c!"opt == 3 // optional", c!"ex == 2;", ?_, ?_, ?_, ?_, ?_⟩
  · exact Ex.says (src := ⟨c!"opt == 3 // optional", { src := .tableName c!"tbl" }⟩) (by decide +kernel) rfl
  · exact Ex.says (src := ⟨c!"ex == 2;", { src := .tableName c!"tbl" }⟩) (by decide +kernel) rfl
  · exact Ex.says (src := ⟨joined o c!"opt == 3 // optional" c!"ex == 2;", { src := .tableName c!"tbl" }⟩)
      (by cases o <;> decide +kernel) rfl
  · exact C66_closed (sys := Ex.sys) (k := .table) (src := ⟨c!"opt == 3 // optional", {}⟩)
      (e := Ex.get (.notSet {}) (parseConstraint Ex.sys .table ⟨c!"opt == 3 // optional", {}⟩))
      (Ex.get_of_isOk (by decide +kernel)) (Ex.notInfix (by decide +kernel))
  · exact C66_closed (sys := Ex.sys) (k := .table) (src := ⟨c!"ex == 2;", {}⟩)
      (e := Ex.get (.notSet {}) (parseConstraint Ex.sys .table ⟨c!"ex == 2;", {}⟩))
      (Ex.get_of_isOk (by decide +kernel)) (Ex.notInfix (by decide +kernel))

/-- The entry satisfies both constraints, so their conjunction. -/
example : reasonEntryViolatesConstraint (Ex.entry 2) (Ex.ci (joined .and c!"opt == 3 // optional" c!"ex == 2;") c!"true") = .ok [] :=
  (C66_and (ts := [Ex.freeTable]) (as := [Ex.actionDecl c!"true", Ex.freeAction]) (Ex.nonNeg _ _)
    (ca := Ex.ci c!"opt == 3 // optional" c!"true") (cb := Ex.ci c!"ex == 2;" c!"true")
    (Ex.get_of_isOk (by decide +kernel)) (Ex.get_of_isOk (by decide +kernel)) (Ex.get_of_isOk (by decide +kernel)) _
    (Ex.joinedTables .and)).2 ⟨by decide +kernel, by decide +kernel⟩

theorem Ex.negatedTable : TableNegated (Ex.tableDecl c!"opt == 4 // optional") (Ex.tableDecl (negated c!"opt == 4 // optional")) := by
  refine ⟨rfl, rfl, c!"opt == 4 // optional", ?_, ?_, ?_⟩
  · exact Ex.says (src := ⟨c!"opt == 4 // optional", { src := .tableName c!"tbl" }⟩) (by decide +kernel) rfl
  · exact Ex.says (src := ⟨negated c!"opt == 4 // optional", { src := .tableName c!"tbl" }⟩) (by decide +kernel) rfl
  · exact C66_closed (sys := Ex.sys) (k := .table) (src := ⟨c!"opt == 4 // optional", {}⟩)
      (e := Ex.get (.notSet {}) (parseConstraint Ex.sys .table ⟨c!"opt == 4 // optional", {}⟩))
      (Ex.get_of_isOk (by decide +kernel)) (Ex.notInfix (by decide +kernel))

/-- The entry violates the constraint, so satisfies its negation. -/
example : reasonEntryViolatesConstraint (Ex.entry 2) (Ex.ci (negated c!"opt == 4 // optional") c!"true") = .ok [] :=
  (C66_not (ts := [Ex.freeTable]) (as := [Ex.actionDecl c!"true", Ex.freeAction]) (Ex.nonNeg _ _)
    (ca := Ex.ci c!"opt == 4 // optional" c!"true") (Ex.get_of_isOk (by decide +kernel)) (Ex.get_of_isOk (by decide +kernel)) _
    Ex.negatedTable rfl).1
    (Ex.get [] (reasonEntryViolatesConstraint (Ex.entry 2) (Ex.ci c!"opt == 4 // optional" c!"true"))) rfl
    (Ex.get_of_isOk (by decide +kernel)) (by decide +kernel)

theorem Ex.joinedActions (o : Spec.Conn) : ActionJoined o (Ex.actionDecl c!"p == 1") (Ex.actionDecl c!"q > 2 // q")
    (Ex.actionDecl (joined o c!"p == 1" c!"q > 2 // q")) := by
  refine ⟨⟨rfl, rfl⟩, ⟨rfl, rfl⟩, c!"p == 1", c!"q > 2 // q", ?_, ?_, ?_, ?_, ?_⟩
  · exact ⟨⟨c!"p == 1", { src := .actionName c!"act" }⟩, attached_iff.1 (by decide +kernel), rfl⟩
  · exact ⟨⟨c!"q > 2 // q", { src := .actionName c!"act" }⟩, attached_iff.1 (by decide +kernel), rfl⟩
  · exact ⟨⟨joined o c!"p == 1" c!"q > 2 // q", { src := .actionName c!"act" }⟩,
      attached_iff.1 (by cases o <;> decide +kernel), rfl⟩
  · exact C66_closed (sys := Ex.sys) (k := .action) (src := ⟨c!"p == 1", {}⟩)
      (e := Ex.get (.notSet {}) (parseConstraint Ex.sys .action ⟨c!"p == 1", {}⟩))
      (Ex.get_of_isOk (by decide +kernel)) (Ex.notInfix (by decide +kernel))
  · exact C66_closed (sys := Ex.sys) (k := .action) (src := ⟨c!"q > 2 // q", {}⟩)
      (e := Ex.get (.notSet {}) (parseConstraint Ex.sys .action ⟨c!"q > 2 // q", {}⟩))
      (Ex.get_of_isOk (by decide +kernel)) (Ex.notInfix (by decide +kernel))

/-- Neither of the two constraints is satisfied, so their disjunction is not. -/
example : reasonAction (Ex.action 2 2) (Ex.ci c!"true" (joined .or c!"p == 1" c!"q > 2 // q")) ≠ .ok [] :=
  fun h => absurd ((C66_action_or (ts := [Ex.tableDecl c!"true", Ex.freeTable]) (as := [Ex.freeAction]) (Ex.nonNeg _ _)
    (ca := Ex.ci c!"true" c!"p == 1") (cb := Ex.ci c!"true" c!"q > 2 // q") (Ex.get_of_isOk (by decide +kernel))
    (Ex.get_of_isOk (by decide +kernel)) (Ex.get_of_isOk (by decide +kernel)) _ (Ex.joinedActions .or)).2.2 h) (by decide +kernel)

/-- A constraint that is accepted by itself but cannot be used as a part: the comment has no end. -/
theorem C66_open : (∃ ci, p4ToConstraintInfo Ex.sys (Ex.p4info c!"true /* open" c!"true") = .ok ci) ∧
    p4ToConstraintInfo Ex.sys (Ex.p4info (joined .and c!"true /* open" c!"true") c!"true") = .err .invalidArgument :=
  ⟨⟨Ex.ci c!"true /* open" c!"true", Ex.get_of_isOk (by decide +kernel)⟩, by decide +kernel⟩

end P4C
