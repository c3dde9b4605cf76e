import Verif.Proofs.HandMade
import Verif.Props.Examples

/-
C101: checking entries against a constraint info that need not have been made from a P4 program, in particular one with
constraints that are not syntax trees of the parser and the type checker.
-/

namespace P4C

open Spec

namespace Ex

/-- A hand-made constraint on the entries of a table without keys. -/
def handMade (c : Expr) : ConstraintInfo := ⟨[], [(1, ⟨1, c!"t", some c, ⟨c!"a\nb", { src := .tableName c!"t" }⟩, [], []⟩)]⟩

/-- An entry of that table. -/
def plainEntry : RtEntry := { tableId := 1, matches_ := [], priority := 10 }

/-- A hand-made constraint on an action without parameters. -/
def handMadeAction (c : Expr) : ConstraintInfo :=
  ⟨[(7, ⟨7, c!"a", some c, {}, [], []⟩)], [(1, ⟨1, c!"t", none, {}, [], []⟩)]⟩

/-- An entry with that action. -/
def actingEntry : RtEntry := { plainEntry with action := some (.action ⟨7, []⟩) }

/-- The syntax tree of `1 == 2`, without locations. -/
def unlocated : Expr :=
  .bin { ty := .boolean } .eq (.intConst { ty := .arbitraryInt } c!"1") (.intConst { ty := .arbitraryInt } c!"2")

/-- The syntax tree of `1 != true`, which the type checker rejects. -/
def unequal : Expr :=
  .bin { ty := .boolean } .ne (.intConst { ty := .arbitraryInt } c!"1") (.boolConst { ty := .boolean } true)

/-- A parameter of an action, in a constraint on entries. Its location is on two lines. -/
def misplaced : Expr :=
  .actionParam { ty := .boolean, start := { src := .tableName c!"t" }, stop := { line := 1, src := .tableName c!"t" } } c!"p"

/-- `true || (x)`, where `x` is not an expression at all. -/
def unfinished : Expr := .bin { ty := .boolean } .or (.boolConst { ty := .boolean } true) (.notSet { ty := .boolean })

theorem unlocated_tame : Everywhere Tame unlocated := by
  refine ⟨⟨rfl, by decide, by decide, ?_⟩, ⟨rfl, by decide, by decide, ?_⟩, ⟨rfl, by decide, by decide, ?_⟩⟩
  all_goals intro i e h; simp at h

theorem handMade_tame {c : Expr} (h : Everywhere Tame c) : TameInfo (handMade c) where
  tables := by
    intro id ti c' hm hc
    simp only [handMade, List.mem_singleton, Prod.mk.injEq] at hm
    obtain ⟨_, rfl⟩ := hm
    cases hc
    exact h
  actions := fun _ _ _ hm => by cases hm
  byId := by
    intro id ti n ki hm hk
    simp only [handMade, List.mem_singleton, Prod.mk.injEq] at hm
    obtain ⟨_, rfl⟩ := hm
    cases hk
  byName := by
    intro id ti n ki hm hk
    simp only [handMade, List.mem_singleton, Prod.mk.injEq] at hm
    obtain ⟨_, rfl⟩ := hm
    cases hk

end Ex

/-- C101: whatever the constraints and the other definitions are, the outcome is a verdict, an error with one of two codes, or
a crash. -/
theorem C101_codes (ci : ConstraintInfo) (entry : RtEntry) :
    Answers (reasonEntryViolatesConstraint entry ci) ∨ reasonEntryViolatesConstraint entry ci = .crash :=
  (reasonEntry_proper (safe := False) (fun h => h.elim)).codes

/-- C101: it is not a crash if no location extends over several lines, or backwards, and no width is negative; otherwise
nothing is required of the constraints. -/
theorem C101_returns {ci : ConstraintInfo} (h : TameInfo ci) (entry : RtEntry) :
    Answers (reasonEntryViolatesConstraint entry ci) :=
  (reasonEntry_proper (safe := True) fun _ => h).answers

/-- A constraint without any locations. -/
example : Answers (reasonEntryViolatesConstraint Ex.plainEntry (Ex.handMade Ex.unlocated)) ∧
    Ex.isOk (reasonEntryViolatesConstraint Ex.plainEntry (Ex.handMade Ex.unlocated)) = false :=
  ⟨C101_returns (Ex.handMade_tame Ex.unlocated_tame) _, by decide +kernel⟩

/-- C101: a constraint whose type is not `bool`, or that was not type checked, is an invalid argument, for every entry. -/
theorem C101_root {ci : ConstraintInfo} {entry : RtEntry} {ti : TableInfo} {c : Expr}
    (hti : lookup entry.tableId ci.tables = some ti) (hc : ti.constraint = some c) (ht : c.ty ≠ .boolean) :
    reasonEntryViolatesConstraint entry ci = .err .invalidArgument := by
  simp [reasonEntryViolatesConstraint, getTableInfo, hti, hc, checkConstraint, ht]

example : reasonEntryViolatesConstraint Ex.plainEntry (Ex.handMade (.intConst { ty := .arbitraryInt } c!"1")) =
    .err .invalidArgument :=
  C101_root (ti := ⟨1, c!"t", _, _, _, _⟩) rfl rfl (by decide)

/-- C101: likewise for the constraint on an action, unless the entry is found to violate the constraint of the table before. -/
theorem C101_root_action {ci : ConstraintInfo} {entry : RtEntry} {a : RtAction} {ai : ActionInfo} {c : Expr}
    (ha : entry.action = some (.action a)) (hai : lookup a.actionId ci.actions = some ai) (hc : ai.constraint = some c)
    (ht : c.ty ≠ .boolean) : reasonEntryViolatesConstraint entry ci ≠ .ok [] := by
  intro h
  have := reasonEntry_action h
  simp [ha, reasonTableAction, reasonAction, getActionInfo, hai, hc, checkConstraint, ht] at this

example : reasonEntryViolatesConstraint Ex.actingEntry (Ex.handMadeAction (.boolConst {} true)) ≠ .ok [] :=
  C101_root_action (a := ⟨7, []⟩) rfl rfl rfl (by decide)

/-- C101: if there is a verdict, then all parts of the constraint that are evaluated anyhow are marked with suitable types.
Missing: the sides of equations may have different types (see `C101_fails_equation`), the right operands of connectives are
looked at only when needed (see `C101_fails_lazy`), and a malformed constraint can also cause a crash (see
`C101_fails_crash`). -/
theorem C101_detected_partial {ci : ConstraintInfo} {entry : RtEntry} {ti : TableInfo} {c : Expr} {msg : Str}
    (h : reasonEntryViolatesConstraint entry ci = .ok msg) (hti : lookup entry.tableId ci.tables = some ti)
    (hc : ti.constraint = some c) {x : Expr} (hx : Reached c x) : Marked x := by
  simp only [reasonEntryViolatesConstraint, getTableInfo, hti, hc, Res.bind_eq_ok] at h
  obtain ⟨r, hr, _⟩ := h
  obtain ⟨ctx, v, hv⟩ := checkConstraint_value hr
  exact evalP_reached hx hv

/-- `true || (x)`, where `x` is not an expression: the left operand is marked as it should be. -/
example : Marked (.boolConst { ty := .boolean } true) :=
  C101_detected_partial (ci := Ex.handMade Ex.unfinished) (entry := Ex.plainEntry) (msg := []) rfl rfl rfl
    (.left (.self _))

/-- C101: likewise for the constraint on the action of an entry that is accepted. -/
theorem C101_detected_action_partial {ci : ConstraintInfo} {entry : RtEntry} {a : RtAction} {ai : ActionInfo} {c : Expr}
    (h : reasonEntryViolatesConstraint entry ci = .ok []) (ha : entry.action = some (.action a))
    (hai : lookup a.actionId ci.actions = some ai) (hc : ai.constraint = some c) {x : Expr} (hx : Reached c x) : Marked x := by
  have h := reasonEntry_action h
  simp only [ha, reasonTableAction, reasonAction, getActionInfo, hai, hc] at h
  obtain ⟨ctx, v, hv⟩ := checkConstraint_value h
  exact evalP_reached hx hv

example : Marked (.boolConst { ty := .boolean } true) :=
  C101_detected_action_partial (ci := Ex.handMadeAction Ex.unfinished) (entry := Ex.actingEntry) (a := ⟨7, []⟩) rfl rfl rfl rfl
    (.left (.self _))

/-- C101: values are of the kind of the type that the tree is marked with, whatever the tree is. -/
theorem C101_kind {ctx : EvalCtx} {e : Expr} {p : Path} {cache cache' : Cache} {v : Value}
    (h : eval ctx e p cache = .ok (v, cache')) : SuitsType e.ty v := by
  cases e <;> exact dynCheck_kind h

example : ∃ c, eval ⟨.table ⟨c!"t", 10, []⟩, {}⟩ Ex.unequal [] none = .ok (.bool true, c) := ⟨_, rfl⟩

/-- A constraint that the type checker rejects is evaluated, and entries are accepted. -/
theorem C101_fails_equation : ∃ ci entry l r i ti, reasonEntryViolatesConstraint entry ci = .ok [] ∧
    lookup entry.tableId ci.tables = some ti ∧ ti.constraint = some (.bin i .ne l r) ∧ l.ty = .arbitraryInt ∧ r.ty = .boolean :=
  ⟨Ex.handMade Ex.unequal, Ex.plainEntry, _, _, _, _, rfl, rfl, rfl, rfl, rfl⟩

/-- So is a constraint of which a part is not an expression. -/
theorem C101_fails_lazy : ∃ ci entry l i j ti, reasonEntryViolatesConstraint entry ci = .ok [] ∧
    lookup entry.tableId ci.tables = some ti ∧ ti.constraint = some (.bin i .or l (.notSet j)) :=
  ⟨Ex.handMade Ex.unfinished, Ex.plainEntry, _, _, _, _, rfl, rfl, rfl⟩

/-- Instead of an error there can be a crash. -/
theorem C101_fails_crash : ∃ ci entry, reasonEntryViolatesConstraint entry ci = .crash :=
  ⟨Ex.handMade Ex.misplaced, Ex.plainEntry, rfl⟩

end P4C
