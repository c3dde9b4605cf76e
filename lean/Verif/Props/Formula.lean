import Verif.Proofs.Formula
import Verif.Props.Constant

/-
C86: constraints as formulas of arithmetic.
-/

namespace P4C

open Spec

section
variable {sys : Sys} {p : P4Info} {ci : ConstraintInfo} (h : p4ToConstraintInfo sys p = .ok ci) (hw : NonNegProgram p)

include h hw in
/-- C86: an entry without actions is accepted iff what the constraint of its table says, read as a formula, is true. -/
theorem C86_table {d : TableDecl} (hd : d ∈ p.tables) {vs : List VarInfo} (hv : Each KeyDecl d.matchFields vs) {entry : RtEntry}
    (hfit : EntryFits vs entry) (hid : entry.tableId = d.preamble.id) (ha : entry.action = none) {s : SExpr}
    (hs : TableSays sys.inetPton6 d s) {P : Prop} (hf : EntryFormula d.matchFields entry s P) :
    reasonEntryViolatesConstraint entry ci = .ok [] ↔ P := formula_reason h hw hd hv hfit hid ha hs hf

include h hw in
/-- C86: an entry with actions is accepted iff it is without them, and what the constraint of each action says, read as a
formula, is true of its arguments. -/
theorem C86_actions {entry : RtEntry} {as : List RtAction} (ha : actionsOf entry.action = some as) {P : RtAction → Prop}
    (hf : ∀ a ∈ as, ∃ d ∈ p.actions, ∃ vs s, Each ParamIs d.params vs ∧ ActionFits vs a ∧ a.actionId = d.preamble.id ∧
      ActionSays sys.inetPton6 d s ∧ ActionFormula d.params a s (P a)) :
    reasonEntryViolatesConstraint entry ci = .ok [] ↔
      reasonEntryViolatesConstraint { entry with action := none } ci = .ok [] ∧ ∀ a ∈ as, P a := by
  have each : (∀ a ∈ as, ActionAccepted sys.inetPton6 p a) ↔ ∀ a ∈ as, P a := by
    refine forall_congr' fun a => forall_congr' fun hm => ?_
    obtain ⟨d, hd, vs, s, h1, h2, h3, h4, h5⟩ := hf a hm
    exact formula_action h hd h1 h2 h3 h4 h5
  have all : ActionsAccepted sys.inetPton6 p entry.action ↔ ∀ a ∈ as, P a := by
    rw [← each]
    generalize entry.action = t at ha
    cases t with
    | none =>
      cases ha
      exact ⟨nofun, fun _ => .none⟩
    | some t =>
      cases t <;> cases ha
      · constructor
        · intro h; cases h with | one h => simpa using h
        · exact fun h => .one (h _ (by simp))
      · constructor
        · intro h; cases h with | set h => exact h
        · exact .set
  rw [reason_accepts h hw, reason_accepts h hw, ← all]
  constructor
  · rintro ⟨d, h1, h2, h3, h4⟩
    refine ⟨⟨d, h1, h2, h3.imp id ?_, .none⟩, h4⟩
    rintro ⟨vs, src, e, s, ρ, g1, g2, g3, g4, g5⟩
    exact ⟨vs, src, e, s, ρ, g1, g2, ⟨g3.known, g3.once, g3.complete⟩, ⟨g4.key, g4.param, g4.priority⟩, g5⟩
  · rintro ⟨⟨d, h1, h2, h3, _⟩, h4⟩
    refine ⟨d, h1, h2, h3.imp id ?_, h4⟩
    rintro ⟨vs, src, e, s, ρ, g1, g2, g3, g4, g5⟩
    exact ⟨vs, src, e, s, ρ, g1, g2, ⟨g3.known, g3.once, g3.complete⟩, ⟨g4.key, g4.param, g4.priority⟩, g5⟩

end

/-- C86: every constraint of a table can be read as a formula, provided that it does not order keys themselves, and that no
key has a negative width. -/
theorem C86_reads {pton : Str → Option Bytes} {d : TableDecl} {s : SExpr} (hs : TableSays pton d s)
    (hpos : ∀ f ∈ d.matchFields, 0 ≤ f.bitwidth) (ho : ∀ x, Contains s x → ¬ OrdersKey x) (entry : RtEntry) :
    ∃ P, EntryFormula d.matchFields entry s P := by
  obtain ⟨vs, src, e, hv, hr⟩ := hs
  cases hr with
  | some _ _ _ _ ht => exact formula_exists hv hpos entry ht ho

/-- C86: every constraint of an action can be read as a formula, provided that it does not mention attributes. -/
theorem C86_reads_action {pton : Str → Option Bytes} {d : ActionDecl} {s : SExpr} (hs : ActionSays pton d s)
    (hn : ∀ n, ¬ Contains s (.attr n)) (a : RtAction) : ∃ P, ActionFormula d.params a s P := by
  obtain ⟨vs, src, e, hv, hr⟩ := hs
  cases hr with
  | some _ _ _ _ ht => exact formula_action_exists hv a ht hn

/-! ### Examples -/

/-- The constraint of the table. -/
def Ex.tcf : Str := c!"opt == -13 && ex::value < ::priority"

/-- What it says. -/
def Ex.sf : SExpr := .conn .and (.cmp .eq (.key c!"opt") (.neg (.int 13)))
  (.cmp .lt (.field (.key c!"ex") c!"value") (.attr c!"priority"))

theorem Ex.saysFormula : TableSays Ex.sys.inetPton6 (Ex.tableDecl Ex.tcf) Ex.sf := by
  obtain ⟨src, ts, e, h1, h2, h3, h4⟩ := Ex.spelled (text := Ex.tcf) (loc := { src := .tableName c!"tbl" })
    (x := Ex.sf) (by decide +kernel) (by decide +kernel) (by decide +kernel)
  exact ⟨Ex.keys, src, e, Ex.keysDeclared _, .some h1 h2 h3 h4
    (.conn (.cmp (.key (by rfl) ⟨by nofun, by nofun⟩) (.neg (.int 13)) ((lub_iff (t := .optionalMatch 4)).1 (by decide +kernel)) (by nofun))
      (.cmp (.field (.key (by rfl) ⟨by nofun, by nofun⟩) (.exactValue 32)) .priority (join_bit 32) (fun _ => .bit 32)))⟩

/-- What it says as a formula: the entry matches `opt`, of 4 bits, on 3 only, and the key `ex` is less than the priority. -/
theorem Ex.formula (n : UInt8) : EntryFormula (Ex.tableDecl Ex.tcf).matchFields (Ex.entry n) Ex.sf
    (OnlyNumber (Ex.tableDecl Ex.tcf).matchFields ⟨5, c!"opt", 4, .matchType .optional⟩ (Ex.entry n) (.neg (.int 13)) ∧
      ∃ a m b k, NumberIn (EntryNumber (Ex.tableDecl Ex.tcf).matchFields (Ex.entry n)) (.field (.key c!"ex") c!"value") a m ∧
        NumberIn (EntryNumber (Ex.tableDecl Ex.tcf).matchFields (Ex.entry n)) (.attr c!"priority") b k ∧
        Cmp.lt.ofInts (reduced a b m) (reduced b a k)) :=
  .and (.atom (.left (f := ⟨5, c!"opt", 4, .matchType .optional⟩) (by decide +kernel) (by decide) (.neg (.int 13))))
    (.compare .lt (.var (.field _ _)) (.var (.attr _)))

example : reasonEntryViolatesConstraint (Ex.entry 2) (Ex.ci Ex.tcf c!"true") = .ok [] := by
  refine (C86_table (sys := Ex.sys) (p := Ex.p4info Ex.tcf c!"true") (Ex.get_of_isOk (by decide +kernel)) (Ex.nonNeg _ _)
    (d := Ex.tableDecl Ex.tcf) List.mem_cons_self (Ex.keysDeclared _) (Ex.entryFits 2) rfl rfl Ex.saysFormula (Ex.formula 2)).2 ⟨?_, ?_⟩
  · exact ⟨none, -13, .neg (.int 13), .inl ⟨⟨5, .optional [3]⟩, by decide +kernel, rfl, .optional (by decide +kernel)⟩⟩
  · exact ⟨some 32, 2, none, 10, .given (.field (f := ⟨1, c!"ex", 32, .matchType .exact⟩) (by decide +kernel) (by decide)
      (.inl ⟨⟨1, .exact [2]⟩, by decide +kernel, rfl, .exactValue [2]⟩)), .given .priority, (by decide +kernel : (2 : Int) < 10 % 2 ^ 32)⟩

/-- The same constraint is not satisfied by an entry with 11 for the key `ex`, as the formula is false. -/
example : ¬ reasonEntryViolatesConstraint (Ex.entry 11) (Ex.ci Ex.tcf c!"true") = .ok [] := by
  rw [C86_table (sys := Ex.sys) (p := Ex.p4info Ex.tcf c!"true") (ci := Ex.ci Ex.tcf c!"true") (Ex.get_of_isOk (by decide +kernel)) (Ex.nonNeg _ _)
    (d := Ex.tableDecl Ex.tcf) List.mem_cons_self (Ex.keysDeclared _) (Ex.entryFits 11) rfl rfl Ex.saysFormula (Ex.formula 11)]
  rintro ⟨_, a, m, b, k, h1, h2, h3⟩
  have e1 : a = some 32 ∧ m = 11 := numberIn_unique (Γ := keySig Ex.keys)
    (entryNumber_value (sys := Ex.sys) (p := Ex.p4info Ex.tcf c!"true") (ci := Ex.ci Ex.tcf c!"true") (Ex.get_of_isOk (by decide +kernel))
      (d := Ex.tableDecl Ex.tcf) List.mem_cons_self (Ex.keysDeclared _) (Ex.entryFits 11)
      (means_exists (sys := Ex.sys) (p := Ex.p4info Ex.tcf c!"true") (ci := Ex.ci Ex.tcf c!"true") (Ex.get_of_isOk (by decide +kernel))
        (d := Ex.tableDecl Ex.tcf) List.mem_cons_self (Ex.keysDeclared _) (Ex.entryFits 11)).choose_spec) h1
    (.given (.field (f := ⟨1, c!"ex", 32, .matchType .exact⟩) (by decide +kernel) (by decide)
      (.inl ⟨⟨1, .exact [11]⟩, by decide +kernel, rfl, .exactValue [11]⟩)))
  have e2 : b = none ∧ k = 10 := by
    cases h2 with
    | given h2 => cases h2; exact ⟨rfl, rfl⟩
  obtain ⟨rfl, rfl⟩ := e1
  obtain ⟨rfl, rfl⟩ := e2
  revert h3
  show ¬ ((11 : Int) < 10 % 2 ^ 32)
  decide +kernel

/-- The constraint can be read as a formula. -/
example : ∃ P, EntryFormula (Ex.tableDecl Ex.tcf).matchFields (Ex.entry 7) Ex.sf P :=
  C86_reads Ex.saysFormula (by decide +kernel) (by
    intro x hx ho
    cases ho with
    | left k y ho =>
      cases hx with
      | connL hx =>
        cases hx with
        | here => cases ho
        | cmpL hx => cases hx
        | cmpR hx => cases hx with | neg hx => cases hx
      | connR hx =>
        cases hx with
        | cmpL hx => cases hx with | field hx => cases hx
        | cmpR hx => cases hx
    | right k y ho =>
      cases hx with
      | connL hx =>
        cases hx with
        | cmpL hx => cases hx
        | cmpR hx => cases hx with | neg hx => cases hx
      | connR hx =>
        cases hx with
        | cmpL hx => cases hx with | field hx => cases hx
        | cmpR hx => cases hx) _

theorem Ex.actionSays : ActionSays Ex.sys.inetPton6 (Ex.actionDecl c!"p <= q") (.cmp .le (.param c!"p") (.param c!"q")) :=
  ⟨Ex.params, _, _, .cons (.bits ..) (.cons (.bits ..) .nil), .some (attached_iff.1 (by rfl)) (tokenize_iff (src := ⟨c!"p <= q", { src := .actionName c!"act" }⟩).1 rfl)
    (parseConstraint_iff.1 (Ex.get_of_isOk (d := .notSet {}) (by decide +kernel))) (by decide +kernel)
    (.cmp (.param (by rfl) ⟨by nofun, by nofun⟩) (.param (by rfl) ⟨by nofun, by nofun⟩) ((lub_iff (t := .fixedUnsigned 8)).1 (by decide +kernel)) (fun _ => .bit 8))⟩

/-- Of two invocations of an action with the constraint `p <= q`, both satisfy it. -/
example : reasonEntryViolatesConstraint { tableId := 2, matches_ := [], action := some (.actionSet [Ex.action 3 4, Ex.action 5 5]) }
    (Ex.ci c!"true" c!"p <= q") = .ok [] := by
  refine (C86_actions (sys := Ex.sys) (p := Ex.p4info c!"true" c!"p <= q") (Ex.get_of_isOk (by decide +kernel)) (Ex.nonNeg _ _) rfl
    (P := fun a => ∃ w m w' n, NumberIn (ArgNumber (Ex.actionDecl c!"p <= q").params a) (.param c!"p") w m ∧
      NumberIn (ArgNumber (Ex.actionDecl c!"p <= q").params a) (.param c!"q") w' n ∧ Cmp.le.ofInts (reduced w w' m) (reduced w' w n))
    ?_).2 ⟨by decide +kernel, ?_⟩
  · intro a ha
    have : ∃ x y, a = Ex.action x y := by
      rcases List.mem_cons.1 ha with rfl | ha
      · exact ⟨_, _, rfl⟩
      · rcases List.mem_cons.1 ha with rfl | ha
        · exact ⟨_, _, rfl⟩
        · cases ha
    obtain ⟨x, y, rfl⟩ := this
    exact ⟨Ex.actionDecl c!"p <= q", List.mem_cons_self, Ex.params, _, .cons (.bits ..) (.cons (.bits ..) .nil), Ex.actionFits x y, rfl,
      Ex.actionSays, .compare .le (.var (.param _)) (.var (.param _))⟩
  · have key : ∀ x y : UInt8, (bytesNat [x] : Int) ≤ bytesNat [y] → ∃ w m w' n,
        NumberIn (ArgNumber (Ex.actionDecl c!"p <= q").params (Ex.action x y)) (.param c!"p") w m ∧
        NumberIn (ArgNumber (Ex.actionDecl c!"p <= q").params (Ex.action x y)) (.param c!"q") w' n ∧
        Cmp.le.ofInts (reduced w w' m) (reduced w' w n) := fun x y hle =>
      ⟨some 8, _, some 8, _, .given (.param (f := ⟨1, c!"p", 8, []⟩) (by decide +kernel) rfl (v := [x]) List.mem_cons_self),
        .given (.param (f := ⟨2, c!"q", 8, []⟩) (by decide +kernel) rfl (v := [y]) (List.mem_cons_of_mem _ List.mem_cons_self)), hle⟩
    intro a ha
    rcases List.mem_cons.1 ha with rfl | ha
    · exact key 3 4 (by decide +kernel)
    · rcases List.mem_cons.1 ha with rfl | ha
      · exact key 5 5 (by decide +kernel)
      · cases ha

/-- The constraint of the action can be read as a formula. -/
example : ∃ P, ActionFormula (Ex.actionDecl c!"p <= q").params (Ex.action 3 4) (.cmp .le (.param c!"p") (.param c!"q")) P :=
  C86_reads_action Ex.actionSays (by
    intro n hx
    cases hx with
    | cmpL hx | cmpR hx => cases hx) _

end P4C
