import Verif.Props.Accept
import Verif.Props.Verdict
import Verif.Props.Entries
import Verif.Props.Explain
import Verif.Props.Laws
import Verif.Props.Types
import Verif.Props.Lexing
import Verif.Props.Program
import Verif.Props.Quoting

/-
Instances: theorems applied to concrete programs and entries, which shows that their hypotheses can be met together (C02 to C20, C65).
-/

namespace P4C

open Spec

theorem Ex.noOrderedExact1 : NoOrderedExact (sigOf (.table (Ex.ti Ex.tc1).keysByName)) Ex.s1 := by
  simp only [NoOrderedExact, Ex.s1, Cmp.isOrder, true_and, false_implies, and_true, Bool.false_eq_true]
  refine ⟨fun _ w => ⟨fun h => ?_, fun h => ?_⟩, fun _ w => ⟨fun h => ?_, fun h => ?_⟩⟩
  · cases h with
    | field _ hf => cases hf
  · cases h
  · cases h
  · cases h

theorem Ex.ti1_wf : TableWF (Ex.ti Ex.tc1) := parseTableInfo_wf (sys := Ex.sys) (d := Ex.tableDecl Ex.tc1) (Ex.get_of_isOk (by decide +kernel))

theorem Ex.fails1 : Fails (sigOf (.table (Ex.ti Ex.tc1).keysByName)) (envOf (Ex.ctx Ex.tc1 (Ex.entry 6))) Ex.s1 :=
  Ex.fails (ac := Ex.ac1) (by decide +kernel) (by decide +kernel)

/-- The constraint of the table. -/
abbrev Ex.c1 : Expr := (Ex.ti Ex.tc1).constraint.getD (.notSet {})

example : ∃ c ctx b, (Ex.ti Ex.tc1).constraint = some c ∧ parseTableEntry (Ex.entry 5) (Ex.ti Ex.tc1) = .ok ctx ∧
    evalToBool ctx c [] none = .ok (b, none) := C02_soundness_partial (Ex.case1 5) Ex.noOrderedExact1

example : ∃ c ctx b, (Ex.ai Ex.ac1).constraint = some c ∧ parseAction (Ex.action 3 4) (Ex.ai Ex.ac1) = .ok ctx ∧
    evalToBool ctx c [] none = .ok (b, none) := C02_action_soundness_partial (Ex.acase1 3 4) ⟨trivial, trivial⟩

example : ∃ msg, msg ≠ [] ∧ reasonEntryViolatesConstraint (Ex.entry 6) (Ex.ci Ex.tc1 Ex.ac1) = .ok msg :=
  C03_explained_partial Ex.accepted (Ex.case1 6) Ex.noOrderedExact1 (by decide +kernel) (by decide +kernel) Ex.fails1

example : (∃ msg, msg ≠ [] ∧ reasonAction (Ex.action 9 4) (Ex.ci Ex.tc1 Ex.ac1) = .ok msg) ∨
    (reasonAction (Ex.action 9 4) (Ex.ci Ex.tc1 Ex.ac1) = .err .invalidArgument ∧
      ∃ c ctx, (Ex.ai Ex.ac1).constraint = some c ∧ parseAction (Ex.action 9 4) (Ex.ai Ex.ac1) = .ok ctx ∧ ¬ NoTie ctx (c, [])) :=
  C03_action_partial Ex.accepted (Ex.acase1 9 4) ⟨trivial, trivial⟩ (by decide +kernel) (by decide +kernel)
    (Ex.afails (ac := Ex.ac1) (tc := Ex.tc1) (by decide +kernel) ⟨trivial, trivial⟩ (by decide +kernel))

/-- Searching an explanation with an empty cache. -/
example : ∃ n cs, minimalSub (Ex.ctx Ex.tc1 (Ex.entry 6)) Ex.c1 [] ([], []) = .ok (n, cs) ∧ n.1.ty = .boolean ∧
    ∀ k, Justifies (Ex.ctx Ex.tc1 (Ex.entry 6)) (Ex.c1, []) k → weight n.1 ≤ weight k.1 := by
  have h : Ex.isOk (minimalSub (Ex.ctx Ex.tc1 (Ex.entry 6)) Ex.c1 [] ([], [])) = true := by decide +kernel
  have := C06_minimal (root := Ex.c1) (p := []) rfl (C04_empty _ _).1 (C04_empty (Ex.ctx Ex.tc1 (Ex.entry 6)) _).2
    (Ex.get_of_isOk (d := (((.notSet {}), []), ([], []))) h) (b := false) (by unfold Val; decide +kernel)
  exact ⟨_, _, Ex.get_of_isOk (d := (((.notSet {}), []), ([], []))) h, this.2.1, fun k hk => (this.2.2.2.2 k hk).1⟩

example : Prod.fst <$> minimalSub (Ex.ctx Ex.tc1 (Ex.entry 6)) Ex.c1 [] ([], []) =
    Prod.fst <$> minimalSub (Ex.ctx Ex.tc1 (Ex.entry 6)) Ex.c1 [] ([], []) :=
  (C04_search_transparent (root := Ex.c1) (p := []) rfl (C04_empty _ _).1 (C04_empty (Ex.ctx Ex.tc1 (Ex.entry 6)) _).2 (C04_empty _ _).1
    (C04_empty (Ex.ctx Ex.tc1 (Ex.entry 6)) _).2).1

/-- The hash maps in reverse order. -/
example (entry : RtEntry) (msg : Str) : reasonEntryViolatesConstraint entry (Ex.ci Ex.tc1 Ex.ac1) = .ok msg ↔
    reasonEntryViolatesConstraint entry (Ex.reverse (Ex.ci Ex.tc1 Ex.ac1)) = .ok msg :=
  C07_answers (Ex.infoPerm_reverse _) (infoWF_of Ex.accepted) entry msg

example (a : RtAction) : reasonAction a (Ex.ci Ex.tc1 Ex.ac1) = reasonAction a (Ex.reverse (Ex.ci Ex.tc1 Ex.ac1)) :=
  C07_actions (Ex.infoPerm_reverse _) (infoWF_of Ex.accepted) a

/-- The key `tern` is omitted. -/
example : ∃ keys v, (Ex.ctx Ex.tc1 (Ex.entry 5)).vals = .table ⟨(Ex.ti Ex.tc1).name, 10, keys⟩ ∧ lookup c!"tern" keys = some v ∧
    v = .ternary 0 0 := by
  obtain ⟨keys, v, h1, h2, h3⟩ := C08_omitted Ex.ti1_wf (entry := Ex.entry 5) (ctx := Ex.ctx Ex.tc1 (Ex.entry 5))
    (Ex.get_of_isOk (by decide +kernel)) (n := c!"tern") (ki := ⟨2, c!"tern", .ternary 8⟩) (by decide +kernel) (by decide +kernel)
  rcases h3 with ⟨w, _, h⟩ | ⟨w, h, _⟩ | ⟨w, h, _⟩
  · exact ⟨keys, v, h1, h2, h⟩
  · cases h
  · cases h

/-- An optional match for the exact key. -/
example : reasonEntryViolatesConstraint ⟨1, [⟨1, .optional [5]⟩], 10, none⟩ (Ex.ci Ex.tc1 Ex.ac1) = .err .invalidArgument ∨
    reasonEntryViolatesConstraint ⟨1, [⟨1, .optional [5]⟩], 10, none⟩ (Ex.ci Ex.tc1 Ex.ac1) = .err .internal :=
  C09_wrong_kind_partial (ti := Ex.ti Ex.tc1) (c := Ex.c1) (by decide +kernel) Ex.ti1_wf (by decide +kernel) Ex.kinds
    ⟨_, List.mem_singleton.2 rfl, nofun, nofun, ⟨1, c!"ex", .exact 32⟩, by decide +kernel, nofun⟩

theorem Ex.ai1_wf : ActionWF (Ex.ai Ex.ac1) := parseActionInfo_wf (sys := Ex.sys) (d := Ex.actionDecl Ex.ac1) (Ex.get_of_isOk (by decide +kernel))

/-- A parameter that is given twice. -/
example : reasonAction ⟨7, [(1, [1]), (1, [1])]⟩ (Ex.ci Ex.tc1 Ex.ac1) = .err .invalidArgument :=
  C09_action (ai := Ex.ai Ex.ac1) (c := (Ex.ai Ex.ac1).constraint.getD (.notSet {})) (by decide +kernel) Ex.ai1_wf
    (by decide +kernel) (.inr (by decide))

/-- An action profile member. -/
example : reasonEntryViolatesConstraint ⟨2, [⟨1, .exact [5]⟩], 10, some (.memberId 3)⟩ (Ex.ci Ex.tc1 Ex.ac1) = .err .invalidArgument :=
  C10_unsupported_action (ti := Ex.get ⟨0, [], none, {}, [], []⟩ (parseTableInfo Ex.sys Ex.freeTable)) (by decide +kernel)
    (by decide +kernel) rfl

/-- An unknown action, after a known one. -/
example : reasonEntryViolatesConstraint { Ex.entry 5 with action := some (.actionSet [Ex.action 3 4, ⟨99, []⟩]) } (Ex.ci Ex.tc1 Ex.ac1) =
    .err .invalidArgument :=
  C10_unknown_action_entry (pre := [Ex.action 3 4]) (post := []) (ti := Ex.ti Ex.tc1) (by decide +kernel) (by decide +kernel) rfl
    (by decide +kernel) (fun ai h => by
      have : ∀ x ∈ (Ex.ci Ex.tc1 Ex.ac1).actions, x.1 ≠ 99 := by decide +kernel
      exact this _ h rfl)

example : reasonEntryViolatesConstraint { Ex.entry 5 with action := some (.action (Ex.action 3 4)) } (Ex.ci Ex.tc1 Ex.ac1) = .ok [] ↔
    Holds (sigOf (.table (Ex.ti Ex.tc1).keysByName)) (envOf (Ex.ctx Ex.tc1 (Ex.entry 5))) Ex.s1 ∧
    ∀ a ∈ [Ex.action 3 4], Holds (sigOf (.action (Ex.ai Ex.ac1).paramsByName)) (envOf (Ex.actx Ex.ac1 (Ex.action 3 4))) Ex.s2 :=
  C11_all_checked_partial (ti := Ex.ti Ex.tc1) (Ex.tableCase (tc := Ex.tc1) (ac := Ex.ac1)
      (e := { Ex.entry 5 with action := some (.action (Ex.action 3 4)) }) (by decide +kernel)) Ex.noOrderedExact1 rfl
    (fun _ => Ex.ai Ex.ac1) (fun _ => Ex.s2) (fun _ => envOf (Ex.actx Ex.ac1 (Ex.action 3 4)))
    (fun a ha => by cases List.mem_singleton.1 ha; exact ⟨Ex.acase1 3 4, trivial, trivial⟩)

/-- A value with leading zeros. -/
example : reasonEntryViolatesConstraint ⟨1, [⟨1, .exact [0, 0, 5]⟩], 10, none⟩ (Ex.ci Ex.tc1 Ex.ac1) =
    reasonEntryViolatesConstraint ⟨1, [⟨1, .exact [5]⟩], 10, none⟩ (Ex.ci Ex.tc1 Ex.ac1) :=
  C12_spelling ⟨rfl, rfl, .cons ⟨rfl, .exact (show SameNumber [0, 0, 5] [5] by unfold SameNumber; decide)⟩ .nil, .none⟩ _

/-! ### Types -/

/-- The keys of the table. -/
abbrev Ex.scope1 : Scope := .table (Ex.ti Ex.tc1).keysByName

/-- A comparison and its operands, and the same after type checking. -/
abbrev Ex.cmpl : Expr := .field {} (.key {} c!"tern") c!"value"
abbrev Ex.cmpr : Expr := .intConst {} c!"256"
abbrev Ex.typed (e : Expr) : Expr := Ex.get (.notSet {}) (inferAndCheck {} Ex.scope1 e)

example : strip (Ex.typed (.bin {} .eq Ex.cmpl Ex.cmpr)) = .bin {} .eq Ex.cmpl Ex.cmpr :=
  C14_recovers_input (src := {}) (sc := Ex.scope1) (Ex.get_of_isOk (by decide +kernel)) (by decide +kernel)

example : WellElab (Ex.typed (.bin {} .eq Ex.cmpl Ex.cmpr)) :=
  (C14_only_annotates (src := {}) (sc := Ex.scope1) (e := .bin {} .eq Ex.cmpl Ex.cmpr) (Ex.get_of_isOk (by decide +kernel))).2.1

/-- 256 is 0 in 8 bits. -/
example : eval (Ex.ctx Ex.tc1 (Ex.entry 5)) (Ex.typed (.bin {} .eq Ex.cmpl Ex.cmpr)) [] none =
    .ok (.bool (decide ((0 : Int) = 256 % 2 ^ 8)), none) :=
  C17_int_bit (src := {}) (sc := Ex.scope1) (l := Ex.cmpl) (r := Ex.cmpr) (l' := Ex.typed Ex.cmpl) (r' := Ex.typed Ex.cmpr)
    (Ex.get_of_isOk (by decide +kernel)) (Ex.get_of_isOk (by decide +kernel)) (Ex.get_of_isOk (by decide +kernel))
    (by decide +kernel) (by decide +kernel) (by decide +kernel) (by decide +kernel)

/-- An exact key and a number that is too large for it. -/
example : ∃ c, eval (Ex.ctx Ex.tc1 (Ex.entry 5)) (Ex.typed (.bin {} .eq (.key {} c!"ex") (.intConst {} c!"4294967301"))) [] none =
    .ok (.bool c, none) ∧ (c = true ↔ MatchesExactly 32 (4294967301 % 2 ^ 32) (.exact 32) (.exact 5)) :=
  C17_int_key (src := {}) (sc := Ex.scope1) (l := .key {} c!"ex") (r := .intConst {} c!"4294967301") (l' := Ex.typed (.key {} c!"ex"))
    (r' := Ex.typed (.intConst {} c!"4294967301"))
    (Ex.get_of_isOk (by decide +kernel)) (Ex.get_of_isOk (by decide +kernel)) (Ex.get_of_isOk (by decide +kernel))
    (by decide +kernel) (by decide +kernel) (by constructor) (by decide +kernel) (by decide +kernel)

/-- The key `ex` and the value of the key `ex`. -/
example : ∃ c, eval (Ex.ctx Ex.tc1 (Ex.entry 5)) (Ex.typed (.bin {} .eq (.key {} c!"ex") (.field {} (.key {} c!"ex") c!"value"))) [] none =
    .ok (.bool c, none) ∧ (c = true ↔ MatchesExactly 32 5 (.exact 32) (.exact 5)) :=
  C17_bit_key (src := {}) (sc := Ex.scope1) (l := .key {} c!"ex") (r := .field {} (.key {} c!"ex") c!"value")
    (l' := Ex.typed (.key {} c!"ex")) (r' := Ex.typed (.field {} (.key {} c!"ex") c!"value"))
    (Ex.get_of_isOk (by decide +kernel)) (Ex.get_of_isOk (by decide +kernel)) (Ex.get_of_isOk (by decide +kernel))
    (by decide +kernel) (by decide +kernel) (by constructor) (by decide +kernel) (by decide +kernel)

/-- The type checker does not let its own results pass if they contain casts. -/
example : ∀ e'', inferAndCheck {} Ex.scope1 (Ex.typed (.bin {} .eq Ex.cmpl Ex.cmpr)) ≠ .ok e'' := fun e'' h =>
  ((C16_not_repeated (src := {}) (sc := Ex.scope1) (e := .bin {} .eq Ex.cmpl Ex.cmpr) (Ex.get_of_isOk (by decide +kernel))).2 e'' h).1.2

/-- Comparing a key of 32 bits with one of 8 bits. -/
example : ¬ ∃ e', inferAndCheck {} Ex.scope1 (.bin {} .eq (.key {} c!"ex") (.key {} c!"tern")) = .ok e' := by
  rw [C13_comparable (src := {}) (sc := Ex.scope1) (.inl rfl) (l' := Ex.typed (.key {} c!"ex")) (r' := Ex.typed (.key {} c!"tern"))
    (Ex.get_of_isOk (by decide +kernel)) (Ex.get_of_isOk (by decide +kernel))]
  rintro ⟨u, h1, h2⟩
  have e1 : (Ex.typed (.key {} c!"ex")).ty = .exact 32 := by decide +kernel
  have e2 : (Ex.typed (.key {} c!"tern")).ty = .ternary 8 := by decide +kernel
  rw [e1] at h1
  rw [e2] at h2
  cases h1 <;> cases h2 <;> contradiction

/-- Equality across types. -/
example : Evaluates {} Ex.scope1 (Ex.ctx Ex.tc1 (Ex.entry 5)) (.bin {} .eq Ex.cmpl (.field {} (.key {} c!"tern") c!"mask")) true :=
  C18_eq_transitive_across_partial (m := .intConst {} c!"0") (l' := Ex.typed Ex.cmpl) (m' := Ex.typed (.intConst {} c!"0"))
    (r' := Ex.typed (.field {} (.key {} c!"tern") c!"mask"))
    (Ex.get_of_isOk (by decide +kernel)) (Ex.get_of_isOk (by decide +kernel)) (Ex.get_of_isOk (by decide +kernel))
    (by simp [show (Ex.typed Ex.cmpl).ty = .fixedUnsigned 8 by decide +kernel, NonNeg])
    (by simp [show (Ex.typed (.intConst {} c!"0")).ty = .arbitraryInt by decide +kernel, NonNeg])
    (by simp [show (Ex.typed (.field {} (.key {} c!"tern") c!"mask")).ty = .fixedUnsigned 8 by decide +kernel, NonNeg])
    ⟨.fixedUnsigned 8, lub_iff.1 (by decide +kernel)⟩ (by decide +kernel)
    ⟨_, Ex.get_of_isOk (d := .notSet {}) (by decide +kernel), by decide +kernel⟩
    ⟨_, Ex.get_of_isOk (d := .notSet {}) (by decide +kernel), by decide +kernel⟩

example : Evaluates {} Ex.scope1 (Ex.ctx Ex.tc1 (Ex.entry 5)) (.bin {} .eq Ex.cmpl Ex.cmpl) true :=
  C18_eq_transitive_partial (m := .field {} (.key {} c!"tern") c!"mask") (l' := Ex.typed Ex.cmpl)
    (m' := Ex.typed (.field {} (.key {} c!"tern") c!"mask")) (r' := Ex.typed Ex.cmpl)
    (Ex.get_of_isOk (by decide +kernel)) (Ex.get_of_isOk (by decide +kernel)) (Ex.get_of_isOk (by decide +kernel))
    (by decide +kernel) (by decide +kernel)
    ⟨_, Ex.get_of_isOk (d := .notSet {}) (by decide +kernel), by decide +kernel⟩
    ⟨_, Ex.get_of_isOk (d := .notSet {}) (by decide +kernel), by decide +kernel⟩

/-- 256 and 0 are both equal to a key of 8 bits that is 0. -/
example : ∃ (W x y : Int), CastsTo (.fixedUnsigned W) (Ex.typed Ex.cmpl).ty ∧
    eval (Ex.ctx Ex.tc1 (Ex.entry 5)) (Ex.typed Ex.cmpr) [] none = .ok (.int x, none) ∧
    eval (Ex.ctx Ex.tc1 (Ex.entry 5)) (Ex.typed (.intConst {} c!"0")) [] none = .ok (.int y, none) ∧
    x % 2 ^ W.toNat = y % 2 ^ W.toNat ∧
    Evaluates {} Ex.scope1 (Ex.ctx Ex.tc1 (Ex.entry 5)) (.bin {} .eq Ex.cmpr (.intConst {} c!"0")) (decide (x = y)) :=
  C18_eq_modulo (m := Ex.cmpl) (Ex.get_of_isOk (by decide +kernel)) (Ex.get_of_isOk (by decide +kernel))
    (Ex.get_of_isOk (by decide +kernel))
    (by simp [show (Ex.typed Ex.cmpl).ty = .fixedUnsigned 8 by decide +kernel, NonNeg])
    (by decide +kernel) (by decide +kernel) (by decide +kernel)
    ⟨_, Ex.get_of_isOk (d := .notSet {}) (by decide +kernel), by decide +kernel⟩
    ⟨_, Ex.get_of_isOk (d := .notSet {}) (by decide +kernel), by decide +kernel⟩

example : Located (Ex.src c!"a == 1 &&\n b").loc [] c!"a == 1 &&\n b" (tokenize (Ex.src c!"a == 1 &&\n b")) :=
  (C20_locations_partial (src := Ex.src c!"a == 1 &&\n b") (by decide +kernel)).1

/-- The action of the example. -/
example : ActionAccepted Ex.sys.inetPton6 (Ex.p4info Ex.tc1 Ex.ac1) (Ex.action 3 4) :=
  (C65_action Ex.accepted (Ex.nonNeg _ _) _).1 (by decide +kernel)

end P4C
