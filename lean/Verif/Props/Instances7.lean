import Verif.Props.Instances6
import Verif.Props.Verdict
import Verif.Props.Laws
import Verif.Props.ParseCost
import Verif.Props.EvalDepth
import Verif.Props.Utility
import Verif.Props.Status

/-
Instances of theorems with hypotheses: C10, C23, C44, C73, C74, C89, C93, C109, C110.
-/

namespace P4C

open Spec

/-! ### C10 -/

/-- An invocation of an action that the program does not have. -/
example : reasonAction ⟨9, [(1, [3])]⟩ (Ex.ci Ex.tc1 Ex.ac1) = .err .invalidArgument :=
  C10_unknown_action (by
    intro ai h
    have : ∀ x ∈ (Ex.ci Ex.tc1 Ex.ac1).actions.map Prod.fst, x ≠ 9 := by decide +kernel
    exact this _ (List.mem_map_of_mem h) rfl)

/-! ### C23 -/

/-- The trees of `a == 0x1F || !b` are those that the grammar gives it. -/
example (e : Expr) : parseTokens Ex.sys .table (tokenize (Ex.src c!"a == 0x1F || !b")) (Ex.src c!"a == 0x1F || !b") = .ok e ↔
    Constraint Ex.sys.inetPton6 .table (tokenize (Ex.src c!"a == 0x1F || !b")) e :=
  C23_grammar (tokenize_numTok _) e

/-! ### C44 -/

/-- De Morgan, for two comparisons. -/
example (v : Bool) :
    let a : Expr := .bin {} .lt (.field {} (.key {} c!"tern") c!"value") (.intConst {} c!"3")
    let b : Expr := .bin {} .eq (.key {} c!"ex") (.intConst {} c!"5")
    Evaluates {} (.table (Ex.ti Ex.tc1).keysByName) (Ex.ctx Ex.tc1 (Ex.entry 5)) (.boolNeg {} (.bin {} .and a b)) v ↔
    Evaluates {} (.table (Ex.ti Ex.tc1).keysByName) (Ex.ctx Ex.tc1 (Ex.entry 5)) (.bin {} .or (.boolNeg {} a) (.boolNeg {} b)) v :=
  (C44_laws (i := {}) (a := .bin {} .lt (.field {} (.key {} c!"tern") c!"value") (.intConst {} c!"3"))
    (b := .bin {} .eq (.key {} c!"ex") (.intConst {} c!"5")) (d := .boolConst {} true) _ _ (by simp)).2 v

/-! ### C73 -/

/-- What is streamed into a builder is added to the message. -/
example : (built ⟨.error .notFound c!"no table", {}⟩ [.write c!"while ", .convert, .write c!"checking"]).toStatus =
    .error .notFound (c!"no table" ++ c!"; " ++ c!"while checking") :=
  (C73_builder_partial _ _ _ (by
    intro before after h
    rcases before with _ | ⟨_, _ | ⟨_, _ | ⟨_, _ | ⟨_, _⟩⟩⟩⟩ <;> simp at h)).2 (.further _ _ _ (by decide) (by decide))

example : ((MRes.err .notFound c!"no key" : MRes Nat).annotate c!"in table").returned =
    some (assignOrReturn (.status (.error .notFound c!"no key")) [c!"in table"] .value) :=
  C73_annotate (.err .notFound c!"no key" : MRes Nat) c!"in table" (by decide)

/-! ### C74 -/

example : ∃ text e, parseConstraint glibc .table ⟨c!"ipv6('" ++ text ++ c!"')", {}⟩ = .ok e ∧
    abs e = some (.int (0x2001_0db8_0000_0000_0000_0000_0000_0001 : Nat)) :=
  C74_every (by decide)

/-! ### C89, C93 -/

example : (parseConstraintC Ex.sys .table (Ex.src c!"!(x::mask == 1) || y == 2")).copied =
    depths 0 (Ex.get (.notSet {}) (parseConstraint Ex.sys .table (Ex.src c!"!(x::mask == 1) || y == 2"))) :=
  C89_copied (Ex.parsed_src (by decide +kernel))

example : (reasonEntryT (Ex.entry 4) (Ex.ci Ex.tc1 Ex.ac1)).depth ≤ 2 * longestFor (Ex.ci Ex.tc1 Ex.ac1) (Ex.entry 4) + 4 :=
  C93_text (sys := Ex.sys) (p := Ex.p4info Ex.tc1 Ex.ac1) (Ex.get_of_isOk (by decide +kernel)) _

/-! ### C109, C110 -/

example : (∃ n, size Ex.sized = .ok n) ∧
    ∃ n, size (Ex.get (.notSet {}) (inferAndCheck (Ex.ti c!"true").source (.table (Ex.ti c!"true").keysByName) Ex.sized)) = .ok n :=
  C109_table (Ex.get_of_isOk (by decide +kernel))

/-- Locations of different tables differ. -/
example (b : Loc) : locEq { line := 1, col := 2, src := .tableName c!"t" } b = true ↔ ({ line := 1, col := 2, src := .tableName c!"t" } : Loc) = b :=
  C110_locations_partial nofun

end P4C
