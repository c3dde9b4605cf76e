import Verif.Props.Grammar
import Verif.Props.Ipv6
import Verif.Props.Quoting
import Verif.Props.Diagnosis
import Verif.Props.DiagnosisAny
import Verif.Props.TypeErrors
import Verif.Props.Accept

/-
Instances of theorems with hypotheses: C25, C27, C29, C43, C52, C54, C65.
-/

namespace P4C

open Spec

/-! ### C25, C27 -/

theorem Ex.parsed_src {t : Str} (h : Ex.isOk (parseConstraint Ex.sys .table (Ex.src t)) = true) :
    parseConstraint Ex.sys .table (Ex.src t) = .ok (Ex.get (.notSet {}) (parseConstraint Ex.sys .table (Ex.src t))) := Ex.get_of_isOk h

/-- Two constraints in sequence are their conjunction. -/
example : ∃ e s sa sb, parseConstraint Ex.sys .table (Ex.src c!"a == 1 || b == 2; c == 3; d == 4") = .ok e ∧ abs e = some s ∧
    abs (Ex.get (.notSet {}) (parseConstraint Ex.sys .table (Ex.src c!"a == 1 || b == 2"))) = some sa ∧
    abs (Ex.get (.notSet {}) (parseConstraint Ex.sys .table (Ex.src c!"c == 3; d == 4"))) = some sb ∧
    conjuncts s = conjuncts (.conn .and sa sb) :=
  C25_sequence (Ex.parsed_src (by decide +kernel)) (Ex.parsed_src (by decide +kernel))
    (ta := ((tokenize (Ex.src c!"a == 1 || b == 2")).map kindText).dropLast)
    (tb := ((tokenize (Ex.src c!"c == 3; d == 4")).map kindText).dropLast)
    (by decide +kernel) (by decide +kernel) (by decide +kernel) (by decide +kernel)

example : ∃ e, parseConstraint Ex.sys .table (Ex.src c!"a == 1 || b == 2 ; // end") = .ok e ∧
    abs e = abs (Ex.get (.notSet {}) (parseConstraint Ex.sys .table (Ex.src c!"a == 1 || b == 2"))) :=
  C25_trailing (Ex.parsed_src (by decide +kernel))
    (ta := ((tokenize (Ex.src c!"a == 1 || b == 2")).map kindText).dropLast)
    (by decide +kernel) (by decide +kernel) (by decide +kernel)

/-- The order of nesting does not matter. -/
example (Γ : Sig) (ρ : Env) (a b c : SExpr) :
    Holds Γ ρ (.conn .and (.conn .and a b) c) ↔ Holds Γ ρ (.conn .and a (.conn .and b c)) :=
  (C25_meaning (by simp [conjuncts]) Γ ρ).1

/-- An address, and a text that is none. -/
example {k : ConstraintKind} {l : Loc} :
    (∃ n e, Address Ex.sys.inetPton6 c!"mac" c!"00:11:22:33:44:5f" n ∧
      parseConstraint Ex.sys k ⟨c!"mac('00:11:22:33:44:5f')", l⟩ = .ok e ∧ abs e = some (.int n)) ∨
    ((∀ n, ¬ Address Ex.sys.inetPton6 c!"mac" c!"00:11:22:33:44:5f" n) ∧
      parseConstraint Ex.sys k ⟨c!"mac('00:11:22:33:44:5f')", l⟩ = .err .invalidArgument) :=
  C27_literal (ty := c!"mac") (text := c!"00:11:22:33:44:5f") (by decide) (Runes.ascii (by decide)) (by decide)

/-! ### C29 -/

theorem Ex.quotable_src {t : Str} (h : ∀ c ∈ t, c ≠ '\r') (hs : ∀ x ∈ tokenize (Ex.src t), x.kind ≠ .string) : Quotable (Ex.src t) :=
  ⟨fun a b e => absurd rfl (h '\r' (by rw [show t = _ from e]; simp)), fun x hx hk => absurd hk (hs x hx), by simp [Ex.src], by simp [Ex.src]⟩

example : ∃ text line at_, quoteSub (Ex.src c!"a == 1") { src := .tableName c!"t" } { src := .tableName c!"t", col := 6 } = .ok text ∧
    LineOf c!"a == 1" 0 line at_ ∧ Shows text 1 line 0 6 :=
  C29_quote_partial (Ex.parsed_src (t := c!"a == 1") (by decide +kernel)) (.self _) (Ex.quotable_src (by decide) (by decide +kernel)) rfl
    (by decide +kernel)

example : ∃ p m r, c!"a == 1" = p ++ m ++ r ∧ m ≠ [] :=
  have ⟨p, m, r, h1, h2, _⟩ := C29_node_text (Ex.parsed_src (t := c!"a == 1") (by decide +kernel)) (.self _)
    (Ex.quotable_src (by decide) (by decide +kernel))
  ⟨p, m, r, h1, h2⟩

/-! ### C43, C52, C54 -/

/-- A constraint whose error is after a carriage return. -/
example : ∃ before t after, Culprit (tokenize (Ex.src c!"\r)")) before t after ∧
    AddressesOk Ex.sys.inetPton6 (tokenize (Ex.src c!"\r)")) before.length ∧ Missing (Ex.src c!"\r)") t.start t.stop :=
  (C43_internal (k := .table) (by simp [Ex.src]) (by simp [Ex.src])).1 (by decide +kernel)

example {c : Code} {m : Str} (h : parseConstraintM Ex.texts Ex.sys .table (Ex.src c!"a < b < c") = .err c m) : c = .invalidArgument :=
  (C52_culprit_partial (Ex.crlf (by decide)) (by simp [Ex.src]) (by simp [Ex.src]) (by simp [Ex.src]) h).1

/-- No token of a constraint that can be parsed is to blame. -/
example : ∀ before t after, ¬ Culprit (tokenize (Ex.src c!"a == 1 || b == 2")) before t after :=
  (C52_rejected (Ex.parsed_src (by decide +kernel))).1

/-- The type error in `pre < 3`. -/
example {x : Texts} {c : Code} {m : Str} {sc : Scope}
    (h : inferAndCheckM x (Ex.src c!"pre < 3") sc (Ex.get (.notSet {}) (parseConstraint Ex.sys .table (Ex.src c!"pre < 3"))) = .err c m) :
    c = .invalidArgument :=
  ((C54_blames_partial (Ex.parsed_src (by decide +kernel)) (Ex.crlf (by decide)) (by simp [Ex.src]) (by simp [Ex.src])
    (by simp [Ex.src]) c m).1 h).1

/-! ### C65 -/

/-- The constraint of the table is false of the entry since a violation is reported. -/
example : TableValue Ex.sys.inetPton6 (Ex.tableDecl c!"ex == 6") (Ex.entry 5) false := by
  rcases C65_violated (sys := Ex.sys) (p := Ex.p4info c!"ex == 6" c!"p == 1") (ci := Ex.ci c!"ex == 6" c!"p == 1") (entry := Ex.entry 5)
    (m := Ex.get [] (reasonEntryViolatesConstraint (Ex.entry 5) (Ex.ci c!"ex == 6" c!"p == 1")))
    (Ex.get_of_isOk (by decide +kernel)) (Ex.nonNeg _ _) (Ex.get_of_isOk (by decide +kernel)) (by decide +kernel) with
    ⟨d, hd, hid, h⟩ | ⟨as, a, h, ha, _⟩
  · simp only [Ex.p4info, List.mem_cons, List.not_mem_nil, or_false] at hd
    rcases hd with rfl | rfl
    · exact h
    · exact absurd hid (by decide)
  · cases h
    cases ha

end P4C
