import Verif.Proofs.Debug3
import Verif.Props.HandMade
import Verif.Props.Sorts

/-
C103: builds with assertions. The theorems are about the library with any choice of checks `m`, which includes the build with
`DCHECK`s (`Ex.assertions`).
-/

namespace P4C

open Spec

namespace Ex

/-- A build with `DCHECK`s. -/
def assertions : Checks := ⟨true, false⟩

/-- The byte 0xff in a block comment. -/
def brokenComment : Str := c!"/* " ++ [Char.ofNat 0xff] ++ c!" */ true"

/-- A key that is declared with the width -1. -/
def negativeKey : P4Info :=
  ⟨[{ preamble := ⟨1, c!"t", [c!"@entry_restriction(\"k == 1\")"]⟩, matchFields := [⟨1, c!"k", -1, .matchType .exact⟩] }], []⟩

/-- A hand-made tree with casts to a type without or with an unusual width. -/
def odd (t : Ty) : Expr :=
  .bin { ty := .boolean } .eq (.typeCast { ty := t } (.intConst { ty := .arbitraryInt } c!"1"))
    (.typeCast { ty := t } (.intConst { ty := .arbitraryInt } c!"1"))

/-- A table constraint with a comment. -/
def commented : Str := c!"/* five\n or *more* */ ex::value == 5 -> tern::mask != 0xff // done"

/-- An action constraint. -/
def ordered : Str := c!"p < q || p == 0"

/-- A reason was given. -/
def nonempty : Res Str → Bool
  | .ok (_ :: _) => true
  | _ => false

theorem commented_encoded : Encoded (p4info commented ordered) where
  tables := by
    intro t ht a ha
    refine Runes.ascii ?_
    revert a t
    decide +kernel
  actions := by
    intro t ht a ha
    refine Runes.ascii ?_
    revert a t
    decide +kernel

theorem p4info_sized (tc ac : Str) : NoneOfWidthMinusOne (p4info tc ac) where
  keys := by
    intro t ht f hf
    simp only [p4info, List.mem_cons, List.not_mem_nil, or_false] at ht
    rcases ht with rfl | rfl
    · exact (by decide : ∀ f ∈ (tableDecl []).matchFields, f.bitwidth ≠ -1) f hf
    · exact (by decide : ∀ f ∈ freeTable.matchFields, f.bitwidth ≠ -1) f hf
  params := by
    intro d hd q hq
    simp only [p4info, List.mem_cons, List.not_mem_nil, or_false] at hd
    rcases hd with rfl | rfl
    · exact (by decide : ∀ f ∈ (actionDecl []).params, f.bitwidth ≠ -1) q hq
    · cases hq

end Ex

/-! ### Assertions do nothing but stop the process -/

/-- C103: reading a program, with and without assertions. -/
theorem C103_program_same (m : Checks) (sys : Sys) (p : P4Info) :
    SameOrStopped (p4ToConstraintInfoD m sys p) (p4ToConstraintInfo sys p) := (programD_dbg m sys p).same

/-- C103: checking an entry, whatever the constraint info is. -/
theorem C103_verdict_same (m : Checks) (entry : RtEntry) (ci : ConstraintInfo) :
    SameOrStopped (reasonEntryViolatesConstraintD m entry ci) (reasonEntryViolatesConstraint entry ci) :=
  (reasonEntryD_dbg m entry ci).same

/-- C103: adding the text of a constraint to a solver. Unless the process is stopped, the state of the solver is the same, too. -/
theorem C103_solver_same (m : Checks) (z : Z3Oracle) (sys : Sys) (s : Solver) (text : Str) :
    s.addConstraintStrD m z sys text = s.addConstraintStr z sys text ∨ (s.addConstraintStrD m z sys text).1 = .crash :=
  (addStrD_dbg m z sys s text).imp id (·.2)

/-- C103: the command line tool. -/
theorem C103_p4check_same (m : Checks) (sys : Sys) (name : Str) (program : FileRead P4Info)
    (files : List (Str × FileRead RtEntry)) :
    SameOrStopped (p4checkD m sys name program files) (p4check sys name program files) :=
  (p4checkD_dbg m sys name program files).same

/-! ### Nothing is logged -/

/-- C103: if the `LOG(ERROR)`s in the lexer, the parser and the type checker that report a bug of the library were fatal, in a
build without assertions, then no outcome would change: they are not reached, whatever the input is. -/
theorem C103_logs (z : Z3Oracle) (sys : Sys) (p : P4Info) (entry : RtEntry) (ci : ConstraintInfo) (s : Solver) (text : Str)
    (name : Str) (program : FileRead P4Info) (files : List (Str × FileRead RtEntry)) :
    p4ToConstraintInfoD ⟨false, true⟩ sys p = p4ToConstraintInfo sys p ∧
    reasonEntryViolatesConstraintD ⟨false, true⟩ entry ci = reasonEntryViolatesConstraint entry ci ∧
    s.addConstraintStrD ⟨false, true⟩ z sys text = s.addConstraintStr z sys text ∧
    p4checkD ⟨false, true⟩ sys name program files = p4check sys name program files := by
  refine ⟨(programD_dbg _ sys p).release rfl, (reasonEntryD_dbg _ entry ci).release rfl, ?_,
    (p4checkD_dbg _ sys name program files).release rfl⟩
  rcases addStrD_dbg ⟨false, true⟩ z sys s text with h | ⟨⟨h, _⟩, _⟩
  · exact h
  · cases h

/-! ### Assertions that never fail -/

/-- C103: the keywords are different. -/
theorem C103_keywords (m : Checks) :
    ∃ map, kindKeywordMapD m [] allKinds = .ok map ∧ ∀ k, lookup (kindToKeyword k) map = some k := by
  have h : ∀ m : Checks, kindKeywordMapD m [] allKinds = .ok (allKinds.reverse.map fun k => (kindToKeyword k, k)) := by
    rintro ⟨_ | _, _ | _⟩ <;> decide +kernel
  exact ⟨_, h m, fun k => by cases k <;> decide +kernel⟩

/-- C103: the parser's assertion about precedences holds for all tokens, from the lexer or not. -/
theorem C103_parser (m : Checks) (sys : Sys) (k : ConstraintKind) (ts : List Token) (src : ConstraintSource) :
    parseTokensD m sys k ts src = parseTokens sys k ts src := parseTokensD_eq m sys k ts src

/-- C103: in a text that consists of characters no assertion of the lexer or the parser fails. -/
theorem C103_text_partial (m : Checks) (sys : Sys) (k : ConstraintKind) {src : ConstraintSource} (h : Runes src.str) :
    tokenizeD m src = .ok (tokenize src) ∧ parseConstraintD m sys k src = parseConstraint sys k src :=
  ⟨(tokenizeD_dbg m src).eq h, (parseConstraintD_dbg m sys k src).eq h⟩

/-- C103: in particular in UTF-8. -/
theorem C103_utf8 (text : String) : Runes (utf8 text) := utf8_runes text

/-! ### Programs -/

/-- C103: a program is read as in a build without assertions, if its annotations consist of characters and no width is -1.
Missing: all programs, see `C103_fails_comment` and `C103_fails_width`. -/
theorem C103_program_partial (m : Checks) (sys : Sys) {p : P4Info} (hp : Encoded p) (hw : NoneOfWidthMinusOne p) :
    p4ToConstraintInfoD m sys p = p4ToConstraintInfo sys p := (programD_dbg m sys p).eq ⟨hp, hw⟩

/-- C103: entries are checked as without assertions against a program in which no width is -1. Missing: all programs,
and constraint infos of other origin, see `C103_fails_cast`. -/
theorem C103_verdict_partial (m : Checks) {sys : Sys} {p : P4Info} {ci : ConstraintInfo} (hw : NoneOfWidthMinusOne p)
    (h : p4ToConstraintInfo sys p = .ok ci) (entry : RtEntry) :
    reasonEntryViolatesConstraintD m entry ci = reasonEntryViolatesConstraint entry ci :=
  (reasonEntryD_dbg m entry ci).eq (program_sized hw h)

/-- C103: hand-made constraints whose casts are to types with a width, which is not -1. -/
theorem C103_trees_partial (m : Checks) {ci : ConstraintInfo}
    (ht : ∀ id ti c, (id, ti) ∈ ci.tables → ti.constraint = some c → Everywhere SizedCast c)
    (ha : ∀ id ai c, (id, ai) ∈ ci.actions → ai.constraint = some c → Everywhere SizedCast c) (entry : RtEntry) :
    reasonEntryViolatesConstraintD m entry ci = reasonEntryViolatesConstraint entry ci :=
  (reasonEntryD_dbg m entry ci).eq ⟨fun x hx c hc => ht x.1 x.2 c hx hc, fun x hx c hc => ha x.1 x.2 c hx hc⟩

/-- C103: a text that consists of characters is added to the solver of a table of such a program as without assertions. -/
theorem C103_solver_partial (m : Checks) (z : Z3Oracle) {sys : Sys} {p : P4Info} {ci : ConstraintInfo} {id : Nat} {s : Solver}
    (hw : NoneOfWidthMinusOne p) (h : p4ToConstraintInfo sys p = .ok ci) (hs : lookup id ci.tables = some s.table)
    {text : Str} (htext : Runes text) :
    s.addConstraintStrD m z sys text = s.addConstraintStr z sys text := by
  rcases addStrD_dbg m z sys s text with h1 | ⟨⟨_, h1⟩, _⟩
  · exact h1
  · exact absurd ⟨htext, program_scope hw h hs⟩ h1

/-- C103: the same for the command line tool. -/
theorem C103_p4check_partial (m : Checks) (sys : Sys) (name : Str) {program : FileRead P4Info}
    (hp : ∀ p, program = .parsed p → Encoded p ∧ NoneOfWidthMinusOne p) (files : List (Str × FileRead RtEntry)) :
    p4checkD m sys name program files = p4check sys name program files := (p4checkD_dbg m sys name program files).eq hp

/-- C103 fails for a byte that is not in UTF-8 in a block comment: without assertions the text is rejected, with assertions the
process is stopped (lexer.cc:64). -/
theorem C103_fails_comment : ∃ (text : Str) (sys : Sys),
    parseConstraint sys .table ⟨text, { src := .tableName c!"t" }⟩ = .err .invalidArgument ∧
    parseConstraintD Ex.assertions sys .table ⟨text, { src := .tableName c!"t" }⟩ = .crash ∧
    p4ToConstraintInfo sys (Ex.p4info text Ex.ordered) = .err .invalidArgument ∧
    p4ToConstraintInfoD Ex.assertions sys (Ex.p4info text Ex.ordered) = .crash :=
  ⟨Ex.brokenComment, Ex.sys, by decide +kernel, by decide +kernel, by decide +kernel, by decide +kernel⟩

/-- C103 fails for a key of width -1 that is compared with a number: without assertions the program is accepted, with assertions
the process is stopped (type_checker.cc:147). -/
theorem C103_fails_width : ∃ (p : P4Info) (sys : Sys), Encoded p ∧
    (∃ ci, p4ToConstraintInfo sys p = .ok ci) ∧ p4ToConstraintInfoD Ex.assertions sys p = .crash := by
  refine ⟨Ex.negativeKey, Ex.sys, ⟨?_, fun d hd => by cases hd⟩,
    ⟨_, Ex.get_of_isOk (d := ⟨[], []⟩) (by decide +kernel)⟩, by decide +kernel⟩
  intro t ht a ha
  refine Runes.ascii ?_
  revert a t
  decide +kernel

/-- C103 fails for hand-made constraints: with casts to a type of width -1 an entry is found to satisfy it, with casts to int
there is an error, and with assertions the process is stopped in both cases (interpreter.cc:322). -/
theorem C103_fails_cast : ∃ (entry : RtEntry) (valid invalid : ConstraintInfo),
    reasonEntryViolatesConstraint entry valid = .ok [] ∧ reasonEntryViolatesConstraint entry invalid = .err .internal ∧
    reasonEntryViolatesConstraintD Ex.assertions entry valid = .crash ∧
    reasonEntryViolatesConstraintD Ex.assertions entry invalid = .crash :=
  ⟨Ex.plainEntry, Ex.handMade (Ex.odd (.exact (-1))), Ex.handMade (Ex.odd .arbitraryInt), by decide +kernel, by decide +kernel,
    by decide +kernel, by decide +kernel⟩

/-! ### Examples -/

/-- A program with a comment, keys of all kinds, and constraints on entries and actions, read with assertions. -/
example : p4ToConstraintInfoD Ex.assertions Ex.sys (Ex.p4info Ex.commented Ex.ordered) =
    .ok (Ex.ci Ex.commented Ex.ordered) := by
  rw [C103_program_partial _ _ Ex.commented_encoded (Ex.p4info_sized _ _)]
  exact Ex.get_of_isOk (by decide +kernel)

/-- An entry that violates a constraint, and one that does not. -/
example : Ex.nonempty (reasonEntryViolatesConstraintD Ex.assertions (Ex.entry 5) (Ex.ci c!"ex::value != 5" Ex.ordered)) = true ∧
    reasonEntryViolatesConstraintD Ex.assertions (Ex.entry 6) (Ex.ci c!"ex::value != 5" Ex.ordered) = .ok [] := by
  have h : p4ToConstraintInfo Ex.sys (Ex.p4info c!"ex::value != 5" Ex.ordered) = .ok (Ex.ci c!"ex::value != 5" Ex.ordered) :=
    Ex.get_of_isOk (by decide +kernel)
  rw [C103_verdict_partial _ (Ex.p4info_sized _ _) h, C103_verdict_partial _ (Ex.p4info_sized _ _) h]
  exact ⟨by decide +kernel, by decide +kernel⟩

/-- Non-ASCII characters in comments are no problem. -/
example : parseConstraintD Ex.assertions Ex.sys .table ⟨utf8 "/* größer */ true // ∀", {}⟩ =
    parseConstraint Ex.sys .table ⟨utf8 "/* größer */ true // ∀", {}⟩ ∧
    Ex.isOk (parseConstraint Ex.sys .table ⟨utf8 "/* größer */ true // ∀", {}⟩) = true :=
  ⟨(C103_text_partial _ _ _ (C103_utf8 _)).2, by decide +kernel⟩

/-- A hand-made tree to which `C103_trees_partial` applies. -/
example : reasonEntryViolatesConstraintD Ex.assertions Ex.plainEntry (Ex.handMade Ex.unequal) =
    reasonEntryViolatesConstraint Ex.plainEntry (Ex.handMade Ex.unequal) := by
  refine C103_trees_partial _ ?_ (fun _ _ _ h => by cases h) _
  intro id ti c hm hc
  simp only [Ex.handMade, List.mem_singleton, Prod.mk.injEq] at hm
  obtain ⟨_, rfl⟩ := hm
  cases hc
  refine ⟨?_, ?_, ?_⟩ <;> exact fun i e h => by cases h

/-- A text for the solver, and an entry file for the tool. -/
example (z : Z3Oracle) : Ex.treeSolver.addConstraintStrD Ex.assertions z Ex.sys c!"ex == 5" =
    Ex.treeSolver.addConstraintStr z Ex.sys c!"ex == 5" := by
  refine C103_solver_partial (p := Ex.symInfo (Ex.symDecl [])) (ci := Ex.symCi (Ex.symDecl [])) (id := 1) _ z
    ⟨?_, fun d hd => by cases hd⟩ (Ex.get_of_isOk (by decide +kernel)) (by decide +kernel) (Runes.ascii (by decide))
  decide

example : p4checkD Ex.assertions Ex.sys c!"prog" (.parsed (Ex.p4info Ex.commented Ex.ordered))
      [(c!"e1", .parsed (Ex.entry 6)), (c!"e2", .missing)] =
    .ok ⟨0, [(c!"e1", .satisfied), (c!"e2", .notFound)]⟩ := by
  rw [C103_p4check_partial]
  · decide +kernel
  · intro p h
    cases h
    exact ⟨Ex.commented_encoded, Ex.p4info_sized _ _⟩

end P4C
