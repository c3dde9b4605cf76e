import Verif.Proofs.Report

/-!
# C55: what is reported about a faulty program
-/

namespace P4C

open Spec

/-- C55: if reading a program fails, the message lists one message for each table, and then for each action, that is
faulty or has the id of an earlier one, in the order of the program. Each describes the first fault of the definition.
If reading it succeeds, there is nothing to report.
Missing from the full statement: that each message names the table or action it is about (`C55_fails`). -/
theorem C55_reports_partial {x : Texts} {sys : Sys} {p : P4Info} :
    (∀ ci, p4ToConstraintInfoM x sys p = .ok ci → ProgramReports x sys.inetPton6 p []) ∧
    ∀ c m, p4ToConstraintInfoM x sys p = .err c m → c = .invalidArgument ∧
      ∃ ms, ms ≠ [] ∧ ProgramReports x sys.inetPton6 p ms ∧ m = bulletList ms :=
  program_reports

/-- C55: the only other outcome is a crash, and this only because of a type error that extends over several lines. -/
theorem C55_otherwise {x : Texts} {sys : Sys} {p : P4Info} :
    (∃ ci, p4ToConstraintInfoM x sys p = .ok ci) ∨ (∃ m, p4ToConstraintInfoM x sys p = .err .invalidArgument m) ∨
      (p4ToConstraintInfoM x sys p = .crash ∧ SplitProgram sys.inetPton6 p) := by
  have he := erase_p4ToConstraintInfo x sys p
  cases h : p4ToConstraintInfoM x sys p with
  | ok ci => exact .inl ⟨ci, rfl⟩
  | err c m => exact .inr (.inl ⟨m, by rw [((program_reports).2 c m h).1]⟩)
  | crash => exact .inr (.inr ⟨rfl, program_crash h⟩)
  | oof =>
    rw [h] at he
    rcases C48_outcomes sys p with ⟨ci, h'⟩ | h' | h' <;> rw [h'] at he <;> cases he

/-- C55: only faulty definitions are described as faulty. -/
theorem C55_faulty {x : Texts} {pton : Str → Option Bytes} :
    (∀ {d m}, TableFault x pton d m → ¬ GoodTable pton d) ∧ ∀ {d m}, ActionFault x pton d m → ¬ GoodAction pton d :=
  ⟨tableFault_not, actionFault_not⟩

/-- C55: the messages are determined by the program; there are none exactly if all definitions are good
and have different ids. -/
theorem C55_determined {x : Texts} {pton : Str → Option Bytes} {p : P4Info} {ms : List Str}
    (h : ProgramReports x pton p ms) :
    (∀ {ms'}, ProgramReports x pton p ms' → ms = ms') ∧
      (ms = [] ↔ (p.tables.map fun t => t.preamble.id).Nodup ∧ (p.actions.map fun a => a.preamble.id).Nodup ∧
        (∀ d ∈ p.tables, GoodTable pton d) ∧ ∀ d ∈ p.actions, GoodAction pton d) := by
  have hl : ∀ {ms'}, ProgramReports x pton p ms' → ms = ms' := by
    intro ms' h'
    obtain ⟨a, b, rfl, h1, h2⟩ := h
    obtain ⟨a', b', rfl, h1', h2'⟩ := h'
    rw [reports_unique (Good := GoodTable pton) (Bad := TableFault x pton) tableFault_not tableFault_unique h1 h1',
      reports_unique (Good := GoodAction pton) (Bad := ActionFault x pton) actionFault_not actionFault_unique h2 h2']
  refine ⟨hl, ?_, ?_⟩
  · rintro rfl
    obtain ⟨a, b, e, h1, h2⟩ := h
    obtain ⟨rfl, rfl⟩ := List.append_eq_nil_iff.1 e.symm
    obtain ⟨g1, n1, _⟩ := reports_nil h1
    obtain ⟨g2, n2, _⟩ := reports_nil h2
    exact ⟨n1, n2, g1, g2⟩
  · rintro ⟨n1, n2, g1, g2⟩
    have : ProgramReports x pton p [] :=
      ⟨[], [], rfl, reports_good g1 n1 (by simp), reports_good g2 n2 (by simp)⟩
    simpa using hl this

/-- C55: the messages modelled here are those of the errors of the other properties. -/
theorem C55_same_errors (x : Texts) (sys : Sys) (p : P4Info) :
    (p4ToConstraintInfoM x sys p).erase = p4ToConstraintInfo sys p :=
  erase_p4ToConstraintInfo x sys p

/-- A program with five faults. -/
def Ex.faulty : P4Info :=
  { tables := [Ex.tableDecl c!"ex == 1 &&\n -(ex == 1)", { Ex.freeTable with preamble := ⟨1, c!"same", []⟩ },
      { preamble := ⟨1, c!"other", []⟩, matchFields := [⟨1, c!"k", 8, .matchType .exact⟩, ⟨1, c!"l", 8, .matchType .exact⟩] },
      { preamble := ⟨1, c!"again", [c!"@entry_restriction"]⟩, matchFields := [] }]
    actions := [Ex.actionDecl c!"p == )", Ex.freeAction,
      { preamble := ⟨9, c!"open", [c!"@line(7)", c!"@action_restriction(true)"]⟩, params := [] }] }

/-- The first table has a type error, the second is fine and takes the id 1, the third has two keys with the same id, and
the fourth has the id 1 again. -/
example : p4ToConstraintInfoM Ex.texts Ex.sys Ex.faulty = .err .invalidArgument
    (bulletList [
      c!"In @entry_restriction of table 'tbl'; at offset line 2, columns 4 to 10:\n  | ex == 1 &&\n2 |  -(ex == 1)\n" ++
        c!"  |    ^^^^^^^\nType error: expected type int, got bool",
      c!"table other has duplicate key: ", c!"duplicate table: ",
      c!"In @action_restriction of action 'act'; at offset line 1, column 6:\n1 | p == )\n  |      ^\n" ++
        c!"Parse error: unexpected token: ). Expected true, false, <BINARY>, <OCTARY>, <DECIMAL>, <HEXADEC>, <ID>, ::, !, " ++
        c!"-, or (.",
      c!"In action open:\nSyntax error: @action_restriction must be enclosed in '(\"' and '\")'"]) := by
  decide +kernel

/-- C55 fails: some messages do not name the table they are about, nor a place. -/
theorem C55_fails :
    p4ToConstraintInfoM Ex.texts Ex.sys ⟨[Ex.tableDecl c!"ex == ip4('1.2.3.4')"], []⟩ =
      .err .invalidArgument (bulletList [c!"Invalid network identifier"]) ∧
    p4ToConstraintInfoM Ex.texts Ex.sys
        ⟨[{ preamble := ⟨1, c!"t", []⟩, matchFields := [⟨1, c!"k", 8, .matchType .invalid⟩] }], []⟩ =
      .err .invalidArgument (bulletList [c!"match key of invalid MatchType: "]) := by
  decide +kernel

end P4C
