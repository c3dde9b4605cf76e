import Verif.Proofs.CrashProgram
import Verif.Props.Crash
import Verif.Props.Report
import Verif.Props.Program

/-
When reading a program crashes: property C85.
-/

namespace P4C

open Spec

/-! ### C85: the outcomes of reading a program -/

/-- C85: reading a program crashes if and only if it has a table or an action with proper keys or parameters and a
constraint that is a sentence of the language, but whose first part without a type cannot be quoted. -/
theorem C85_crash {sys : Sys} {p : P4Info} :
    p4ToConstraintInfo sys p = .crash ↔ ProgramCrash sys.inetPton6 p := by
  rw [← program_crash_iff (x := Ex.texts), ← C55_same_errors Ex.texts]
  cases p4ToConstraintInfoM Ex.texts sys p <;> simp [MRes.erase]

/-- C85: reading a program fails with an error if and only if something is wrong with it and all of it can be told. -/
theorem C85_error {x : Texts} {sys : Sys} {p : P4Info} :
    p4ToConstraintInfo sys p = .err .invalidArgument ↔ ∃ ms, ms ≠ [] ∧ ProgramReports x sys.inetPton6 p ms := by
  rw [← C55_same_errors x]
  constructor
  · intro h
    cases hm : p4ToConstraintInfoM x sys p <;> rw [hm] at h <;> cases h
    obtain ⟨ms, h1, h2, _⟩ := ((C55_reports_partial).2 _ _ hm).2
    exact ⟨ms, h1, h2⟩
  · rintro ⟨ms, h1, h2⟩
    rcases C55_otherwise (x := x) (sys := sys) with ⟨ci, h⟩ | ⟨m, h⟩ | ⟨h, _⟩
    · exact (h1 ((C55_determined h2).1 (C55_reports_partial.1 ci h))).elim
    · rw [h]; rfl
    · exact (program_reported h2 (program_crash_iff.1 h)).elim

/-- C55, exactly: the errors of reading a program, with their messages. -/
theorem C55_exact {x : Texts} {sys : Sys} {p : P4Info} {c : Code} {m : Str} : p4ToConstraintInfoM x sys p = .err c m ↔
    c = .invalidArgument ∧ ∃ ms, ms ≠ [] ∧ ProgramReports x sys.inetPton6 p ms ∧ m = bulletList ms := by
  refine ⟨C55_reports_partial.2 c m, ?_⟩
  rintro ⟨rfl, ms, h1, h2, rfl⟩
  rcases C55_otherwise (x := x) (sys := sys) (p := p) with ⟨ci, h⟩ | ⟨m, h⟩ | ⟨h, _⟩
  · exact (h1 ((C55_determined h2).1 (C55_reports_partial.1 ci h))).elim
  · obtain ⟨_, ms', _, h3, rfl⟩ := C55_reports_partial.2 _ _ h
    rw [h, (C55_determined h2).1 h3]
  · exact (program_reported h2 (program_crash_iff.1 h)).elim

/-- C85: there are three outcomes: the program is read, because its definitions are fine and have different ids; it is
rejected; or the process crashes. -/
theorem C85_outcomes {x : Texts} {sys : Sys} {p : P4Info} :
    ((∃ ci, p4ToConstraintInfo sys p = .ok ci) ∧ GoodProgram sys.inetPton6 p) ∨
    (p4ToConstraintInfo sys p = .err .invalidArgument ∧ ∃ ms, ms ≠ [] ∧ ProgramReports x sys.inetPton6 p ms) ∨
    (p4ToConstraintInfo sys p = .crash ∧ ProgramCrash sys.inetPton6 p) := by
  rcases p4ToConstraintInfo_outcome (sys := sys) (p := p) with h | h | ⟨h, _⟩
  · exact .inl ⟨h, C31_succeeds.1 h⟩
  · exact .inr (.inl ⟨h, C85_error.1 h⟩)
  · exact .inr (.inr ⟨h, C85_crash.1 h⟩)

/-- C85: and they exclude each other. -/
theorem C85_exclusive {x : Texts} {pton : Str → Option Bytes} {p : P4Info} :
    (GoodProgram pton p → ¬ ProgramCrash pton p ∧ ∀ ms, ProgramReports x pton p ms → ms = []) ∧
    ∀ ms, ProgramReports x pton p ms → ¬ ProgramCrash pton p := by
  refine ⟨fun h => ⟨fun hc => ?_, fun ms hms => ?_⟩, fun ms h => program_reported (sys := ⟨pton⟩) h⟩
  · obtain ⟨ci, h1⟩ := C31_succeeds (sys := ⟨pton⟩).2 h
    rw [(C85_crash (sys := ⟨pton⟩)).2 hc] at h1
    cases h1
  · exact (C55_determined hms).2.2 h

/-- C85: whatever the carriage returns in the constraints are, a program is rejected exactly if it is not good and does not make
the process crash. -/
theorem C85_otherwise {sys : Sys} {p : P4Info} : p4ToConstraintInfo sys p = .err .invalidArgument ↔
    ¬ GoodProgram sys.inetPton6 p ∧ ¬ ProgramCrash sys.inetPton6 p := by
  constructor
  · refine fun h => ⟨fun hg => ?_, fun hc => ?_⟩
    · obtain ⟨ci, h1⟩ := C31_succeeds.2 hg
      rw [h] at h1
      cases h1
    · have := C85_crash.2 hc
      rw [h] at this
      cases this
  · rintro ⟨h1, h2⟩
    rcases p4ToConstraintInfo_outcome (sys := sys) (p := p) with h | h | ⟨h, _⟩
    · exact (h1 (C31_succeeds.1 h)).elim
    · exact h
    · exact (h2 (C85_crash.1 h)).elim

/-- C85: a definition that makes the process crash does so whatever else is in the program. -/
theorem C85_anywhere {sys : Sys} {p q : P4Info}
    (ht : ∀ d ∈ p.tables, d ∈ q.tables) (ha : ∀ d ∈ p.actions, d ∈ q.actions)
    (h : p4ToConstraintInfo sys p = .crash) : p4ToConstraintInfo sys q = .crash := by
  refine C85_crash.2 ?_
  rcases C85_crash.1 h with ⟨d, hd, h⟩ | ⟨d, hd, h⟩
  · exact .inl ⟨d, ht d hd, h⟩
  · exact .inr ⟨d, ha d hd, h⟩

/-- C85: a program whose constraints are on one line each does not make the process crash. -/
theorem C85_one_line {sys : Sys} {p : P4Info} (hn : OneLineProgram p) :
    p4ToConstraintInfo sys p ≠ .crash := by
  intro h
  rcases C85_crash.1 h with ⟨d, hd, vs, _, _, h⟩ | ⟨d, hd, vs, _, _, h⟩
  · exact oneLine_fault (hn.1 d hd) h
  · exact oneLine_fault (hn.2 d hd) h

/-- A comparison with a minus sign before it, and a line break within: a crash; with enough blanks before the line break it is a
message. Nor does a proper constraint crash, over however many lines. -/
example : ProgramCrash Ex.sys.inetPton6 (Ex.p4info c!"-(ex\n== 1)" c!"p == 1") ∧
    ¬ ProgramCrash Ex.sys.inetPton6 (Ex.p4info c!"-(ex   \n== 1)" c!"p == 1") ∧
    ¬ ProgramCrash Ex.sys.inetPton6 (Ex.p4info c!"!(\nex == 1\n)" c!"p == 1") ∧
    ProgramCrash Ex.sys.inetPton6 (Ex.p4info c!"ex == 1" c!"p\n== true") := by
  rw [← C85_crash, ← C85_crash, ← C85_crash, ← C85_crash]
  refine ⟨?_, ?_, ?_, ?_⟩ <;> decide +kernel

end P4C
