import Verif.Proofs.Crash
import Verif.Props.EntryReport
import Verif.Props.Violation

/-!
# C84: exactly when checking an entry crashes
-/

namespace P4C

open Spec

section
variable {x : EntryTexts} {sys : Sys} {p : P4Info} {ci : ConstraintInfo} (h : p4ToConstraintInfo sys p = .ok ci)
  (hw : NonNegProgram p)

include h hw in
/-- C84: for any program that is accepted, checking an entry crashes if and only if a part of a constraint has to be quoted
that starts on one line and ends on another, and the line on which it starts is too short. `EntryCrash` is in terms of the
declarations of the program. `hw`: bitwidths are not negative. -/
theorem C84_crash (entry : RtEntry) :
    reasonEntryViolatesConstraint entry ci = .crash ↔ EntryCrash sys.inetPton6 p entry := by
  have x : EntryTexts := ⟨fun _ _ _ => [], fun _ _ _ => [], fun _ => [], fun _ => [], fun _ => [], fun _ => [], fun _ => [],
    fun _ => [], fun _ => []⟩
  rw [← erase_reason x entry ci]
  constructor
  · intro he
    rcases reasonM_cases (x := x) h hw entry with (⟨m, hm⟩ | ⟨c, m, hm⟩) | ⟨_, hc⟩
    · rw [hm] at he; cases he
    · rw [hm] at he; cases he
    · exact hc
  · intro hc
    rw [entryCrash_crash h hw hc]
    rfl

include h hw in
/-- C84: there is an error exactly if there is something to blame. -/
theorem C84_error (entry : RtEntry) :
    (∃ c m, reasonEntryViolatesConstraintM x entry ci = .err c m) ↔ ∃ c m, EntryError x sys.inetPton6 p entry c m :=
  ⟨fun ⟨c, m, hm⟩ => ⟨c, m, reasonM_err h hw hm⟩, fun ⟨_, _, hm⟩ => entryError_err h hw hm⟩

include h hw in
/-- C84: there are no other outcomes. Each entry is accepted, or violates a constraint and this is reported, or there is
something to blame and the error describes it, or the process crashes. -/
theorem C84_outcomes (entry : RtEntry) :
    (Accepted sys.inetPton6 p entry ∧ reasonEntryViolatesConstraintM x entry ci = .ok []) ∨
    (∃ m, ReportsViolation sys.inetPton6 p entry m ∧ reasonEntryViolatesConstraintM x entry ci = .ok m ∧ m ≠ []) ∨
    (∃ c m, EntryError x sys.inetPton6 p entry c m ∧ reasonEntryViolatesConstraintM x entry ci = .err c m) ∨
    (EntryCrash sys.inetPton6 p entry ∧ reasonEntryViolatesConstraintM x entry ci = .crash) := by
  rcases reasonM_cases (x := x) h hw entry with (⟨m, hm⟩ | ⟨c, m, hm⟩) | ⟨h1, h2⟩
  · have hm' := erased.1 hm
    rw [erase_reason] at hm'
    by_cases hn : m = []
    · subst hn
      exact .inl ⟨(C65_accepted h hw entry).1 hm', hm⟩
    · exact .inr (.inl ⟨m, (C69_report h hw entry m).1 ⟨hm', hn⟩, hm, hn⟩)
  · exact .inr (.inr (.inl ⟨c, m, reasonM_err h hw hm, hm⟩))
  · exact .inr (.inr (.inr ⟨h2, h1⟩))

include h hw in
/-- C84: and they exclude each other. -/
theorem C84_exclusive (entry : RtEntry) :
    (Accepted sys.inetPton6 p entry → ∀ m, ¬ ReportsViolation sys.inetPton6 p entry m) ∧
    (∀ c m, EntryError x sys.inetPton6 p entry c m →
      ¬ Accepted sys.inetPton6 p entry ∧ ∀ m', ¬ ReportsViolation sys.inetPton6 p entry m') ∧
    (EntryCrash sys.inetPton6 p entry → ¬ Accepted sys.inetPton6 p entry ∧
      (∀ m, ¬ ReportsViolation sys.inetPton6 p entry m) ∧ ∀ c m, ¬ EntryError x sys.inetPton6 p entry c m) := by
  refine ⟨fun ha m hm => ?_, fun c m he => ⟨fun ha => ?_, fun m' hm => ?_⟩,
    fun hc => ⟨fun ha => ?_, fun m hm => ?_, fun c m he => ?_⟩⟩
  · obtain ⟨h1, h2⟩ := (C69_report h hw entry m).2 hm
    rw [(C65_accepted h hw entry).2 ha] at h1
    cases h1
    exact h2 rfl
  · obtain ⟨c', m', h1⟩ := entryError_err h hw he
    have := (C65_accepted h hw entry).2 ha
    rw [← erase_reason x, h1] at this
    cases this
  · obtain ⟨c', m'', h1⟩ := entryError_err h hw he
    have := ((C69_report h hw entry m').2 hm).1
    rw [← erase_reason x, h1] at this
    cases this
  · have := (C84_crash h hw entry).2 hc
    rw [(C65_accepted h hw entry).2 ha] at this
    cases this
  · have := (C84_crash h hw entry).2 hc
    rw [((C69_report h hw entry m).2 hm).1] at this
    cases this
  · obtain ⟨c', m', h1⟩ := entryError_err h hw he
    rw [entryCrash_crash h hw hc] at h1
    cases h1

include h hw in
/-- C84: whatever the carriage returns in the constraints are, there is an error exactly if the entry is not accepted, does not
violate a constraint such that this is reported, and does not make the process crash. -/
theorem C84_otherwise (entry : RtEntry) : (∃ c, reasonEntryViolatesConstraint entry ci = .err c) ↔
    ¬ Accepted sys.inetPton6 p entry ∧ (∀ m, ¬ ReportsViolation sys.inetPton6 p entry m) ∧ ¬ EntryCrash sys.inetPton6 p entry := by
  have h1 := C65_accepted h hw entry
  have h2 := C69_report h hw entry
  have h3 := C84_crash h hw entry
  constructor
  · rintro ⟨c, hc⟩
    rw [hc] at h1 h3
    refine ⟨fun ha => ?_, fun m hm => ?_, fun hx => ?_⟩
    · cases h1.2 ha
    · have := ((h2 m).2 hm).1
      rw [hc] at this
      cases this
    · cases h3.2 hx
  · rintro ⟨g1, g2, g3⟩
    have x : EntryTexts := ⟨fun _ _ _ => [], fun _ _ _ => [], fun _ => [], fun _ => [], fun _ => [], fun _ => [], fun _ => [],
      fun _ => [], fun _ => []⟩
    rcases reasonM_cases (x := x) h hw entry with (⟨m, hm⟩ | ⟨c, m, hm⟩) | ⟨_, hc⟩
    · have hm' := erased.1 hm
      rw [erase_reason] at hm'
      by_cases hn : m = []
      · subst hn
        exact (g1 (h1.1 hm')).elim
      · exact (g2 m ((h2 m).1 ⟨hm', hn⟩)).elim
    · refine ⟨c, ?_⟩
      rw [← erase_reason x, hm]
      rfl
    · exact (g3 hc).elim

include h hw in
/-- C84: if each constraint is on one line, no entry makes the process crash. -/
theorem C84_one_line (hn : OneLineProgram p) (entry : RtEntry) : reasonEntryViolatesConstraint entry ci ≠ .crash :=
  fun he => oneLine_no_crash hn entry ((C84_crash h hw entry).1 he)

end

theorem Ex.attached {tc ac : Str} {P : Str → Prop} {st sa : ConstraintSource}
    (h1 : extractConstraint .table (Ex.tableDecl tc).preamble = .ok (some st))
    (h2 : extractConstraint .action (Ex.actionDecl ac).preamble = .ok (some sa)) (ht : P st.str) (ha : P sa.str) :
    (∀ d ∈ (Ex.p4info tc ac).tables, ∀ src, Attached .table d.preamble (some src) → P src.str) ∧
    ∀ d ∈ (Ex.p4info tc ac).actions, ∀ src, Attached .action d.preamble (some src) → P src.str := by
  constructor
  · intro d hd src hs
    have h := attached_iff.2 hs
    simp only [Ex.p4info, List.mem_cons, List.not_mem_nil, or_false] at hd
    rcases hd with rfl | rfl
    · rw [h1] at h; cases h; exact ht
    · cases h
  · intro d hd src hs
    have h := attached_iff.2 hs
    simp only [Ex.p4info, List.mem_cons, List.not_mem_nil, or_false] at hd
    rcases hd with rfl | rfl
    · rw [h2] at h; cases h; exact ha
    · cases h

/-- Checking an entry against `ex == 6`, with a line break after `ex`, crashes if `ex` is 5, but not if it is 6; with
enough blanks before the line break there is a report. -/
example : EntryCrash Ex.sys.inetPton6 (Ex.p4info c!"ex\n== 6" c!"p == 1") (Ex.entry 5) ∧
    ¬ EntryCrash Ex.sys.inetPton6 (Ex.p4info c!"ex\n== 6" c!"p == 1") (Ex.entry 6) ∧
    ¬ EntryCrash Ex.sys.inetPton6 (Ex.p4info c!"ex  \n== 6" c!"p == 1") (Ex.entry 5) ∧
    EntryCrash Ex.sys.inetPton6 (Ex.p4info c!"ex == 6" c!"p\n==1")
      { Ex.entry 6 with action := some (.actionSet [⟨8, []⟩, Ex.action 2 2]) } := by
  refine ⟨(C84_crash (ci := Ex.ci c!"ex\n== 6" c!"p == 1") (Ex.get_of_isOk (by decide +kernel))
      (Ex.nonNeg _ _) _).1 (by decide +kernel),
    fun h => absurd ((C84_crash (ci := Ex.ci c!"ex\n== 6" c!"p == 1") (Ex.get_of_isOk (by decide +kernel))
      (Ex.nonNeg _ _) _).2 h) (by decide +kernel),
    fun h => absurd ((C84_crash (ci := Ex.ci c!"ex  \n== 6" c!"p == 1") (Ex.get_of_isOk (by decide +kernel))
      (Ex.nonNeg _ _) _).2 h) (by decide +kernel),
    (C84_crash (ci := Ex.ci c!"ex == 6" c!"p\n==1") (Ex.get_of_isOk (by decide +kernel))
      (Ex.nonNeg _ _) _).1 (by decide +kernel)⟩

/-- With a lone carriage return the line that is measured is not the one on which the part starts; it may not even exist, and then
the process does not crash. -/
example : EntryCrash Ex.sys.inetPton6 (Ex.p4info c!"true &&\rex\n!=5" c!"p == 1") (Ex.entry 5) ∧
    ¬ EntryCrash Ex.sys.inetPton6 (Ex.p4info c!"true &&\rex\r!=5" c!"p == 1") (Ex.entry 5) := by
  refine ⟨(C84_crash (ci := Ex.ci c!"true &&\rex\n!=5" c!"p == 1") (Ex.get_of_isOk (by decide +kernel))
      (Ex.nonNeg _ _) _).1 (by decide +kernel),
    fun h => absurd ((C84_crash (ci := Ex.ci c!"true &&\rex\r!=5" c!"p == 1") (Ex.get_of_isOk (by decide +kernel))
      (Ex.nonNeg _ _) _).2 h) (by decide +kernel)⟩

/-- A program whose constraints are on one line. -/
example : OneLineProgram (Ex.p4info c!"ex == 6" c!"p == 1") :=
  Ex.attached (P := fun s => '\n' ∉ s ∧ '\r' ∉ s) rfl rfl (by decide +kernel) (by decide +kernel)

end P4C
