import Verif.Proofs.Evolve
import Verif.Props.Violation

/-!
# C75: what happens to entries when a program grows
-/

namespace P4C

open Spec

/-- C75: let a program and a larger one, `ProgramGrows`, be accepted: declarations are reordered, and keys that entries need
not mention, parameters, tables and actions are added. Then for entries of the smaller program, `KnownEntry`, the larger one
gives the same verdict, with the same message. `hw`: bitwidths are not negative. -/
theorem C75_same {sys : Sys} {p p' : P4Info} {ci ci' : ConstraintInfo} (h : p4ToConstraintInfo sys p = .ok ci)
    (h' : p4ToConstraintInfo sys p' = .ok ci') (hg : ProgramGrows p p') (hw : NonNegProgram p') {entry : RtEntry}
    (hk : KnownEntry p entry) (m : Str) :
    reasonEntryViolatesConstraint entry ci = .ok m ↔ reasonEntryViolatesConstraint entry ci' = .ok m := by
  have hn : NonNegProgram p := by
    refine ⟨fun d hd f hf => ?_, fun d hd f hf => ?_⟩
    · obtain ⟨d', h1, h2⟩ := hg.tables d hd
      exact hw.1 d' h1 f (h2.kept f hf)
    · obtain ⟨d', h1, h2⟩ := hg.actions d hd
      exact hw.2 d' h1 f (h2.kept f hf)
  obtain ⟨h1, h2⟩ := program_grown h h' hg hw hk
  by_cases hm : m = []
  · subst hm
    rw [C65_accepted h hn, C65_accepted h' hw, h1]
  · have e1 := C69_report h hn entry m
    have e2 := C69_report h' hw entry m
    simp only [hm, ne_eq, not_false_eq_true, and_true] at e1 e2
    rw [e1, e2, h2]

/-- C75: a program is still accepted after its tables and actions have grown, some of them have been removed, and well formed
ones have been added. -/
theorem C75_accepted {sys : Sys} {p p' : P4Info} (h : ∃ ci, p4ToConstraintInfo sys p = .ok ci)
    (ht : ∀ d' ∈ p'.tables, (∃ d ∈ p.tables, TableGrows d d') ∨ GoodTable sys.inetPton6 d')
    (ha : ∀ d' ∈ p'.actions, (∃ d ∈ p.actions, ActionGrows d d') ∨ GoodAction sys.inetPton6 d')
    (it : (p'.tables.map fun t => t.preamble.id).Nodup) (ia : (p'.actions.map fun t => t.preamble.id).Nodup) :
    ∃ ci, p4ToConstraintInfo sys p' = .ok ci :=
  p4ToConstraintInfo_grown h ht ha it ia

/-- C75: in particular, it does not matter in which order tables, keys, actions and parameters are declared. -/
theorem C75_order {sys : Sys} {p p' : P4Info} {ci ci' : ConstraintInfo}
    (h : p4ToConstraintInfo sys p = .ok ci) (h' : p4ToConstraintInfo sys p' = .ok ci')
    (ht : ∀ d ∈ p.tables, ∃ d' ∈ p'.tables, d'.preamble = d.preamble ∧ d.matchFields.Perm d'.matchFields)
    (ha : ∀ d ∈ p.actions, ∃ d' ∈ p'.actions, d'.preamble = d.preamble ∧ d.params.Perm d'.params) (hw : NonNegProgram p')
    {entry : RtEntry} (hk : KnownEntry p entry) (m : Str) :
    reasonEntryViolatesConstraint entry ci = .ok m ↔ reasonEntryViolatesConstraint entry ci' = .ok m := by
  obtain ⟨_, _, gt, ga⟩ := C31_succeeds.1 ⟨ci', h'⟩
  refine C75_same h h' ⟨fun d h1 => ?_, fun d h1 => ?_⟩ hw hk m
  · obtain ⟨d', h2, h3, h4⟩ := ht d h1
    obtain ⟨vs, r, g1, g2, _⟩ := gt d' h2
    obtain ⟨g3, g4⟩ := (keys_distinct g1).1 g2
    exact ⟨d', h2, h3, fun f => h4.mem_iff.1, fun f g => .inl (h4.mem_iff.2 g), g3, g4⟩
  · obtain ⟨d', h2, h3, h4⟩ := ha d h1
    obtain ⟨vs, r, g1, g2, _⟩ := ga d' h2
    obtain ⟨g3, g4⟩ := (params_distinct g1).1 g2
    exact ⟨d', h2, h3, fun f => h4.mem_iff.1, g3, g4⟩

/-- The program of the examples with one more key in each table, one more parameter, and another order. -/
def Ex.larger (tc ac : Str) : P4Info :=
  ⟨[{ Ex.freeTable with matchFields := ⟨7, c!"m", 8, .matchType .lpm⟩ :: Ex.freeTable.matchFields },
    { Ex.tableDecl tc with matchFields := ⟨9, c!"extra", 12, .matchType .ternary⟩ :: (Ex.tableDecl tc).matchFields.reverse }],
   [Ex.freeAction, { Ex.actionDecl ac with params := ⟨3, c!"r", 8, []⟩ :: (Ex.actionDecl ac).params.reverse }]⟩

theorem Ex.larger_grows (tc ac : Str) : ProgramGrows (Ex.p4info tc ac) (Ex.larger tc ac) := by
  refine ⟨fun d hd => ?_, fun d hd => ?_⟩
  · simp only [Ex.p4info, List.mem_cons, List.not_mem_nil, or_false] at hd
    rcases hd with rfl | rfl
    · exact ⟨_, .tail _ (.head _), rfl, by simp [Ex.tableDecl], by simp [Ex.tableDecl, MayOmit], by simp [Ex.tableDecl], by simp [Ex.tableDecl]⟩
    · exact ⟨_, .head _, rfl, by simp [Ex.freeTable], by simp [Ex.freeTable, MayOmit], by simp [Ex.freeTable], by simp [Ex.freeTable]⟩
  · simp only [Ex.p4info, List.mem_cons, List.not_mem_nil, or_false] at hd
    rcases hd with rfl | rfl
    · exact ⟨_, .tail _ (.head _), rfl, by simp [Ex.actionDecl], by simp [Ex.actionDecl], by simp [Ex.actionDecl]⟩
    · exact ⟨_, .head _, rfl, by simp, by simp [Ex.freeAction], by simp [Ex.freeAction]⟩

theorem Ex.larger_nonNeg (tc ac : Str) : NonNegProgram (Ex.larger tc ac) := by
  simp [NonNegProgram, Ex.larger, Ex.tableDecl, Ex.actionDecl, Ex.freeTable, Ex.freeAction]

theorem Ex.entry_known (tc ac : Str) (n q r : UInt8) :
    KnownEntry (Ex.p4info tc ac) { Ex.entry n with action := some (.action (Ex.action q r)) } := by
  refine ⟨⟨_, .head _, rfl, by simp [Ex.entry, Ex.tableDecl]⟩, fun as h a ha => ?_⟩
  cases h
  simp only [List.mem_singleton] at ha
  subst ha
  exact ⟨_, .head _, rfl, by simp [Ex.action, Ex.actionDecl]⟩

/-- Both programs are accepted, and entries of the first one get the same verdict from the second. -/
example (n q r : UInt8) (m : Str) :
    reasonEntryViolatesConstraint { Ex.entry n with action := some (.action (Ex.action q r)) }
        (Ex.ci Ex.tc1 Ex.ac1) = .ok m ↔
      reasonEntryViolatesConstraint { Ex.entry n with action := some (.action (Ex.action q r)) }
        (Ex.get ⟨[], []⟩ (p4ToConstraintInfo Ex.sys (Ex.larger Ex.tc1 Ex.ac1))) = .ok m :=
  C75_same Ex.accepted (Ex.get_of_isOk (by decide +kernel)) (Ex.larger_grows _ _) (Ex.larger_nonNeg _ _)
    (Ex.entry_known _ _ n q r) m

/-- The added key must be one that entries may omit: after an exact key has been added, the entry is not judged any more. -/
example :
    reasonEntryViolatesConstraint (Ex.entry 5) (Ex.ci c!"ex == 5" c!"p == 1") = .ok [] ∧
    Ex.isOk (reasonEntryViolatesConstraint (Ex.entry 5) (Ex.get ⟨[], []⟩ (p4ToConstraintInfo Ex.sys
      ⟨[{ Ex.tableDecl c!"ex == 5" with
          matchFields := (Ex.tableDecl c!"ex == 5").matchFields ++ [⟨9, c!"extra", 12, .matchType .exact⟩] }], []⟩))) = false := by
  decide +kernel

end P4C
