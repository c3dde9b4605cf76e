import Verif.Proofs.Negative
import Verif.Props.Widthless

/-
C92: keys of a negative width.
-/

namespace P4C

open Spec

section
variable {sys : Sys} {p : P4Info} {ci : ConstraintInfo} (h : p4ToConstraintInfo sys p = .ok ci)
  {d : TableDecl} (hd : d ∈ p.tables) {entry : RtEntry} (hid : entry.tableId = d.preamble.id)
  (hf : EntryShaped d.matchFields entry)

include h hd hid hf in
/-- C92: whatever the constraint of the table says, checking an entry that omits a range key of negative width, or matches on
an optional one, crashes. -/
theorem C92_crashes {s : SExpr} (hs : TableSays sys.inetPton6 d s) (hn : NeedsMask d.matchFields entry) :
    reasonEntryViolatesConstraint entry ci = .crash := negative_reason h hd hid hf hs hn

include h hd hid hf in
/-- C92: other entries satisfy at least the constraint `true`. -/
theorem C92_true (hs : TableSays sys.inetPton6 d (.bool true)) (ha : entry.action = none) :
    (reasonEntryViolatesConstraint entry ci = .crash ↔ NeedsMask d.matchFields entry) ∧
    (reasonEntryViolatesConstraint entry ci = .ok [] ↔ ¬ NeedsMask d.matchFields entry) := by
  by_cases hn : NeedsMask d.matchFields entry
  · rw [negative_reason h hd hid hf hs hn]
    simp [hn]
  · rw [negative_true h hd hid hf hs ha hn]
    simp [hn]

end

/-! ### Examples -/

/-- A table with a range key and an optional key of negative width, and an exact key of width -1. -/
def Ex.negTable (text : Str) : TableDecl :=
  ⟨⟨1, c!"tbl", [c!"@entry_restriction(\"" ++ text ++ c!"\")"]⟩,
    [⟨1, c!"r", -8, .matchType .range⟩, ⟨2, c!"o", -4, .matchType .optional⟩, ⟨3, c!"e", -1, .matchType .exact⟩]⟩

def Ex.negInfo (t : Str) : P4Info := ⟨[Ex.negTable t], []⟩

def Ex.negCi (t : Str) : ConstraintInfo := Ex.get ⟨[], []⟩ (p4ToConstraintInfo Ex.sys (Ex.negInfo t))

theorem Ex.negSays : TableSays Ex.sys.inetPton6 (Ex.negTable c!"true") (.bool true) :=
  ⟨[⟨1, c!"r", .range (-8)⟩, ⟨2, c!"o", .optionalMatch (-4)⟩, ⟨3, c!"e", .exact (-1)⟩], _, _,
    .cons (.range ..) (.cons (.optional ..) (.cons (.exact ..) .nil)), .some (attached_iff.1 (by rfl))
    (tokenize_iff (src := ⟨c!"true", { src := .tableName c!"tbl" }⟩).1 rfl)
    (parseConstraint_iff.1 (Ex.get_of_isOk (d := .notSet {}) (by decide +kernel))) (by decide +kernel) (.bool true)⟩

/-- An entry for it that omits both. -/
def Ex.negEntry : RtEntry := { tableId := 1, matches_ := [⟨3, .exact [5]⟩] }

theorem Ex.negShaped : EntryShaped (Ex.negTable c!"true").matchFields Ex.negEntry := by
  refine ⟨?_, by decide, ?_⟩
  · intro m hm
    cases List.mem_singleton.1 hm
    exact ⟨⟨3, c!"e", -1, .matchType .exact⟩, by decide +kernel, rfl, .exact _⟩
  · intro f hf
    rcases List.mem_cons.1 hf with rfl | hf
    · exact .inr (.inr (.inr (.inl rfl)))
    rcases List.mem_cons.1 hf with rfl | hf
    · exact .inr (.inr (.inr (.inr rfl)))
    cases List.mem_singleton.1 hf
    exact .inl ⟨_, List.mem_cons_self, rfl⟩

example : reasonEntryViolatesConstraint Ex.negEntry (Ex.negCi c!"true") = .crash :=
  C92_crashes (sys := Ex.sys) (p := Ex.negInfo c!"true") (Ex.get_of_isOk (by decide +kernel)) List.mem_cons_self rfl Ex.negShaped Ex.negSays
    ⟨⟨1, c!"r", -8, .matchType .range⟩, List.mem_cons_self, by decide, .inl ⟨rfl, by decide⟩⟩

/-- An entry that only omits the optional one satisfies the constraint. -/
example : reasonEntryViolatesConstraint { tableId := 1, matches_ := [⟨1, .range [1] [2]⟩, ⟨3, .exact [5]⟩] } (Ex.negCi c!"true") = .ok [] := by
  refine (C92_true (sys := Ex.sys) (p := Ex.negInfo c!"true") (d := Ex.negTable c!"true") (Ex.get_of_isOk (by decide +kernel)) List.mem_cons_self rfl ⟨?_, by decide, ?_⟩
    Ex.negSays rfl).2.2 ?_
  · intro m hm
    rcases List.mem_cons.1 hm with rfl | hm
    · exact ⟨⟨1, c!"r", -8, .matchType .range⟩, by decide +kernel, rfl, .range _ _⟩
    cases List.mem_singleton.1 hm
    exact ⟨⟨3, c!"e", -1, .matchType .exact⟩, by decide +kernel, rfl, .exact _⟩
  · intro f hf
    rcases List.mem_cons.1 hf with rfl | hf
    · exact .inl ⟨_, List.mem_cons_self, rfl⟩
    rcases List.mem_cons.1 hf with rfl | hf
    · exact .inr (.inr (.inr (.inr rfl)))
    cases List.mem_singleton.1 hf
    exact .inl ⟨_, List.mem_cons_of_mem _ List.mem_cons_self, rfl⟩
  · rintro ⟨f, hf, _, ⟨h1, h2⟩ | ⟨h1, m, h2, h3⟩⟩
    · rcases List.mem_cons.1 hf with rfl | hf
      · exact h2 _ List.mem_cons_self rfl
      rcases List.mem_cons.1 hf with rfl | hf
      · cases h1
      cases List.mem_singleton.1 hf
      cases h1
    · rcases List.mem_cons.1 hf with rfl | hf
      · cases h1
      rcases List.mem_cons.1 hf with rfl | hf
      · rcases List.mem_cons.1 h2 with rfl | h2
        · cases h3
        cases List.mem_singleton.1 h2
        cases h3
      cases List.mem_singleton.1 hf
      cases h1

/-- C92: programs with such keys are accepted, and comparing one with a number, or a field of one, may crash as well. -/
theorem C92_compared :
    (∃ ci, p4ToConstraintInfo Ex.sys (Ex.negInfo c!"e == 5") = .ok ci ∧
      reasonEntryViolatesConstraint { tableId := 1, matches_ := [⟨1, .range [1] [2]⟩, ⟨3, .exact [5]⟩] } ci = .crash) ∧
    ∃ ci, p4ToConstraintInfo Ex.sys (Ex.negInfo c!"r::low == 1") = .ok ci ∧
      reasonEntryViolatesConstraint { tableId := 1, matches_ := [⟨1, .range [1] [2]⟩, ⟨3, .exact [5]⟩] } ci = .crash :=
  ⟨⟨Ex.negCi c!"e == 5", Ex.get_of_isOk (by decide +kernel), by decide +kernel⟩,
    Ex.negCi c!"r::low == 1", Ex.get_of_isOk (by decide +kernel), by decide +kernel⟩

end P4C
