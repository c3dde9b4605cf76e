import Verif.Proofs.EvalDepth
import Verif.Props.Negative

/-
C93: the depth of the recursion while an entry is checked.
-/

namespace P4C

open Spec

/-- C93: the recursion of `Eval`, `EvalToBool`, `EvalToInt`, `MinimalSubexpressionLeadingToEvalResult`, `Size` and
`AddVariables` is at most twice as deep as the highest constraint that applies to the entry, whatever the result. -/
theorem C93_depth (entry : RtEntry) (ci : ConstraintInfo) : (reasonEntryT entry ci).depth ≤ 2 * heightFor ci entry :=
  depth_reasonEntryT entry ci

/-- C93: hence it is bounded by the length of the longest text, and not by the number of constraints. -/
theorem C93_text {sys : Sys} {p : P4Info} {ci : ConstraintInfo} (h : p4ToConstraintInfo sys p = .ok ci) (entry : RtEntry) :
    (reasonEntryT entry ci).depth ≤ 2 * longestFor ci entry + 4 := by
  have := depth_reasonEntryT entry ci
  have := heightFor_text h entry
  omega

/-- C93: this is met, and there is no bound for all constraints: for a table whose constraint consists of `n` negations, the
recursion is of depth `2 * n + 2`, for every entry without action whose matches are of the kinds of their keys. -/
theorem C93_deep {sys : Sys} {p : P4Info} {ci : ConstraintInfo} (h : p4ToConstraintInfo sys p = .ok ci)
    {d : TableDecl} (hd : d ∈ p.tables) {entry : RtEntry} (hid : entry.tableId = d.preamble.id)
    (hf : EntryShaped d.matchFields entry) (hm : ¬ NeedsMask d.matchFields entry) (ha : entry.action = none)
    {n : Nat} (hs : TableSays sys.inetPton6 d (negations n)) : (reasonEntryT entry ci).depth = 2 * n + 2 := by
  obtain ⟨ti, hl, hp⟩ := table_declared h hd
  rw [← hid] at hl
  obtain ⟨vs, hv, hdist, hmaps, _⟩ := parseTableInfo_parts hp
  obtain ⟨ctx, hc⟩ : ∃ ctx, parseTableEntry entry ti = .ok ctx := by
    rcases parseTableEntry_shaped hv hdist hmaps hf with h | h
    · exact (hm h.1).elim
    · exact h.2
  obtain ⟨c, e, hcc, hty, habs, hi⟩ := says_stored hp hs
  obtain ⟨h1, h2⟩ := negations_infer n habs hi
  have h3 := depth_reasonEntryT_ge hl hcc hty hc
  have h4 := h2 ctx []
  have h5 := depth_reasonEntryT entry ci
  have h6 : heightFor ci entry = n + 1 := by
    unfold heightFor
    rw [hl, ha]
    simp [hcc, heightOf, h1, actionsOf, largest]
  omega

/-! ### Examples -/

/-- A violation, including the search for its explanation: a recursion of depth 10, for a constraint of height 7. -/
example : ((reasonEntryT (Ex.entry 4) (Ex.ci Ex.tc1 Ex.ac1)).depth, heightFor (Ex.ci Ex.tc1 Ex.ac1) (Ex.entry 4)) = (10, 7) := by
  decide +kernel

def Ex.thriceTable : TableDecl := ⟨⟨1, c!"tbl", [c!"@entry_restriction(\"!!!true\")"]⟩, []⟩

theorem Ex.thriceSays : TableSays Ex.sys.inetPton6 Ex.thriceTable (negations 3) :=
  ⟨[], _, _, .nil, .some (attached_iff.1 (by rfl))
    (tokenize_iff (src := ⟨c!"!!!true", { src := .tableName c!"tbl" }⟩).1 rfl)
    (parseConstraint_iff.1 (Ex.get_of_isOk (d := .notSet {}) (by decide +kernel))) (by decide +kernel)
    (.not (.not (.not (.bool true))))⟩

/-- Three negations: a violation. -/
example : (reasonEntryT { tableId := 1, matches_ := [] } (Ex.get ⟨[], []⟩ (p4ToConstraintInfo Ex.sys ⟨[Ex.thriceTable], []⟩))).depth = 8 :=
  C93_deep (entry := { tableId := 1, matches_ := [] }) (sys := Ex.sys) (p := ⟨[Ex.thriceTable], []⟩) (Ex.get_of_isOk (by decide +kernel)) List.mem_cons_self rfl
    ⟨fun _ h => absurd h List.not_mem_nil, List.nodup_nil, fun _ h => absurd h List.not_mem_nil⟩
    (fun ⟨_, h, _⟩ => absurd h List.not_mem_nil) rfl Ex.thriceSays

end P4C
