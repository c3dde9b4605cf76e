import Verif.Spec.Priority
import Verif.Props.SymbolicEx

/-
Priorities of concretized entries: property C64.
-/

namespace P4C

open Spec

/-- C64, for tables that do not owe their priorities to range keys alone. (A solver exists for a table with range keys
only if these are skipped.) -/
theorem C64_priority_partial {z : Z3Oracle} {sys : Sys} {ti : TableInfo} {skip : Str → Res Bool}
    {s s' : Solver} {cs : List Expr} {entry : RtEntry} (h : Reachable z sys ti skip s cs) (hz : z.Sound)
    (hwf : TableWF ti) (hr : (∀ n ki w, (n, ki) ∈ ti.keysByName → ki.ty ≠ .range w) ∨ HasPriority ti)
    (hc : s.concretize z = (.ok entry, s')) : PriorityValid ti entry.priority := by
  rcases (C36_canonical h hz hwf hc).priority with ⟨⟨n, ki, hk, w, hw⟩, h1, h2⟩ | ⟨hn, h0⟩
  · refine .inl ⟨⟨n, ki, hk, ?_⟩, h1, h2⟩
    rcases hw with hw | hw <;> rw [hw]
    · exact .ternary w
    · exact .optional w
  · refine .inr ⟨fun n ki hk hp => ?_, h0⟩
    rcases hr with hr | hr
    · generalize ht : ki.ty = t at hp
      cases hp with
      | ternary w => exact hn ⟨n, ki, hk, w, .inl ht⟩
      | range w => exact hr n ki w hk ht
      | optional w => exact hn ⟨n, ki, hk, w, .inr ht⟩
    · exact hn hr

/-- C64, exactly: the priority of an entry is one that P4Runtime allows if and only if the table has no range key, or else
also has a ternary or optional key. -/
theorem C64_exact {z : Z3Oracle} {sys : Sys} {ti : TableInfo} {skip : Str → Res Bool}
    {s s' : Solver} {cs : List Expr} {entry : RtEntry} (h : Reachable z sys ti skip s cs) (hz : z.Sound)
    (hwf : TableWF ti) (hc : s.concretize z = (.ok entry, s')) :
    PriorityValid ti entry.priority ↔ (∀ n ki w, (n, ki) ∈ ti.keysByName → ki.ty ≠ .range w) ∨
      ∃ n ki w, (n, ki) ∈ ti.keysByName ∧ (ki.ty = .ternary w ∨ ki.ty = .optionalMatch w) := by
  constructor
  · intro hp
    rcases (C36_canonical h hz hwf hc).priority with ⟨⟨n, ki, hk, w, hw⟩, -⟩ | ⟨-, h0⟩
    · exact .inr ⟨n, ki, w, hk, hw⟩
    · rcases hp with ⟨-, h1, -⟩ | ⟨h1, -⟩
      · omega
      · exact .inl fun n ki w hk ht => h1 n ki hk (ht ▸ .range w)
  · rintro (hr | ⟨n, ki, w, hk, hw⟩)
    · exact C64_priority_partial h hz hwf (.inl hr) hc
    · exact C64_priority_partial h hz hwf (.inr ⟨n, ki, hk, w, hw⟩) hc

/-- C64: range keys must be skipped, so the restriction above is met if no key is. -/
theorem C64_ranges_skipped {z : Z3Oracle} {sys : Sys} {ti : TableInfo} {skip : Str → Res Bool}
    {s : Solver} {cs : List Expr} (h : Reachable z sys ti skip s cs) (hwf : TableWF ti) {n : Str} {ki : VarInfo} {w : Int}
    (hmem : (n, ki) ∈ ti.keysByName) (hw : ki.ty = .range w) : skip n = .ok true := by
  rcases C38_skip_errors h hwf hmem with h | ⟨_, h⟩
  · exact h
  · rw [hw] at h
    cases h

/-- A table with an exact key and a range key. -/
def Ex.d6 : TableDecl :=
  { preamble := ⟨1, c!"tbl", []⟩
    matchFields := [⟨1, c!"ex", 32, .matchType .exact⟩, ⟨2, c!"ran", 8, .matchType .range⟩] }

def Ex.skipRan : Str → Res Bool := fun n => .ok (n == c!"ran")

def Ex.solver6 : Solver :=
  Ex.get ⟨0, [], Ex.symTi Ex.d6, ⟨[], []⟩, Ex.skipRan⟩ (Solver.create (constOracle Ex.m1) (Ex.symTi Ex.d6) Ex.skipRan)

/-- The entry produced, which has no priority. -/
def Ex.e6 : RtEntry := { tableId := 1, matches_ := [⟨1, .exact [5]⟩] }

/-- C64 fails for a table with a range key but no ternary and no optional key: its entries get priority 0, which
P4Runtime servers reject. -/
theorem C64_fails : ∃ z sys ti skip s s' entry, z.Sound ∧ TableWF ti ∧ Reachable z sys ti skip s [] ∧
    s.concretize z = (.ok entry, s') ∧ ¬ PriorityValid ti entry.priority := by
  refine ⟨constOracle Ex.m1, Ex.sys, Ex.symTi Ex.d6, Ex.skipRan, Ex.solver6, _, Ex.e6, constOracle_sound _,
    parseTableInfo_wf (Ex.get_of_isOk (by decide +kernel)), ?_, Prod.ext (by decide +kernel) rfl, ?_⟩
  · have h : Ex.isOk (Solver.create (constOracle Ex.m1) (Ex.symTi Ex.d6) Ex.skipRan) = true := by decide +kernel
    have := Reachable.create (sys := Ex.sys) (Ex.get_of_isOk (d := ⟨0, [], Ex.symTi Ex.d6, ⟨[], []⟩, Ex.skipRan⟩) h)
    have hn : (Ex.symTi Ex.d6).constraint = none := by decide +kernel
    rw [hn] at this
    exact this
  · rintro (⟨_, h, _⟩ | ⟨h, _⟩)
    · exact absurd h (by decide)
    · exact h c!"ran" ⟨2, c!"ran", .range 8⟩ (by decide +kernel) (.range 8)

/-- C64 applies to the example, whose entry has priority 7. -/
example : PriorityValid (Ex.symTi Ex.d1) Ex.e1.priority :=
  C64_priority_partial Ex.reachable1 (constOracle_sound _) (Ex.sym_of_ok Ex.d1_ok).1
    (.inr ⟨c!"tern", ⟨2, c!"tern", .ternary 8⟩, by decide +kernel, 8, .inl rfl⟩) (Prod.ext Ex.concretize1 rfl)

end P4C
