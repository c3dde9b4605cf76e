import Verif.Props.Formula

/-
C113: comparisons with the priority.
-/

namespace P4C

open Spec

theorem isInteger_numberIn {e : SExpr} {c : Int} (h : IsInteger e c) {at_ : SExpr → Option Int → Int → Prop} :
    NumberIn at_ e none c := by
  induction h with
  | int c => exact .int c
  | neg _ ih => exact .neg ih

theorem isInteger_number {e : SExpr} {c : Int} (h : IsInteger e c) {vars : SExpr → Prop} : IsNumber vars e := by
  induction h with
  | int c => exact .int c
  | neg _ ih => exact .neg ih

section
variable {sys : Sys} {p : P4Info} {ci : ConstraintInfo} (h : p4ToConstraintInfo sys p = .ok ci) (hw : NonNegProgram p)
  {d : TableDecl} (hd : d ∈ p.tables) {vs : List VarInfo} (hv : Each KeyDecl d.matchFields vs) {entry : RtEntry}
  (hfit : EntryFits vs entry) (hid : entry.tableId = d.preamble.id) (ha : entry.action = none)

include h hw hd hv hfit hid ha

theorem compare_reason {o : Cmp} {x y : SExpr} (hs : TableSays sys.inetPton6 d (.cmp o x y)) (hx : IsNumber EntryVar x)
    (hy : IsNumber EntryVar y) {a b : Option Int} {m n : Int} (hm : NumberIn (EntryNumber d.matchFields entry) x a m)
    (hn : NumberIn (EntryNumber d.matchFields entry) y b n) :
    reasonEntryViolatesConstraint entry ci = .ok [] ↔ o.ofInts (reduced a b m) (reduced b a n) := by
  rw [C86_table h hw hd hv hfit hid ha hs (.compare o hx hy)]
  obtain ⟨ρ, hρ⟩ := means_exists h hd hv hfit
  have sound := fun {e w z} => entryNumber_value h hd hv hfit hρ (e := e) (w := w) (z := z)
  constructor
  · rintro ⟨a', m', b', n', h1, h2, h3⟩
    obtain ⟨rfl, rfl⟩ := numberIn_unique sound hm h1
    obtain ⟨rfl, rfl⟩ := numberIn_unique sound hn h2
    exact h3
  · exact fun h3 => ⟨_, _, _, _, hm, hn, h3⟩

/-- C113: comparisons of the priority with constants are those of integers, no matter how large or whether negative. -/
theorem C113_constant {o : Cmp} {e : SExpr} {c : Int} (hc : IsInteger e c)
    (hs : TableSays sys.inetPton6 d (.cmp o (.attr c!"priority") e)) :
    reasonEntryViolatesConstraint entry ci = .ok [] ↔ o.ofInts entry.priority c :=
  compare_reason h hw hd hv hfit hid ha hs (.var (.attr _)) (isInteger_number hc) (.given .priority) (isInteger_numberIn hc)

/-- C113: comparisons of the priority with a field compare the priority modulo 2^W, except for prefix lengths. -/
theorem C113_field {o : Cmp} {f : MatchField} (hf : f ∈ d.matchFields) {g : Str} {z : Int} (hz : FieldNumber f g entry z)
    (hs : TableSays sys.inetPton6 d (.cmp o (.attr c!"priority") (.field (.key f.name) g))) :
    reasonEntryViolatesConstraint entry ci = .ok [] ↔ o.ofInts (written f g entry.priority) z := by
  by_cases hg : g = c!"prefix_length"
  · subst hg
    rw [compare_reason h hw hd hv hfit hid ha hs (.var (.attr _)) (.var (.field _ _)) (.given .priority) (.given (.prefixLength hf hz))]
    simp only [written, if_true, reduced]
  · rw [compare_reason h hw hd hv hfit hid ha hs (.var (.attr _)) (.var (.field _ _)) (.given .priority) (.given (.field hf hg hz))]
    simp only [written, if_neg hg, reduced]

/-- C113: the same holds if the field is written first. -/
theorem C113_field_first {o : Cmp} {f : MatchField} (hf : f ∈ d.matchFields) {g : Str} {z : Int} (hz : FieldNumber f g entry z)
    (hs : TableSays sys.inetPton6 d (.cmp o (.field (.key f.name) g) (.attr c!"priority"))) :
    reasonEntryViolatesConstraint entry ci = .ok [] ↔ o.ofInts z (written f g entry.priority) := by
  by_cases hg : g = c!"prefix_length"
  · subst hg
    rw [compare_reason h hw hd hv hfit hid ha hs (.var (.field _ _)) (.var (.attr _)) (.given (.prefixLength hf hz)) (.given .priority)]
    simp only [written, if_true, reduced]
  · rw [compare_reason h hw hd hv hfit hid ha hs (.var (.field _ _)) (.var (.attr _)) (.given (.field hf hg hz)) (.given .priority)]
    simp only [written, if_neg hg, reduced]

/-- C113, in part: comparisons of the priority with a field are those of integers, provided that the priority fits the width of
the key, or the field is a prefix length. Missing: other priorities, see `C113_fails`. -/
theorem C113_partial {o : Cmp} {f : MatchField} (hf : f ∈ d.matchFields) {g : Str} {z : Int} (hz : FieldNumber f g entry z)
    (hs : TableSays sys.inetPton6 d (.cmp o (.attr c!"priority") (.field (.key f.name) g)))
    (hp : g = c!"prefix_length" ∨ 0 ≤ entry.priority ∧ entry.priority < 2 ^ f.bitwidth.toNat) :
    reasonEntryViolatesConstraint entry ci = .ok [] ↔ o.ofInts entry.priority z := by
  rw [C113_field h hw hd hv hfit hid ha hf hz hs]
  unfold written
  split
  · exact Iff.rfl
  · rcases hp with hp | ⟨h1, h2⟩
    · contradiction
    · rw [Int.emod_eq_of_lt h1 h2]

end

/-! ### Examples, and the counterexample -/

/-- A table with the constraint `::priority > opt::value`, where `opt` has 4 bits. -/
def Ex.prioText : Str := c!"::priority > opt::value"

/-- An entry which matches `opt` on 3, with a priority. -/
def Ex.prioEntry (n : Int) : RtEntry := { Ex.entry 2 with priority := n }

theorem Ex.prioFits (n : Int) : EntryFits Ex.keys (Ex.prioEntry n) where
  known := (Ex.entryFits 2).known
  once := (Ex.entryFits 2).once
  complete := (Ex.entryFits 2).complete

theorem Ex.prioSays : TableSays Ex.sys.inetPton6 (Ex.tableDecl Ex.prioText)
    (.cmp .gt (.attr c!"priority") (.field (.key c!"opt") c!"value")) := by
  obtain ⟨src, ts, e, h1, h2, h3, h4⟩ := Ex.spelled (text := Ex.prioText) (loc := { src := .tableName c!"tbl" })
    (x := .cmp .gt (.attr c!"priority") (.field (.key c!"opt") c!"value")) (by decide +kernel) (by decide +kernel) (by decide +kernel)
  exact ⟨Ex.keys, src, e, Ex.keysDeclared _, .some h1 h2 h3 h4
    (.cmp .priority (.field (.key (by rfl) ⟨by nofun, by nofun⟩) (.optionalValue 4)) ((lub_iff (t := .fixedUnsigned 4)).1 (by decide +kernel))
      (fun _ => .bit 4))⟩

theorem Ex.prioValue (n : Int) : FieldNumber ⟨5, c!"opt", 4, .matchType .optional⟩ c!"value" (Ex.prioEntry n) 3 :=
  .inl ⟨⟨5, .optional [3]⟩, List.mem_cons_of_mem _ List.mem_cons_self, rfl, .optionalValue [3]⟩

/-- C113 fails as stated: there are a program with a table with the constraint `::priority > opt::value`, and an entry with
priority 19 and 3 for `opt`, for which a violation is reported. -/
theorem C113_fails : ¬ ∀ (sys : Sys) (p : P4Info) (ci : ConstraintInfo), p4ToConstraintInfo sys p = .ok ci → NonNegProgram p →
    ∀ d ∈ p.tables, ∀ vs, Each KeyDecl d.matchFields vs → ∀ entry, EntryFits vs entry → entry.tableId = d.preamble.id →
    entry.action = none → ∀ o, ∀ f ∈ d.matchFields, ∀ g z, FieldNumber f g entry z →
    TableSays sys.inetPton6 d (.cmp o (.attr c!"priority") (.field (.key f.name) g)) →
    (reasonEntryViolatesConstraint entry ci = .ok [] ↔ o.ofInts entry.priority z) := by
  intro hall
  have h := hall Ex.sys (Ex.p4info Ex.prioText c!"true") (Ex.ci Ex.prioText c!"true") (Ex.get_of_isOk (by decide +kernel))
    (Ex.nonNeg _ _) (Ex.tableDecl Ex.prioText) List.mem_cons_self Ex.keys (Ex.keysDeclared _) (Ex.prioEntry 19) (Ex.prioFits 19) rfl rfl .gt
    ⟨5, c!"opt", 4, .matchType .optional⟩ (by decide +kernel) c!"value" 3 (Ex.prioValue 19) Ex.prioSays
  rw [C113_field (sys := Ex.sys) (p := Ex.p4info Ex.prioText c!"true") (ci := Ex.ci Ex.prioText c!"true") (Ex.get_of_isOk (by decide +kernel)) (Ex.nonNeg _ _)
    (d := Ex.tableDecl Ex.prioText) List.mem_cons_self (Ex.keysDeclared _) (Ex.prioFits 19) rfl rfl
    (f := ⟨5, c!"opt", 4, .matchType .optional⟩) (by decide +kernel) (Ex.prioValue 19) Ex.prioSays] at h
  exact absurd (h.2 (by decide : (19 : Int) > 3)) (by decide +kernel : ¬ ((19 : Int) % 2 ^ 4 > 3))

/-- With priority 10, which fits 4 bits, the entry is accepted. -/
example : reasonEntryViolatesConstraint (Ex.prioEntry 10) (Ex.ci Ex.prioText c!"true") = .ok [] :=
  (C113_partial (sys := Ex.sys) (p := Ex.p4info Ex.prioText c!"true") (Ex.get_of_isOk (by decide +kernel)) (Ex.nonNeg _ _)
    (d := Ex.tableDecl Ex.prioText) List.mem_cons_self (Ex.keysDeclared _) (Ex.prioFits 10) rfl rfl
    (f := ⟨5, c!"opt", 4, .matchType .optional⟩) (by decide +kernel) (Ex.prioValue 10) Ex.prioSays
    (.inr ⟨by decide, by decide +kernel⟩)).2 (by decide : (10 : Int) > 3)

/-- A constant that is compared with the priority is not reduced. -/
theorem Ex.prioConst : TableSays Ex.sys.inetPton6 (Ex.tableDecl c!"::priority != -4294967306")
    (.cmp .ne (.attr c!"priority") (.neg (.int 4294967306))) := by
  obtain ⟨src, ts, e, h1, h2, h3, h4⟩ := Ex.spelled (text := c!"::priority != -4294967306") (loc := { src := .tableName c!"tbl" })
    (x := .cmp .ne (.attr c!"priority") (.neg (.int 4294967306))) (by decide +kernel) (by decide +kernel) (by decide +kernel)
  exact ⟨Ex.keys, src, e, Ex.keysDeclared _, .some h1 h2 h3 h4
    (.cmp .priority (.neg (.int _)) ((lub_iff (t := .arbitraryInt)).1 (by decide +kernel)) (by nofun))⟩

example : reasonEntryViolatesConstraint (Ex.prioEntry 10) (Ex.ci c!"::priority != -4294967306" c!"true") = .ok [] :=
  (C113_constant (sys := Ex.sys) (p := Ex.p4info c!"::priority != -4294967306" c!"true") (Ex.get_of_isOk (by decide +kernel)) (Ex.nonNeg _ _)
    (d := Ex.tableDecl c!"::priority != -4294967306") List.mem_cons_self (Ex.keysDeclared _) (Ex.prioFits 10) rfl rfl (.neg (.int _))
    Ex.prioConst).2 (by decide : (10 : Int) ≠ -4294967306)

theorem Ex.prioFirst : TableSays Ex.sys.inetPton6 (Ex.tableDecl c!"opt::value == ::priority")
    (.cmp .eq (.field (.key c!"opt") c!"value") (.attr c!"priority")) := by
  obtain ⟨src, ts, e, h1, h2, h3, h4⟩ := Ex.spelled (text := c!"opt::value == ::priority") (loc := { src := .tableName c!"tbl" })
    (x := .cmp .eq (.field (.key c!"opt") c!"value") (.attr c!"priority")) (by decide +kernel) (by decide +kernel) (by decide +kernel)
  exact ⟨Ex.keys, src, e, Ex.keysDeclared _, .some h1 h2 h3 h4
    (.cmp (.field (.key (by rfl) ⟨by nofun, by nofun⟩) (.optionalValue 4)) .priority ((lub_iff (t := .fixedUnsigned 4)).1 (by decide +kernel))
      (by nofun))⟩

/-- An entry with priority 19 has "the same" value for a key of 4 bits, 3. -/
example : reasonEntryViolatesConstraint (Ex.prioEntry 19) (Ex.ci c!"opt::value == ::priority" c!"true") = .ok [] :=
  (C113_field_first (sys := Ex.sys) (p := Ex.p4info c!"opt::value == ::priority" c!"true") (Ex.get_of_isOk (by decide +kernel)) (Ex.nonNeg _ _)
    (d := Ex.tableDecl c!"opt::value == ::priority") List.mem_cons_self (Ex.keysDeclared _) (Ex.prioFits 19) rfl rfl
    (f := ⟨5, c!"opt", 4, .matchType .optional⟩) (by decide +kernel) (Ex.prioValue 19) Ex.prioFirst).2 (by decide +kernel : (3 : Int) = 19 % 2 ^ 4)

end P4C
