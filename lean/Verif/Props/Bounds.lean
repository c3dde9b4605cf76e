import Verif.Proofs.Lines
import Verif.Props.Examples

/-!
# C78: the range of source locations
-/

namespace P4C

open Spec

/-- C78: whatever the text, the lines and columns of tokens do not get larger than by one for each character. -/
theorem C78_tokens (src : ConstraintSource) (hc : 0 ≤ src.loc.col) {t : Token} (ht : t ∈ tokenize src) :
    WithinText src.loc src.str.length t.start ∧ WithinText src.loc src.str.length t.stop :=
  (lexed_inPlace (tokenize_lexed src)).within hc t ht

/-- C78: the same for the nodes of syntax trees. -/
theorem C78_tree {sys : Sys} {k : ConstraintKind} {src : ConstraintSource} {e x : Expr}
    (h : parseConstraint sys k src = .ok e) (hc : 0 ≤ src.loc.col) (hx : NodeOf x e) :
    WithinText src.loc src.str.length x.start ∧ WithinText src.loc src.str.length x.stop :=
  node_within (parseConstraint_iff.1 h) hc hx

/-- The constraint `e` with this source: its locations, also when counted from one, and the sizes that the interpreter
computes, are `int32_t`. -/
def Spec.ConstraintFits (src : ConstraintSource) (e : Expr) : Prop :=
  LocFits src.loc ∧ ∀ x, NodeOf x e → LocFits x.start ∧ LocFits x.stop ∧ ∀ n, size x = .ok n → Fits32 n

/-- C78 for the constraints of accepted programs, if the line of the annotation and the length of the text are not too large:
the numbers that C++ computes with as `int` are in range, so that the unbounded integers of the model do not differ from
them. Missing from the full statement: constraints with annotations `@line` with a number just below `2 ^ 31`. -/
theorem C78_fits_partial {sys : Sys} {p : P4Info} {ci : ConstraintInfo} (h : p4ToConstraintInfo sys p = .ok ci) :
    (∀ id ti e, lookup id ci.tables = some ti → ti.constraint = some e → ti.source.loc.line + ti.source.str.length + 1 < 2 ^ 31 →
      3 * ti.source.str.length < 2 ^ 31 → ConstraintFits ti.source e) ∧
    (∀ id ai e, lookup id ci.actions = some ai → ai.constraint = some e → ai.source.loc.line + ai.source.str.length + 1 < 2 ^ 31 →
      3 * ai.source.str.length < 2 ^ 31 → ConstraintFits ai.source e) := by
  have main : ∀ {k : ConstraintKind} {p : Preamble} {sc : Scope} {src : ConstraintSource} {e : Expr},
      parseAndCheck sys k p sc = .ok (some e, src) → src.loc.line + src.str.length + 1 < 2 ^ 31 →
      3 * src.str.length < 2 ^ 31 → ConstraintFits src e := by
    intro k p sc src e h hl hs
    obtain ⟨h1, h2, h3, h4⟩ := parseAndCheck_within h
    have hn := nodesOf_text h
    simp only [nodesOf] at hn
    refine ⟨by simp only [LocFits, Fits32]; omega, fun x hx => ?_⟩
    obtain ⟨g1, g2⟩ := h4 x hx
    simp only [WithinText] at g1 g2
    refine ⟨by simp only [LocFits, Fits32]; omega, by simp only [LocFits, Fits32]; omega, fun n hx' => ?_⟩
    have := size_nodes hx'
    have := node_nodes hx
    simp only [Fits32]
    omega
  constructor
  · intro id ti e hl hc
    obtain ⟨d, -, -, hd⟩ := (table_of_info h).1 hl
    obtain ⟨_, _, _, _, hp⟩ := parseTableInfo_parts hd
    rw [hc] at hp
    exact main hp
  · intro id ai e hl hc
    obtain ⟨d, -, -, hd⟩ := (action_of_info h).1 hl
    obtain ⟨_, _, _, _, hp⟩ := parseActionInfo_parts hd
    rw [hc] at hp
    exact main hp

/-- C78, exactly when the locations of the tokens of a text are in range, if it is not too long. -/
theorem C78_exact {src : ConstraintSource} (h : ∀ t ∈ tokenize src, t.kind ≠ .unexpectedChar) (hl : 0 ≤ src.loc.line)
    (hc : 0 ≤ src.loc.col) (hn : src.loc.col + src.str.length + 1 < 2 ^ 31) :
    (∀ t ∈ tokenize src, LocFits t.start ∧ LocFits t.stop) ↔
      (advance src.loc src.str).line - literalBreaks (tokenize src) + 1 < 2 ^ 31 := by
  obtain ⟨ts, last, h1, h2⟩ := end_line h
  rw [← h2]
  constructor
  · intro hall
    have := (hall last (by rw [h1]; simp)).1
    simp only [LocFits, Fits32] at this
    omega
  · intro hlt t ht
    obtain ⟨g1, g2⟩ := last_line src h1 ht
    obtain ⟨g3, g4⟩ := C78_tokens src hc ht
    simp only [WithinText] at g3 g4
    refine ⟨?_, ?_⟩ <;> simp only [LocFits, Fits32] <;> omega

/-- C78 for the constraints of accepted programs, in terms of the number of their lines. -/
theorem C78_fits_lines_partial {sys : Sys} {p : P4Info} {ci : ConstraintInfo} (h : p4ToConstraintInfo sys p = .ok ci) :
    (∀ id ti e, lookup id ci.tables = some ti → ti.constraint = some e →
      (advance ti.source.loc ti.source.str).line - literalBreaks (tokenize ti.source) + 1 < 2 ^ 31 →
      3 * ti.source.str.length < 2 ^ 31 → ConstraintFits ti.source e) ∧
    (∀ id ai e, lookup id ci.actions = some ai → ai.constraint = some e →
      (advance ai.source.loc ai.source.str).line - literalBreaks (tokenize ai.source) + 1 < 2 ^ 31 →
      3 * ai.source.str.length < 2 ^ 31 → ConstraintFits ai.source e) := by
  have main : ∀ {k : ConstraintKind} {p : Preamble} {sc : Scope} {src : ConstraintSource} {e : Expr},
      parseAndCheck sys k p sc = .ok (some e, src) →
      (advance src.loc src.str).line - literalBreaks (tokenize src) + 1 < 2 ^ 31 →
      3 * src.str.length < 2 ^ 31 → ConstraintFits src e := by
    intro k p sc src e h hl hs
    obtain ⟨h1, h2, h3, -⟩ := parseAndCheck_within h
    have hn := nodesOf_text h
    simp only [nodesOf] at hn
    rcases parseAndCheck_iff.1 h with ⟨-, h, -⟩ | ⟨e', c, s, k1, k2, -, k3, k4⟩
    · cases h
    · cases k4
      have hlex := constraint_lexable k2
      have hall := (C78_exact hlex h2 (by omega) (by omega)).2 hl
      obtain ⟨ts, last, g1, g2⟩ := end_line hlex
      have hge := (C78_tokens src (by omega) (t := last) (by rw [g1]; simp)).1.1
      refine ⟨by simp only [LocFits, Fits32]; omega, fun x hx => ?_⟩
      obtain ⟨⟨t, g3, g4⟩, u, g5, g6⟩ := infer_tokens k2 k3 hx
      rw [g4, g6]
      refine ⟨(hall t g3).1, (hall u g5).2, fun n hx' => ?_⟩
      have := size_nodes hx'
      have := node_nodes hx
      simp only [Fits32]
      omega
  constructor
  · intro id ti e hl hc
    obtain ⟨d, -, -, hd⟩ := (table_of_info h).1 hl
    obtain ⟨_, _, _, _, hp⟩ := parseTableInfo_parts hd
    rw [hc] at hp
    exact main hp
  · intro id ai e hl hc
    obtain ⟨d, -, -, hd⟩ := (action_of_info h).1 hl
    obtain ⟨_, _, _, _, hp⟩ := parseActionInfo_parts hd
    rw [hc] at hp
    exact main hp

/-- A line break more than fits. -/
example : ¬ ∀ t ∈ tokenize ⟨c!"a ==\n5", { line := 2147483646 }⟩, LocFits t.start ∧ LocFits t.stop :=
  fun h => absurd ((C78_exact (by decide +kernel) (by decide) (by decide) (by decide)).1 h) (by decide +kernel)

example : ∀ t ∈ tokenize ⟨c!"a ==\n5", { line := 2147483645 }⟩, LocFits t.start ∧ LocFits t.stop :=
  (C78_exact (by decide +kernel) (by decide) (by decide) (by decide)).2 (by decide +kernel)

/-- A program with a constraint that starts at the given line. -/
def Ex.atLine (l : Str) : P4Info :=
  ⟨[{ preamble := ⟨1, c!"t", [c!"@line(" ++ l ++ c!")", c!"@entry_restriction(\"a == \n  5\")"]⟩
      matchFields := [⟨1, c!"a", 8, .matchType .exact⟩] }], []⟩

/-- `C78_fits_partial` applies to the example, with the line 12: the locations of the number `5` are in line 13. -/
example : Ex.isOk (p4ToConstraintInfo Ex.sys (Ex.atLine c!"12")) = true ∧
    ∃ ti e, lookup 1 (Ex.get ⟨[], []⟩ (p4ToConstraintInfo Ex.sys (Ex.atLine c!"12"))).tables = some ti ∧
      ti.constraint = some e ∧ ti.source.loc.line = 12 ∧ e.stop.line = 13 ∧
      ti.source.loc.line + ti.source.str.length + 1 < 2 ^ 31 ∧ 3 * ti.source.str.length < 2 ^ 31 :=
  ⟨by decide +kernel, _, _, rfl, rfl, by decide +kernel⟩

/-- `C78_fits_lines_partial` applies with the line 2147483645, but not with a larger one. -/
example : Ex.isOk (p4ToConstraintInfo Ex.sys (Ex.atLine c!"2147483645")) = true ∧
    ∃ ti e, lookup 1 (Ex.get ⟨[], []⟩ (p4ToConstraintInfo Ex.sys (Ex.atLine c!"2147483645"))).tables = some ti ∧
      ti.constraint = some e ∧ ti.source.loc.line = 2147483645 ∧
      (advance ti.source.loc ti.source.str).line - literalBreaks (tokenize ti.source) + 1 = 2 ^ 31 - 1 ∧
      3 * ti.source.str.length < 2 ^ 31 :=
  ⟨by decide +kernel, _, _, rfl, rfl, by decide +kernel⟩

/-- C78 fails: with the largest number that `@line` can have, the line of the end of the constraint is not an `int32_t`, nor is
the line of its start if counted from one, as in messages. -/
theorem C78_fails : ∃ (p : P4Info) (ci : ConstraintInfo) (ti : TableInfo) (e : Expr),
    p4ToConstraintInfo Ex.sys p = .ok ci ∧ lookup 1 ci.tables = some ti ∧ ti.constraint = some e ∧
    ¬ Fits32 e.stop.line ∧ ¬ Fits32 (e.start.line + 1) :=
  ⟨Ex.atLine c!"2147483647", _, _, _, rfl, rfl, rfl, by decide +kernel, by decide +kernel⟩

end P4C
