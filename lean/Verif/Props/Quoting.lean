import Verif.Proofs.TypeFault
import Verif.Proofs.Quotation
import Verif.Props.Grammar

/-
Quotations and parse errors: properties C29, C43, C51.
-/

namespace P4C

open Spec

/-- The conditions under which source locations, as counted by the lexer, are found again by the quoting code:
every carriage return is followed by a line feed, no string literal spans lines, the source of the constraint is
named, and its first line starts at a proper column. -/
structure Quotable (src : ConstraintSource) : Prop where
  crlf : CrLf src.str
  strings : ∀ t ∈ tokenize src, t.kind = .string → ∀ c ∈ t.text, c ≠ '\r' ∧ c ≠ '\n'
  named : src.loc.src ≠ .notSet
  column : 0 ≤ src.loc.col

/-- C29 for nodes that lie on one line: the quotation succeeds, and its last two lines are the line of the
source on which the node lies, with its number, and markers exactly below the columns of the node.
Missing from the full statement: nodes spanning lines, for which the quoting may crash
(`C29_multiline_partial`, `C29_fails`), and texts with lone carriage returns (`C29_fails_cr`). -/
theorem C29_quote_partial {sys : Sys} {k : ConstraintKind} {src : ConstraintSource} {e x : Expr}
    (h : parseConstraint sys k src = .ok e) (hx : NodeOf x e) (hq : Quotable src) (hcol : src.loc.col = 0)
    (hl : x.start.line = x.stop.line) :
    ∃ text line at_, quoteSub src x.start x.stop = .ok text ∧
      LineOf src.str (x.start.line - src.loc.line).toNat line at_ ∧
      Shows text (x.start.line + 1) line x.start.col.toNat (x.stop.col - x.start.col).toNat :=
  quote_node h hq.strings hx hq.crlf hq.named hcol hl

/-- The characters below which `C29_quote_partial` puts its markers are those of the node: the node is the
text between two positions, and these have the line and column numbers of the node. -/
theorem C29_node_text {sys : Sys} {k : ConstraintKind} {src : ConstraintSource} {e x : Expr}
    (h : parseConstraint sys k src = .ok e) (hx : NodeOf x e) (hq : Quotable src) :
    ∃ p m r, src.str = p ++ m ++ r ∧ m ≠ [] ∧ x.start = advance src.loc p ∧ x.stop = advance src.loc (p ++ m) := by
  obtain ⟨p, m, r, h1, h2, h3, h4, _⟩ := node_found h hq.strings hx
  exact ⟨p, m, r, h1, h4, h2, h3⟩

/-- C29 for nodes that span lines: the quotation crashes exactly if the first line of the node is shorter than
the width of the margin, `" | "`, and the start column together. Otherwise it succeeds and shows the first line of
the node, with markers from its start column on (fewer than the characters of the node on this line). -/
theorem C29_multiline_partial {sys : Sys} {k : ConstraintKind} {src : ConstraintSource} {e x : Expr}
    (h : parseConstraint sys k src = .ok e) (hx : NodeOf x e) (hq : Quotable src)
    (hl : x.start.line ≠ x.stop.line) :
    ∃ line at_ num, LineOf src.str (x.start.line - src.loc.line).toNat line at_ ∧
      IntNumeral (x.start.line + 1) num ∧
      (line.length < num.length + 3 + x.start.col.toNat → quoteSub src x.start x.stop = .crash) ∧
      (num.length + 3 + x.start.col.toNat ≤ line.length →
        ∃ text, quoteSub src x.start x.stop = .ok text ∧
          Shows text (x.start.line + 1) line x.start.col.toNat
            (line.length - (num.length + 3 + x.start.col.toNat))) := by
  obtain ⟨p, m, r, h1, h2, h3, h4, ⟨c, cs, rfl, hn, hc⟩, _⟩ := node_found h hq.strings hx
  rw [h2]
  obtain ⟨line, at_, num, k1, k2, k3⟩ :=
    quote_multi (stop := x.stop) h1 hn hc hq.crlf hq.named hq.column (by rw [h3, advance_src]) (by rw [← h2]; exact hl)
  exact ⟨line, at_, num, k1, intNumeral_iff.2 k2, k3⟩

/-- The source of the examples. -/
def Ex.src (s : Str) : ConstraintSource := { str := s, loc := { src := .tableName c!"t" } }

theorem Ex.quotable {s : Str} (h1 : s.count '\r' = 0)
    (h2 : (tokenize (Ex.src s)).all fun t => t.kind != .string) : Quotable (Ex.src s) where
  crlf := by
    intro a b h
    rw [show (Ex.src s).str = s from rfl] at h
    rw [h] at h1
    simp at h1
  strings := by
    intro t ht hk
    have := List.all_eq_true.1 h2 t ht
    simp [hk] at this
  named := by simp [Ex.src]
  column := by simp [Ex.src]

/-- The second conjunct of the example below. -/
def Ex.node : Expr := Ex.get (.notSet {}) (parseConstraint Ex.sys .table (Ex.src c!"true &&\n  b == 12"))

def Ex.node2 : Expr :=
  match Ex.node with
  | .bin _ _ _ r => r
  | e => e

example : ∃ e x, parseConstraint Ex.sys .table (Ex.src c!"true &&\n  b == 12") = .ok e ∧ NodeOf x e ∧
    Quotable (Ex.src c!"true &&\n  b == 12") ∧ x.start.line = x.stop.line ∧
    quoteSub (Ex.src c!"true &&\n  b == 12") x.start x.stop = .ok
      c!"In @entry_restriction of table 't'; at offset line 2, columns 3 to 9:\n  | true &&\n2 |   b == 12\n  |   ^^^^^^^\n" :=
  ⟨Ex.node, Ex.node2, rfl, .right (.self _), Ex.quotable (by decide +kernel) (by decide +kernel), by decide +kernel,
    by decide +kernel⟩

/-- C29 fails: quoting the node `foo == 1` of a constraint that breaks the line after `foo` crashes. -/
theorem C29_fails : ∃ (src : ConstraintSource) (e : Expr), Quotable src ∧
    parseConstraint Ex.sys .table src = .ok e ∧ quoteSub src e.start e.stop = .crash :=
  ⟨Ex.src c!"foo\n== 1", _, Ex.quotable (by decide +kernel) (by decide +kernel), rfl, by decide +kernel⟩

/-- C29 fails: the lexer starts a new line at a carriage return, the quoting code does not; the constraint
`true`, preceded by a carriage return, cannot be quoted. -/
theorem C29_fails_cr : ∃ (src : ConstraintSource) (e : Expr), src.loc.src ≠ .notSet ∧
    parseConstraint Ex.sys .table src = .ok e ∧ e.start.line = e.stop.line ∧
    quoteSub src e.start e.stop = .err .invalidArgument :=
  ⟨Ex.src c!"\rtrue", _, by simp [Ex.src], rfl, by decide +kernel, by decide +kernel⟩

/-- C43: parsing terminates. -/
theorem C43_terminates (sys : Sys) (k : ConstraintKind) (src : ConstraintSource) :
    parseConstraint sys k src ≠ .oof :=
  (outcome_tokens (tokenize_numTok src)).ne_oof (quoteSub_ne_oof src)

/-- C43 for every text: parsing does not crash, and the result is a tree or one of two errors. -/
theorem C43_no_crash {sys : Sys} {k : ConstraintKind} {src : ConstraintSource} (h : 0 ≤ src.loc.col) :
    (∃ e, parseConstraint sys k src = .ok e) ∨ parseConstraint sys k src = .err .invalidArgument ∨
      parseConstraint sys k src = .err .internal :=
  parse_outcomes h

/-- C43 for texts in which every carriage return is followed by a line feed, and sources that are named: the
result of parsing is a tree or the error InvalidArgument. Missing from the full statement: the other texts, for
which an Internal error is possible (`C43_fails`). -/
theorem C43_parse_total_partial {sys : Sys} {k : ConstraintKind} {src : ConstraintSource} (h : CrLf src.str)
    (hn : src.loc.src ≠ .notSet) (hc : 0 ≤ src.loc.col) :
    (∃ e, parseConstraint sys k src = .ok e) ∨ parseConstraint sys k src = .err .invalidArgument :=
  parse_total h hn hc

example : Quotable (Ex.src c!"true && // c\n (a == 1") ∧
    parseConstraint Ex.sys .table (Ex.src c!"true && // c\n (a == 1") = .err .invalidArgument :=
  ⟨Ex.quotable (by decide +kernel) (by decide +kernel), by decide +kernel⟩

/-- A string literal that spans lines is no problem. -/
example : CrLf (Ex.src c!"'\n' )").str ∧ parseConstraint Ex.sys .table (Ex.src c!"'\n' )") = .err .invalidArgument := by
  refine ⟨?_, by decide +kernel⟩
  intro a b h
  have := congrArg (List.count '\r') h
  simp [Ex.src] at this

/-- C43 fails: after a lone carriage return, or if the source of the constraint is not named, a parse error is
reported as Internal. -/
theorem C43_fails :
    parseConstraint Ex.sys .table (Ex.src c!"\r)") = .err .internal ∧
    parseConstraint Ex.sys .table { str := c!")" } = .err .internal := by
  decide +kernel

/-- With a negative column as the location of the constraint, parsing crashes. -/
theorem C43_fails_column :
    parseConstraint Ex.sys .table { str := c!")", loc := { col := -1, src := .tableName c!"t" } } = .crash := by
  decide +kernel

/-! ### C51: the text of quotations -/

/-- C51: for an interval that does not start before the text, a quotation succeeds exactly with the text that names
the source of the constraint and the interval, and shows the line on which it starts, after the line before it. -/
theorem C51_text {src : ConstraintSource} {a b : Loc} (hl : src.loc.line ≤ a.line) (h0 : 0 ≤ a.line) (hc : 0 ≤ a.col)
    (hb : 0 ≤ b.col) (text : Str) : quoteSub src a b = .ok text ↔ Quotation src a b text :=
  quoteSub_iff hl h0 hc hb

/-- C51: there is at most one such text. -/
theorem C51_unique {src : ConstraintSource} {a b : Loc} (hl : src.loc.line ≤ a.line) (h0 : 0 ≤ a.line) (hc : 0 ≤ a.col)
    (hb : 0 ≤ b.col) {s t : Str} (hs : Quotation src a b s) (ht : Quotation src a b t) : s = t := by
  have h1 := (quoteSub_iff hl h0 hc hb).2 hs
  rw [(quoteSub_iff hl h0 hc hb).2 ht] at h1
  injection h1 with h1
  exact h1.symm

/-- C51: when a quotation fails, this is reported as an InvalidArgument error; except that it crashes, exactly if the
interval ends before it starts on the same line, or ends on another line and the first line is too short. -/
theorem C51_failures {src : ConstraintSource} {a b : Loc} (hl : src.loc.line ≤ a.line) (h0 : 0 ≤ a.line)
    (hc : 0 ≤ a.col) (hb : 0 ≤ b.col) :
    ((∃ text, Quotation src a b text) ∨ quoteSub src a b = .err .invalidArgument ∨ quoteSub src a b = .crash) ∧
    (quoteSub src a b = .crash ↔ a.src = src.loc.src ∧ b.src = src.loc.src ∧ src.loc.src ≠ .notSet ∧ a ≠ b ∧
      ∃ num line p, Numeral (a.line + 1) num ∧ LineOf src.str (a.line - src.loc.line).toNat line p ∧
        p < src.str.length ∧
        (a.line = b.line ∧ b.col < a.col ∨ a.line ≠ b.line ∧ line.length < num.length + 3 + a.col.toNat)) := by
  refine ⟨?_, by rw [quoteSub_crash_iff, quote_crash_iff hl h0 hc]⟩
  rcases quoteSub_total src a b with ⟨t, h⟩ | h | h
  · exact .inl ⟨t, (quoteSub_iff hl h0 hc hb).1 h⟩
  · exact .inr (.inl h)
  · exact .inr (.inr h)

/-- A file with an interval of one character, and a longer one on the second line. -/
example : Quotation ⟨c!"a == 1", ⟨0, 0, .filePath c!"x.p4"⟩⟩ ⟨0, 5, .filePath c!"x.p4"⟩ ⟨0, 6, .filePath c!"x.p4"⟩
      c!"x.p4:1:6:\n1 | a == 1\n  |      ^\n" ∧
    Quotation ⟨c!"a == 1 &&\n b == 12", ⟨8, 0, .filePath c!"x.p4"⟩⟩ ⟨9, 6, .filePath c!"x.p4"⟩
      ⟨9, 8, .filePath c!"x.p4"⟩ c!"x.p4:10:7-8:\n   | a == 1 &&\n10 |  b == 12\n   |       ^^\n" :=
  ⟨(C51_text (by decide) (by decide) (by decide) (by decide) _).1 (by decide +kernel),
    (C51_text (by decide) (by decide) (by decide) (by decide) _).1 (by decide +kernel)⟩

/-- An interval of two lines whose first line is long enough to be quoted. -/
example : Quotation ⟨c!"   a ==   \n1", ⟨0, 0, .actionName c!"act"⟩⟩ ⟨0, 3, .actionName c!"act"⟩ ⟨1, 1, .actionName c!"act"⟩
      c!"In @action_restriction of action 'act'; at offset line 1, column 4 to line 2, column1:\n1 |    a ==   \n  |    ^^^\n" :=
  (C51_text (by decide) (by decide) (by decide) (by decide) _).1 (by decide +kernel)

end P4C
