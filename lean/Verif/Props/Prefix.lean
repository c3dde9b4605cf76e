import Verif.Proofs.Prefix

/-!
# C80: syntax errors and the text after them
-/

namespace P4C

open Spec

/-- C80: if the lines `u` give a syntax error, so do these lines followed by any text, and the message is the same, unless
the error is about the end of the text or about an opening quotation mark. (The code of a syntax error is InvalidArgument
unless the token cannot be quoted; see `C43_parse_total_partial` and `C43_internal`.) -/
theorem C80_stable {x : Texts} {sys : Sys} {k : ConstraintKind} {u v : Str} {loc : Loc} (hline : 0 ≤ loc.line)
    (hcol : 0 ≤ loc.col) (hu : ∃ w, u = w ++ c!"\n") {m : Str}
    (h : parseConstraintM x sys k ⟨u, loc⟩ = .err .invalidArgument m)
    (ht : ∀ before t after, Culprit (tokenize ⟨u, loc⟩) before t after →
      AddressesOk sys.inetPton6 (tokenize ⟨u, loc⟩) before.length →
      t.kind ≠ .endOfInput ∧ (t.kind = .unexpectedChar → t.text ≠ c!"'")) :
    parseConstraintM x sys k ⟨u ++ v, loc⟩ = .err .invalidArgument m := by
  obtain ⟨c, m', h', hs⟩ := syntax_error_prefix (v := v) hline hcol hu h ht
  obtain ⟨rfl, rfl⟩ := hs rfl
  exact h'

/-- C80: hence text is accepted only if its first lines are accepted, or stop within a constraint, a comment or a string. -/
theorem C80_accepted {sys : Sys} {k : ConstraintKind} {u v : Str} {loc : Loc} (hline : 0 ≤ loc.line)
    (hcol : 0 ≤ loc.col) (hu : ∃ w, u = w ++ c!"\n") {e : Expr}
    (h : parseConstraint sys k ⟨u ++ v, loc⟩ = .ok e) : (∃ e', parseConstraint sys k ⟨u, loc⟩ = .ok e') ∨
      ∃ before t after, Culprit (tokenize ⟨u, loc⟩) before t after ∧
        AddressesOk sys.inetPton6 (tokenize ⟨u, loc⟩) before.length ∧
        (t.kind = .endOfInput ∨ t.kind = .unexpectedChar ∧ t.text = c!"'") := by
  refine Classical.or_iff_not_imp_left.2 fun hno => ?_
  rcases parseM_outcomes Ex.texts (sys := sys) (k := k) (src := ⟨u, loc⟩) hcol with ⟨e', he⟩ | ⟨c, m, hm⟩
  · have := C52_same_errors Ex.texts sys k ⟨u, loc⟩
    rw [he] at this
    exact (hno ⟨e', this.symm⟩).elim
  · refine Classical.byContradiction fun hn => ?_
    obtain ⟨c', m', hs, _⟩ := syntax_error_prefix (v := v) hline hcol hu hm fun before t after hc hok =>
      ⟨fun hk => hn ⟨before, t, after, hc, hok, .inl hk⟩, fun hk hq => hn ⟨before, t, after, hc, hok, .inr ⟨hk, hq⟩⟩⟩
    have he := C52_same_errors Ex.texts sys k ⟨u ++ v, loc⟩
    rw [hs, h] at he
    cases he

/-- The culprit of `a < b < c` is the second `<`. -/
theorem Ex.culprit_lt : Culprit (tokenize (Ex.src c!"a < b < c\n")) ((tokenize (Ex.src c!"a < b < c\n")).take 3)
    (((tokenize (Ex.src c!"a < b < c\n")).drop 3).headD ⟨.id, [], {}, {}⟩) ((tokenize (Ex.src c!"a < b < c\n")).drop 4) := by
  refine ⟨by decide +kernel, ?_, ?_⟩
  · rw [show ((tokenize (Ex.src c!"a < b < c\n")).take 3).map (·.kind) = [.id, .lt, .id] by decide +kernel]
    exact Ex.viable_lt
  · rw [show (((tokenize (Ex.src c!"a < b < c\n")).take 3) ++ [((tokenize (Ex.src c!"a < b < c\n")).drop 3).headD
      ⟨.id, [], {}, {}⟩]).map (·.kind) = [.id, .lt, .id, .lt] by decide +kernel]
    exact fail_not_viable (bad := fun _ => False) (f := 5) (a := [.id, .lt, .id]) (r := []) (d := .nonAssoc) rfl

/-- The message about the line `a < b < c`, whatever follows. -/
example (v : Str) :
    parseConstraintM Ex.texts Ex.sys .table (Ex.src (c!"a < b < c\n" ++ v)) = .err .invalidArgument
      (c!"In @entry_restriction of table 't'; at offset line 1, column 7:\n1 | a < b < c\n  |       ^\nParse error: " ++
        c!"operator < is non-associative; enclose expression to the left of the operator in '(' and ')' to disambiguate?") := by
  refine C80_stable (u := c!"a < b < c\n") (by decide) (by decide) ⟨c!"a < b < c", rfl⟩
    (by decide +kernel) fun before t after hc _ => ?_
  obtain ⟨_, rfl, _⟩ := C52_unique Ex.culprit_lt hc
  decide +kernel

/-- C80: text that follows can resolve errors about the end of the text and errors about opening quotation marks. -/
theorem C80_exceptions :
    (parseConstraint Ex.sys .table (Ex.src c!"a == 1 &&\n") = .err .invalidArgument ∧
      Ex.isOk (parseConstraint Ex.sys .table (Ex.src c!"a == 1 &&\nb == 2\n"))) ∧
    parseConstraintM Ex.texts Ex.sys .table (Ex.src c!"a == mac('\n") ≠
      parseConstraintM Ex.texts Ex.sys .table (Ex.src c!"a == mac('\n')") := by
  decide +kernel

/-- C80: an error about a token that cannot be quoted, since lines of the text end with carriage returns, is Internal; the
text that follows can provide the line that is then quoted. -/
theorem C80_carriage :
    parseConstraint Ex.sys .table (Ex.src c!"a\r==\r== b\n") = .err .internal ∧
    parseConstraintM Ex.texts Ex.sys .table (Ex.src c!"a\r==\r== b\n// one\n// two\n") = .err .invalidArgument
      (c!"In @entry_restriction of table 't'; at offset line 3, columns 1 to 2:\n  | // one\n3 | // two\n  | ^^\nParse error: " ++
        c!"unexpected token: ==. Expected true, false, <BINARY>, <OCTARY>, <DECIMAL>, <HEXADEC>, <ID>, ::, !, -, or (.") := by
  decide +kernel

end P4C
