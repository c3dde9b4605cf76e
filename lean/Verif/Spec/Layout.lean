import Verif.Spec.Lexical

/-
White space, comments, and the layout of constraints.
-/

namespace P4C.Spec

/-- A token without its location. -/
def kindText (t : Token) : Kind × Str := (t.kind, t.text)

/-- A separator: a blank, a tab, a line break, a line comment with its line break, or a block comment. -/
inductive Sep : Str → Prop where
  | blank : Sep c!" "
  | tab : Sep c!"\t"
  | lf : Sep c!"\n"
  | cr : Sep c!"\r"
  | crlf : Sep c!"\r\n"
  | line {a e : Str} : Runes a → (∀ c ∈ a, c ≠ '\r' ∧ c ≠ '\n') → e ∈ [c!"\n", c!"\r", c!"\r\n"] →
      Sep (c!"//" ++ a ++ e)
  | block {a : Str} : Runes a → ¬ c!"*/" <:+: a → Sep (c!"/*" ++ a ++ c!"*/")

/-- A sequence of separators. -/
inductive Seps : Str → Prop where
  | nil : Seps []
  | cons {a b : Str} : Sep a → Seps b → Seps (a ++ b)

/-- `Reads s r ts`: the text `s` consists of whole separators and whole tokens, the latter being `ts`,
followed by the text `r`. -/
inductive Reads (r : Str) : Str → List (Kind × Str) → Prop where
  | done : Reads r r []
  | sep {w s : Str} {ts : List (Kind × Str)} : Sep w → Reads r s ts → Reads r (w ++ s) ts
  | tok {k : Kind} {text lexeme s : Str} {ts : List (Kind × Str)} : Spells k text lexeme →
      Chosen (lexeme ++ s) k lexeme → Reads r s ts → Reads r (lexeme ++ s) ((k, text) :: ts)

/-- Line and column order of locations. -/
def LocLe (a b : Loc) : Prop := a.line < b.line ∨ (a.line = b.line ∧ a.col ≤ b.col)

def LocLt (a b : Loc) : Prop := a.line < b.line ∨ (a.line = b.line ∧ a.col < b.col)

/-- A text without tokens. -/
def Blank (s : Str) : Prop := ∀ l, ∃ l', Lexed l s [⟨.endOfInput, [], l', l'⟩]

/-- `Covers s ts r`: the text `s` consists of the tokens `ts`, with texts without tokens between them, and
the text `r` after them. -/
inductive Covers (r : Str) : Str → List (Kind × Str) → Prop where
  | stop {gap : Str} : Blank gap → Covers r (gap ++ r) []
  | tok {gap lexeme s : Str} {k : Kind} {text : Str} {ts : List (Kind × Str)} : Blank gap →
      Spells k text lexeme → Chosen (lexeme ++ s) k lexeme → Covers r s ts →
      Covers r (gap ++ (lexeme ++ s)) ((k, text) :: ts)

/-- `Located l pre s ts`: in the text `pre ++ s`, which starts at location `l`, the tokens `ts` are found one
after the other in `s`, at the locations they carry and with the text they carry; there are no tokens
between them. The last one is END_OF_INPUT at the end of the text, or UNEXPECTED_CHAR at a place where
nothing can be read. -/
inductive Located (l : Loc) : Str → Str → List Token → Prop where
  | eof {pre gap : Str} {p : Loc} : Blank gap → p = advance l (pre ++ gap) →
      Located l pre gap [⟨.endOfInput, [], p, p⟩]
  | bad {pre gap s : Str} {c : Char} {p : Loc} : Blank gap → Unlexable (c :: s) →
      p = advance l (pre ++ gap) → Located l pre (gap ++ c :: s) [⟨.unexpectedChar, [c], p, shift p 1⟩]
  | cons {pre gap lexeme s : Str} {t : Token} {ts : List Token} : Blank gap → Spells t.kind t.text lexeme →
      Chosen (lexeme ++ s) t.kind lexeme →
      t.start = advance l (pre ++ gap) → t.stop = advance l (pre ++ gap ++ lexeme) →
      Located l (pre ++ gap ++ lexeme) s ts → Located l pre (gap ++ (lexeme ++ s)) (t :: ts)

/-- `Placed l s ts`: in the text `s`, which starts at location `l`, the tokens `ts` are found one after the other, with the
texts they carry. Between tokens, locations follow the lines and columns of the text; within tokens, every character counts
as one column, line breaks as well. -/
inductive Placed : Loc → Str → List Token → Prop where
  | eof {l : Loc} {gap : Str} {p : Loc} : Blank gap → p = advance l gap → Placed l gap [⟨.endOfInput, [], p, p⟩]
  | bad {l : Loc} {gap s : Str} {c : Char} {p : Loc} : Blank gap → Unlexable (c :: s) →
      p = advance l gap → Placed l (gap ++ c :: s) [⟨.unexpectedChar, [c], p, shift p 1⟩]
  | cons {l : Loc} {gap lexeme s : Str} {t : Token} {ts : List Token} : Blank gap → Spells t.kind t.text lexeme →
      Chosen (lexeme ++ s) t.kind lexeme → t.start = advance l gap → t.stop = shift t.start lexeme.length →
      Placed t.stop s ts → Placed l (gap ++ (lexeme ++ s)) (t :: ts)

/-- The number of line breaks of a text. -/
def breaks (s : Str) : Int := (advance {} s).line

/-- The number of line breaks in the string literals among some tokens. -/
def literalBreaks : List Token → Int
  | [] => 0
  | t :: ts => (if t.kind = .string then breaks t.text else 0) + literalBreaks ts

end P4C.Spec
