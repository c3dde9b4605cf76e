import Verif.Model.Regex
import Verif.Model.Token
import Verif.Model.Quote

/-
Model of `p4_constraints/frontend/lexer.cc`.
-/

namespace P4C

open Re in
/-- `kCommentRegexp` (lexer.cc:40-46): `(\*/)|([^\n\r\*]+|\*)|((?:\r\n?)|\n)`. -/
def commentRegexp : Re :=
  alts [
    grp .endOfComment (lit c!"*/"),
    grp .fragment (alt (plus (noneOf c!"\n\r*")) (lit c!"*")),
    grp .newline (alt (seq (lit c!"\r") (opt (lit c!"\n"))) (lit c!"\n"))]

/-- `SwallowMultiLineComment` (lexer.cc:38-69): the remaining input and the location after the comment.
`fuel` bounds the number of loop iterations; each consumes at least one byte, and the function is only
called with `fuel = input.length` or more. -/
def swallowComment : Nat → Str → Loc → Str × Loc
  | 0, input, loc => (input, loc)
  | fuel + 1, input, loc =>
    match commentRegexp.first input with
    | none => (input, loc)
    | some m =>
      let rest := input.drop m.1
      if capture .endOfComment m ≠ [] then
        (rest, { loc with col := loc.col + (capture .endOfComment m).length })
      else if capture .fragment m ≠ [] then
        swallowComment fuel rest { loc with col := loc.col + (capture .fragment m).length }
      else
        swallowComment fuel rest { loc with line := loc.line + 1, col := 0 }

open Re in
/-- `kTokenPattern` (lexer.cc:73-98). -/
def tokenPattern : Re :=
  alts [
    grp .whitespace (plus (oneOf c!" \t")),
    grp .newline (alt (seq (lit c!"\r") (opt (lit c!"\n"))) (lit c!"\n")),
    grp .comment (seq (lit c!"//") (star (noneOf c!"\r\n"))),
    grp .beginMultilineComment (lit c!"/*"),
    grp .keyword (alts [lit c!"true", lit c!"false", lit c!"&&", lit c!"||", lit c!"->", lit c!"::",
      lit c!"==", lit c!"!=", lit c!">=", lit c!"<=", cls (oneOf c!"!()><.;-")]),
    grp .id (seq (cls ⟨false, isIdStart⟩) (star ⟨false, isIdChar⟩)),
    seq (seq (lit c!"0") (cls (oneOf c!"bB"))) (grp .binary (plus ⟨false, isBin⟩)),
    seq (seq (lit c!"0") (cls (oneOf c!"oO"))) (grp .octary (plus ⟨false, isOct⟩)),
    seq (seq (lit c!"0") (cls (oneOf c!"xX"))) (grp .hexadec (plus ⟨false, isHex⟩)),
    seq (opt (seq (lit c!"0") (cls (oneOf c!"dD")))) (grp .decimal (plus ⟨false, isDec⟩)),
    grp .string (seq (lit c!"'") (seq (grp .stringBody (star (noneOf c!"'"))) (lit c!"'")))]

/-- The loop of `Tokenize` (lexer.cc:115-211). At the head of each iteration `start_location` equals
`current_location` (every branch of the C++ loop ends by assigning it so); the model keeps this one
location `loc`. `fuel` bounds the number of iterations. -/
def tokenizeF : Nat → Str → Loc → List Token
  | 0, _, _ => []
  | fuel + 1, input, loc =>
    match tokenPattern.first input with
    | none =>
      match input with
      | [] => [⟨.endOfInput, [], loc, loc⟩]
      | c :: _ => [⟨.unexpectedChar, [c], loc, { loc with col := loc.col + 1 }⟩]
    | some m =>
      let lexeme := input.take m.1
      let rest := input.drop m.1
      let cur := { loc with col := loc.col + lexeme.length }
      if capture .whitespace m ≠ [] ∨ capture .comment m ≠ [] then
        tokenizeF fuel rest cur
      else if capture .newline m ≠ [] then
        tokenizeF fuel rest { cur with line := cur.line + 1, col := 0 }
      else if capture .beginMultilineComment m ≠ [] then
        let (rest, cur) := swallowComment rest.length rest cur
        tokenizeF fuel rest cur
      else if capture .keyword m ≠ [] then
        ⟨(keywordToKind lexeme).getD .unexpectedChar, lexeme, loc, cur⟩ :: tokenizeF fuel rest cur
      else if capture .id m ≠ [] then
        ⟨.id, lexeme, loc, cur⟩ :: tokenizeF fuel rest cur
      else if capture .binary m ≠ [] then
        ⟨.binary, capture .binary m, loc, cur⟩ :: tokenizeF fuel rest cur
      else if capture .octary m ≠ [] then
        ⟨.octary, capture .octary m, loc, cur⟩ :: tokenizeF fuel rest cur
      else if capture .decimal m ≠ [] then
        ⟨.decimal, capture .decimal m, loc, cur⟩ :: tokenizeF fuel rest cur
      else if capture .hexadec m ≠ [] then
        ⟨.hexadec, capture .hexadec m, loc, cur⟩ :: tokenizeF fuel rest cur
      else if capture .string m ≠ [] then
        ⟨.string, ((capture .string m).drop 1).take ((capture .string m).length - 2), loc, cur⟩
          :: tokenizeF fuel rest cur
      else
        ⟨.unexpectedChar, lexeme, loc, cur⟩ :: tokenizeF fuel rest cur

/-- `Tokenize` (lexer.cc:115-211). -/
def tokenize (src : ConstraintSource) : List Token :=
  tokenizeF (src.str.length + 1) src.str src.loc

end P4C
