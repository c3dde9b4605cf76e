import Verif.Model.Ast

/-
Model of `p4_constraints/quote.cc` and `p4_constraints/constraint_source.h`.
-/

namespace P4C

/-- `struct ConstraintSource` (constraint_source.h). -/
structure ConstraintSource where
  str : Str := []
  loc : Loc := {}
deriving DecidableEq, Repr

/-- `Explain` (quote.cc:40-89). -/
def explainLoc (start stop : Loc) : Res Str :=
  match start.src with
  | .filePath f =>
    .ok (f ++ c!":" ++ intDec (start.line + 1) ++ c!":" ++ intDec (start.col + 1) ++
      (if stop.line > start.line then c!"-" ++ intDec (stop.line + 1) ++ c!":" ++ intDec stop.col
       else if stop.col > start.col + 1 then c!"-" ++ intDec stop.col
       else []) ++ c!":\n")
  | .actionName a =>
    .ok (c!"In @action_restriction of action '" ++ a ++ c!"'; at offset line " ++
      intDec (start.line + 1) ++ columns ++ c!":\n")
  | .tableName t =>
    .ok (c!"In @entry_restriction of table '" ++ t ++ c!"'; at offset line " ++
      intDec (start.line + 1) ++ columns ++ c!":\n")
  | .notSet => .err .invalidArgument
where
  /-- quote.cc:58-66 and 73-80. -/
  columns : Str :=
    if stop.line > start.line then
      c!", column " ++ intDec (start.col + 1) ++ c!" to line " ++ intDec (stop.line + 1) ++
        c!", column" ++ intDec stop.col
    else if stop.col > start.col + 1 then
      c!", columns " ++ intDec (start.col + 1) ++ c!" to " ++ intDec stop.col
    else c!", column " ++ intDec (start.col + 1)

/-- `std::getline` on a string stream: `none` when no character is left, else the text up to the next
`\n` (or the end) and the remaining stream. -/
def getline : Str → Option (Str × Str)
  | [] => none
  | s => some (s.takeWhile (· ≠ '\n'), (s.dropWhile (· ≠ '\n')).drop 1)

/-- The loop of quote.cc:115-124: discard `n` lines. -/
def discardLines : Nat → Str → Res Str
  | 0, s => .ok s
  | n + 1, s =>
    match getline s with
    | some (_, rest) => discardLines n rest
    | none => .err .invalidArgument

/-- The loop of quote.cc:132-142: output `n` context lines. -/
def contextLines (pre : Str) : Nat → Str → Res (Str × Str)
  | 0, s => .ok ([], s)
  | n + 1, s =>
    match getline s with
    | some (line, rest) => do
      let (out, rest) ← contextLines pre n rest
      .ok (pre ++ line ++ c!"\n" ++ out, rest)
    | none => .err .invalidArgument

/-- `std::string(n, c)`: throws `std::length_error` for a (converted) negative length. -/
def stringFill (n : Int) (c : Char) : Res Str :=
  if n < 0 then .crash else .ok (List.replicate n.toNat c)

/-- `Quote` (quote.cc:99-164). -/
def quote (src : ConstraintSource) (start stop : Loc) : Res Str :=
  if start = stop then .ok []
  else do
    let keyLine := start.line
    let offset := src.loc.line
    let before : Int := if start.line = offset then 0 else 1
    -- 115-124; the loop runs while `i < keyLine - before`, from `i = offset`.
    let s ← discardLines (keyLine - before - offset).toNat src.str
    let i := max offset (keyLine - before)
    let keyMargin := intDec (keyLine + 1)
    let ctxMargin := List.replicate keyMargin.length ' '
    let sep := c!" | "
    let (ctx, s) ← contextLines (ctxMargin ++ sep) (keyLine - i).toNat s
    match getline s with
    | none => .err .invalidArgument
    | some (line, _) => do
      let out := ctx ++ keyMargin ++ sep ++ line ++ c!"\n"
      let pad ← stringFill start.col ' '
      let margin := ctxMargin ++ sep ++ pad
      let markerSize : Int :=
        if start.line = stop.line then stop.col - start.col
        else (line.length : Int) - (margin.length : Int)
      let marker ← stringFill markerSize '^'
      .ok (out ++ margin ++ marker ++ c!"\n")

/-- `QuoteSubConstraint` (quote.cc:182-197). -/
def quoteSub (src : ConstraintSource) (start stop : Loc) : Res Str :=
  if !haveSameSource src.loc start || !haveSameSource src.loc stop || !haveSameSource start stop then
    .err .invalidArgument
  else do
    let explanation ← explainLoc start stop
    let q ← quote src start stop
    .ok (explanation ++ q)

/-- The error builders `StaticTypeError` (type_checker.cc:49-60) and `ParseError` (parser.cc:141-156):
InvalidArgument with a quote, Internal if quoting fails. -/
def quotingError {α : Type} (src : ConstraintSource) (start stop : Loc) : Res α :=
  match quoteSub src start stop with
  | .ok _ => .err .invalidArgument
  | .err _ => .err .internal
  | .crash => .crash
  | .oof => .oof

/-- The error builders `RuntimeTypeError` (errors.cc:29-41) and `InternalError` (type_checker.cc:62-73):
always Internal, but the quoting may crash. -/
def runtimeTypeError {α : Type} (src : ConstraintSource) (start stop : Loc) : Res α :=
  match quoteSub src start stop with
  | .ok _ => .err .internal
  | .err _ => .err .internal
  | .crash => .crash
  | .oof => .oof

end P4C
