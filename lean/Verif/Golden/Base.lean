import Verif.Model.CliText

/-
The golden tests of the repository (`e2e_tests/`), run on the model. This checks that the model prints the same text as the
code, on the inputs of these tests. Nothing else depends on these files.
-/

namespace P4C.Golden

/-- The lines of a text. -/
def text (l : List Str) : Str := l.flatten

/-- The texts that are printed by protobuf do not occur. -/
def texts : Texts where
  quoteFailure _ _ _ := c!"?"
  retCheck := c!"?"
  expression _ := c!"?"
  operator _ := c!"?"
  matchType _ := c!"?"
  matchField _ := c!"?"
  param _ := c!"?"
  table _ := c!"?"
  action _ := c!"?"

/-- The texts that are printed by protobuf do not occur. -/
def entryTexts : EntryTexts where
  quoteFailure _ _ _ := c!"?"
  quoteStatus _ _ _ := c!"?"
  retCheck _ := c!"?"
  matchCase _ := c!"?"
  actionCase _ := c!"?"
  type _ := c!"?"
  expression _ := c!"?"
  operator _ := c!"?"
  entry _ := c!"?"

/-- `inet_pton` on the address that occurs. -/
def sys : Sys where
  inetPton6 s := if s = c!"::" then some (List.replicate 16 0) else none

end P4C.Golden
