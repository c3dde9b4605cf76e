import Verif.Model.Status

/-
What a `StatusBuilder` is for: "Creates a status based on an original_status, but enriched with additional information"
(gutils/status_builder.h:27-29), where `<<` "appends to the extra message that will be added to the original status"
(status_builder.h:49).
-/

namespace P4C.Spec

/-- What is done with a builder before it is converted to a status: something is streamed into it, it is replaced by a
copy of it, or it is converted to a status and kept. -/
inductive BuilderStep where
  | write (t : Str)
  | copy
  | convert

/-- The texts streamed into the builder, one after the other. -/
def told : List BuilderStep → Str
  | [] => []
  | .write t :: l => t ++ told l
  | .copy :: l => told l
  | .convert :: l => told l

/-- `s'` is `s` with `extra` added to its message: OK remains OK, codes are unchanged, the extra text is separated from
the message by a semicolon if both say something. -/
inductive Enriched : Status → Str → Status → Prop where
  | ok (extra : Str) : Enriched .ok extra .ok
  | none (s : Status) : Enriched s [] s
  | first (c : AbslCode) (extra : Str) : Enriched (.error c []) extra (.error c extra)
  | further (c : AbslCode) (m extra : Str) (hm : m ≠ []) (he : extra ≠ []) :
      Enriched (.error c m) extra (.error c (m ++ c!"; " ++ extra))

/-- Nothing is streamed into a copy of a builder into which something was streamed before. -/
def NotOverwritten (l : List BuilderStep) : Prop :=
  ∀ before after : List BuilderStep, l = before ++ .copy :: after → told before = [] ∨ told after = []

/-- The builder after the steps. -/
def built (b : StatusBuilder) : List BuilderStep → StatusBuilder
  | [] => b
  | .write t :: l => built (b.append t) l
  | .copy :: l => built b.copy l
  | .convert :: l => built b l

end P4C.Spec
