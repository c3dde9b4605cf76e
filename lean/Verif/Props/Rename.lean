import Verif.Proofs.Rename
import Verif.Props.Names
import Verif.Props.Accept

/-!
# C76: names and ids are only labels
-/

namespace P4C

open Spec

/-- C76: if the names and ids of tables, keys, actions and parameters of an accepted program are replaced one-to-one, also
within the constraints, then the program is still accepted. -/
theorem C76_accepted {sys : Sys} {R : Renaming} (hR : OneToOne R) {p p' : P4Info}
    (hp : ProgramRenamed sys.inetPton6 R p p') (h : ∃ ci, p4ToConstraintInfo sys p = .ok ci) :
    ∃ ci', p4ToConstraintInfo sys p' = .ok ci' :=
  p4ToConstraintInfo_renamed hR hp h

/-- C76: then an entry is accepted if and only if it is accepted, with the new ids, by the new program. `hw`: bitwidths are
not negative. -/
theorem C76_verdict {sys : Sys} {R : Renaming} (hR : OneToOne R) {p p' : P4Info} {ci ci' : ConstraintInfo}
    (h : p4ToConstraintInfo sys p = .ok ci) (h' : p4ToConstraintInfo sys p' = .ok ci')
    (hp : ProgramRenamed sys.inetPton6 R p p') (hw : NonNegProgram p) (entry : RtEntry) :
    reasonEntryViolatesConstraint entry ci = .ok [] ↔ reasonEntryViolatesConstraint (renamedEntry R entry) ci' = .ok [] := by
  obtain ⟨-, -, h1, h2⟩ := p4ToConstraintInfo_succeeds.1 ⟨ci, h⟩
  rw [C65_accepted h hw, C65_accepted h' (nonNeg_renamed hp hw), accepted_renamed hR hp h1 h2]

/-- C76: in particular, if both entries are judged, they are judged alike. -/
theorem C76_judged_alike {sys : Sys} {R : Renaming} (hR : OneToOne R) {p p' : P4Info} {ci ci' : ConstraintInfo}
    (h : p4ToConstraintInfo sys p = .ok ci) (h' : p4ToConstraintInfo sys p' = .ok ci')
    (hp : ProgramRenamed sys.inetPton6 R p p') (hw : NonNegProgram p) {entry : RtEntry} {m m' : Str}
    (hm : reasonEntryViolatesConstraint entry ci = .ok m)
    (hm' : reasonEntryViolatesConstraint (renamedEntry R entry) ci' = .ok m') : m = [] ↔ m' = [] := by
  have := C76_verdict hR h h' hp hw entry
  rw [hm, hm'] at this
  simpa using this

/-- Ids are shifted, and names get a prefix. -/
def Ex.renaming : Renaming :=
  ⟨(· + 10), (· + 20), fun _ => (· + 30), fun _ => (c!"z" ++ ·), fun _ => (· + 40), fun _ => (c!"y" ++ ·)⟩

theorem Ex.renaming_oneToOne : OneToOne Ex.renaming := by
  constructor <;> simp [Ex.renaming]

/-- The program `Ex.dotted` with other names. The dot is now part of the name of the table. -/
def Ex.redotted (tc ac : Str) : P4Info :=
  ⟨[{ preamble := ⟨11, c!"u.v", [c!"@entry_restriction(\"" ++ tc ++ c!"\")"]⟩
      matchFields := [⟨31, c!"zhdr.dst", 8, .matchType .exact⟩] }],
   [{ preamble := ⟨22, c!"w", [c!"@action_restriction(\"" ++ ac ++ c!"\")"]⟩, params := [⟨41, c!"yab", 8, []⟩] }]⟩

def Ex.redot1 : P4Info := Ex.dotted c!"hdr.dst == 5" c!"ab != 2"

def Ex.redot2 : P4Info := Ex.redotted c!"// renamed\nzhdr . dst == 0x05" c!"(yab) != 2;"

theorem Ex.redot_renamed : ProgramRenamed Ex.sys.inetPton6 Ex.renaming Ex.redot1 Ex.redot2 := by
  refine ⟨.cons ⟨rfl, rfl, ?_⟩ .nil, .cons ⟨rfl, rfl, ?_⟩ .nil⟩
  · exact .some (src := ⟨c!"hdr.dst == 5", { line := 0, col := 0, src := .tableName c!"t" }⟩)
      (src' := ⟨c!"// renamed\nzhdr . dst == 0x05", { line := 0, col := 0, src := .tableName c!"u.v" }⟩)
      (attached_iff.1 (by rfl)) (tokenize_lexed _) (parseConstraint_iff.1 (by rfl)) (by rfl)
      (attached_iff.1 (by rfl)) (tokenize_lexed _) (parseConstraint_iff.1 (by rfl)) (by rfl)
  · exact .some (src := ⟨c!"ab != 2", { line := 0, col := 0, src := .actionName c!"act" }⟩)
      (src' := ⟨c!"(yab) != 2;", { line := 0, col := 0, src := .actionName c!"w" }⟩)
      (attached_iff.1 (by rfl)) (tokenize_lexed _) (parseConstraint_iff.1 (by rfl)) (by rfl)
      (attached_iff.1 (by rfl)) (tokenize_lexed _) (parseConstraint_iff.1 (by rfl)) (by rfl)

/-- C76 applies to the example. -/
example (entry : RtEntry) :
    reasonEntryViolatesConstraint entry (Ex.get ⟨[], []⟩ (p4ToConstraintInfo Ex.sys Ex.redot1)) = .ok [] ↔
    reasonEntryViolatesConstraint (renamedEntry Ex.renaming entry)
      (Ex.get ⟨[], []⟩ (p4ToConstraintInfo Ex.sys Ex.redot2)) = .ok [] :=
  C76_verdict Ex.renaming_oneToOne (Ex.get_of_isOk (by decide +kernel)) (Ex.get_of_isOk (by decide +kernel))
    Ex.redot_renamed (by simp [NonNegProgram, Ex.redot1, Ex.dotted]) entry

/-- An entry of the first program, which is accepted, and the same with the ids of the second. -/
example :
    reasonEntryViolatesConstraint ⟨1, [⟨1, .exact [5]⟩], 0, some (.actionSet [⟨2, [(1, [1])]⟩, ⟨2, [(1, [3])]⟩])⟩
      (Ex.get ⟨[], []⟩ (p4ToConstraintInfo Ex.sys Ex.redot1)) = .ok [] ∧
    renamedEntry Ex.renaming ⟨1, [⟨1, .exact [5]⟩], 0, some (.actionSet [⟨2, [(1, [1])]⟩, ⟨2, [(1, [3])]⟩])⟩ =
      ⟨11, [⟨31, .exact [5]⟩], 0, some (.actionSet [⟨22, [(41, [1])]⟩, ⟨22, [(41, [3])]⟩])⟩ := by
  decide +kernel

/-- Renaming must be one-to-one: the names of two keys must not become the same. -/
example : Ex.isOk (p4ToConstraintInfo Ex.sys ⟨[⟨⟨1, c!"t", []⟩, [⟨1, c!"a", 8, .matchType .exact⟩,
    ⟨2, c!"b", 8, .matchType .exact⟩]⟩], []⟩) = true ∧
    Ex.isOk (p4ToConstraintInfo Ex.sys ⟨[⟨⟨1, c!"t", []⟩, [⟨1, c!"a", 8, .matchType .exact⟩,
    ⟨2, c!"a", 8, .matchType .exact⟩]⟩], []⟩) = false := by
  decide +kernel

end P4C
