import Verif.Proofs.Widthless
import Verif.Props.Formula

/-
C90: keys and parameters without bits.
-/

namespace P4C

open Spec

section
variable {sys : Sys} {p : P4Info} {ci : ConstraintInfo} (h : p4ToConstraintInfo sys p = .ok ci) (hw : NonNegProgram p)

include h hw in
/-- C90: if the key `k` is of width 0, an entry satisfies `k == c` iff it omits the key or matches it on zeros only, whatever
the constant `c` is. -/
theorem C90_constant {d : TableDecl} (hd : d ∈ p.tables) {f : MatchField} (hf : f ∈ d.matchFields) (hz : f.bitwidth = 0)
    {e : SExpr} {c : Int} (he : IsInteger e c)
    (hs : TableSays sys.inetPton6 d (.cmp .eq (.key f.name) e)) {vs : List VarInfo}
    (hv : Each KeyDecl d.matchFields vs) {entry : RtEntry} (hfit : EntryFits vs entry) (hid : entry.tableId = d.preamble.id)
    (ha : entry.action = none) :
    reasonEntryViolatesConstraint entry ci = .ok [] ↔ OmittedOrZero f entry :=
  widthless_reason h hw hd hv hfit hid ha hf hz he hs

include h hw in
/-- C90: the same for parameters of actions: an entry that invokes an action whose constraint is `x == c` for a parameter `x` of
width 0 is accepted iff it is without the action, and the argument consists of zeros only, whatever `c` is. -/
theorem C90_argument {d : ActionDecl} (hd : d ∈ p.actions) {f : ParamDecl} (hf : f ∈ d.params) (hn : f.typeName = [])
    (hz : f.bitwidth = 0) {e : SExpr} {c : Int} (he : IsInteger e c)
    (hs : ActionSays sys.inetPton6 d (.cmp .eq (.param f.name) e)) {vs : List VarInfo} (hv : Each ParamIs d.params vs)
    {a : RtAction} (hfit : ActionFits vs a) (hid : a.actionId = d.preamble.id) {entry : RtEntry}
    (ha : entry.action = some (.action a)) :
    reasonEntryViolatesConstraint entry ci = .ok [] ↔
      reasonEntryViolatesConstraint { entry with action := none } ci = .ok [] ∧ ∀ v, (f.id, v) ∈ a.params → AllZero v := by
  rw [C86_actions h hw (entry := entry) (as := [a]) (by rw [ha]; rfl)
    (P := fun a => ∃ w m w' n, NumberIn (ArgNumber d.params a) (.param f.name) w m ∧ NumberIn (ArgNumber d.params a) e w' n ∧
      Cmp.eq.ofInts (reduced w w' m) (reduced w' w n)) ?_]
  · simp only [List.mem_singleton, forall_eq, argument_zero h hd hf hn hz he hv hfit]
  · intro a' ha'
    cases List.mem_singleton.1 ha'
    exact ⟨d, hd, vs, _, hv, hfit, hid, hs, .compare .eq (.var (.param _)) (integer_number he)⟩

end

/-! ### Examples -/

/-- A table with a key, and an action with a parameter, whose values are strings. -/
def Ex.nameTable (text : Str) : TableDecl :=
  ⟨⟨1, c!"tbl", [c!"@entry_restriction(\"" ++ text ++ c!"\")"]⟩, [⟨1, c!"port", 0, .matchType .optional⟩]⟩

def Ex.nameAction (text : Str) : ActionDecl :=
  ⟨⟨7, c!"act", [c!"@action_restriction(\"" ++ text ++ c!"\")"]⟩, [⟨1, c!"port", 0, []⟩]⟩

def Ex.nameInfo (t a : Str) : P4Info := ⟨[Ex.nameTable t], [Ex.nameAction a]⟩

def Ex.nameCi (t a : Str) : ConstraintInfo := Ex.get ⟨[], []⟩ (p4ToConstraintInfo Ex.sys (Ex.nameInfo t a))

theorem Ex.nameNonNeg (t a : Str) : NonNegProgram (Ex.nameInfo t a) := by
  constructor
  · intro d hd f hf
    cases List.mem_singleton.1 hd
    cases List.mem_singleton.1 hf
    decide
  · intro d hd f hf
    cases List.mem_singleton.1 hd
    cases List.mem_singleton.1 hf
    decide

def Ex.nameKeys : List VarInfo := [⟨1, c!"port", .optionalMatch 0⟩]

theorem Ex.nameSays : TableSays Ex.sys.inetPton6 (Ex.nameTable c!"port == 5") (.cmp .eq (.key c!"port") (.int 5)) :=
  ⟨Ex.nameKeys, _, _, .cons (.optional ..) .nil, .some (attached_iff.1 (by rfl))
    (tokenize_iff (src := ⟨c!"port == 5", { src := .tableName c!"tbl" }⟩).1 rfl)
    (parseConstraint_iff.1 (Ex.get_of_isOk (d := .notSet {}) (by decide +kernel))) (by decide +kernel)
    (.cmp (.key (by rfl) ⟨by nofun, by nofun⟩) (.int 5) ((lub_iff (t := .optionalMatch 0)).1 (by decide +kernel)) (by nofun))⟩

/-- The entry that matches the key `port` on the string "5" violates `port == 5`. -/
example : ¬ reasonEntryViolatesConstraint { tableId := 1, matches_ := [⟨1, .optional [0x35]⟩] } (Ex.nameCi c!"port == 5" c!"true") = .ok [] := by
  rw [C90_constant (sys := Ex.sys) (p := Ex.nameInfo c!"port == 5" c!"true") (ci := Ex.nameCi c!"port == 5" c!"true") (Ex.get_of_isOk (by decide +kernel)) (Ex.nameNonNeg _ _)
    (d := Ex.nameTable c!"port == 5") List.mem_cons_self (f := ⟨1, c!"port", 0, .matchType .optional⟩) List.mem_cons_self rfl
    (.int 5) Ex.nameSays (vs := Ex.nameKeys) (.cons (.optional ..) .nil) ⟨?_, by decide, ?_⟩ rfl rfl]
  · intro h
    cases h _ List.mem_cons_self rfl with
    | optional h => exact absurd (h _ List.mem_cons_self) (by decide)
  · intro m hm
    cases List.mem_singleton.1 hm
    exact ⟨_, List.mem_cons_self, rfl, _, .optional 0 _⟩
  · intro ki hk
    cases List.mem_singleton.1 hk
    exact .inl ⟨_, List.mem_cons_self, rfl⟩

/-- The entry that omits the key satisfies `port == 5`. -/
example : reasonEntryViolatesConstraint { tableId := 1, matches_ := [] } (Ex.nameCi c!"port == 5" c!"true") = .ok [] := by
  refine (C90_constant (sys := Ex.sys) (p := Ex.nameInfo c!"port == 5" c!"true") (ci := Ex.nameCi c!"port == 5" c!"true") (Ex.get_of_isOk (by decide +kernel)) (Ex.nameNonNeg _ _)
    (d := Ex.nameTable c!"port == 5") List.mem_cons_self (f := ⟨1, c!"port", 0, .matchType .optional⟩) List.mem_cons_self rfl
    (.int 5) Ex.nameSays (vs := Ex.nameKeys) (.cons (.optional ..) .nil) ⟨fun m hm => absurd hm List.not_mem_nil, by decide, ?_⟩ rfl rfl).2 (fun m hm => absurd hm List.not_mem_nil)
  intro ki hk
  cases List.mem_singleton.1 hk
  exact .inr ⟨_, .optional _⟩

theorem Ex.nameActionSays : ActionSays Ex.sys.inetPton6 (Ex.nameAction c!"port == -3") (.cmp .eq (.param c!"port") (.neg (.int 3))) :=
  ⟨[⟨1, c!"port", .fixedUnsigned 0⟩], _, _, .cons (.bits ..) .nil, .some (attached_iff.1 (by rfl))
    (tokenize_iff (src := ⟨c!"port == -3", { src := .actionName c!"act" }⟩).1 rfl)
    (parseConstraint_iff.1 (Ex.get_of_isOk (d := .notSet {}) (by decide +kernel))) (by decide +kernel)
    (.cmp (.param (by rfl) ⟨by nofun, by nofun⟩) (.neg (.int 3)) ((lub_iff (t := .fixedUnsigned 0)).1 (by decide +kernel)) (by nofun))⟩

/-- Whether an entry satisfies `port == -3` where the argument is the string of the bytes `b` and 0: if `b` is 0. -/
example (b : UInt8) : reasonEntryViolatesConstraint { tableId := 1, matches_ := [], action := some (.action ⟨7, [(1, [b, 0])]⟩) }
    (Ex.nameCi c!"true" c!"port == -3") = .ok [] ↔ b = 0 := by
  rw [C90_argument (sys := Ex.sys) (p := Ex.nameInfo c!"true" c!"port == -3") (ci := Ex.nameCi c!"true" c!"port == -3") (Ex.get_of_isOk (by decide +kernel)) (Ex.nameNonNeg _ _)
    (d := Ex.nameAction c!"port == -3") List.mem_cons_self (f := ⟨1, c!"port", 0, []⟩) List.mem_cons_self rfl rfl
    (.neg (.int 3)) Ex.nameActionSays (vs := [⟨1, c!"port", .fixedUnsigned 0⟩]) (.cons (.bits ..) .nil)
    (a := ⟨7, [(1, [b, 0])]⟩) ⟨?_, by simp, ?_⟩ rfl rfl]
  · constructor
    · rintro ⟨_, h⟩
      exact h [b, 0] List.mem_cons_self b List.mem_cons_self
    · rintro rfl
      refine ⟨by decide +kernel, fun v hv c hc => ?_⟩
      cases List.mem_singleton.1 hv
      simpa using hc
  · intro q hq
    cases List.mem_singleton.1 hq
    exact ⟨_, List.mem_cons_self, rfl⟩
  · intro pi hp
    cases List.mem_singleton.1 hp
    exact ⟨_, List.mem_cons_self⟩

end P4C
