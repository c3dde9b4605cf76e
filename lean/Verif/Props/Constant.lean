import Verif.Proofs.Constant
import Verif.Props.Exchange

/-
C82 and C83: comparing keys and their fields with constants.
-/

namespace P4C

open Spec

/-- C82, the part that holds: an entry satisfies `k == c` iff it matches `k` on `c` modulo 2^W and nothing else. Missing:
`true` and `false` as constants, see `C82_fails`. -/
theorem C82_equals_partial {sys : Sys} {p : P4Info} {ci : ConstraintInfo} (h : p4ToConstraintInfo sys p = .ok ci)
    (hw : NonNegProgram p) {d : TableDecl} (hd : d ∈ p.tables) {f : MatchField} (hf : f ∈ d.matchFields) (hpos : 0 < f.bitwidth)
    {e : SExpr} {c : Int} (he : IsInteger e c)
    (hs : TableSays sys.inetPton6 d (.cmp .eq (.key f.name) e)) {vs : List VarInfo}
    (hv : Each KeyDecl d.matchFields vs) {entry : RtEntry} (hfit : EntryFits vs entry) (hid : entry.tableId = d.preamble.id)
    (ha : entry.action = none) :
    reasonEntryViolatesConstraint entry ci = .ok [] ↔
      ∃ m ∈ entry.matches_, m.fieldId = f.id ∧ MatchesOnly f m.val (c % 2 ^ f.bitwidth.toNat) :=
  equals_reason h hw hd hv hfit hid ha hf hpos he hs

/-- C82 is false for `true` and `false`: a program in which a constraint of a table compares a key, or anything else that
is not boolean, with one of them is not accepted. -/
theorem C82_fails {sys : Sys} {p : P4Info} {d : TableDecl} (hd : d ∈ p.tables) {s x : SExpr}
    (hs : Spelled sys.inetPton6 .table d.preamble s) (hx : Contains s x) (hb : WithBool x) :
    ¬ ∃ ci, p4ToConstraintInfo sys p = .ok ci := by
  intro h
  obtain ⟨vs, r, h1, _, h2⟩ := (p4ToConstraintInfo_succeeds.1 h).2.2.1 d hd
  obtain ⟨t, ht⟩ := spelled_read hs h2
  obtain ⟨u, hu⟩ := contains_typed hx ht
  exact withBool_untyped (keySig_noBool h1) hb u hu

/-- C82: the same for parameters of actions. -/
theorem C82_fails_action {sys : Sys} {p : P4Info} {d : ActionDecl} (hd : d ∈ p.actions) {s x : SExpr}
    (hs : Spelled sys.inetPton6 .action d.preamble s) (hx : Contains s x) (hb : WithBool x) :
    ¬ ∃ ci, p4ToConstraintInfo sys p = .ok ci := by
  intro h
  obtain ⟨vs, r, h1, _, h2⟩ := (p4ToConstraintInfo_succeeds.1 h).2.2.2 d hd
  obtain ⟨t, ht⟩ := spelled_read hs h2
  obtain ⟨u, hu⟩ := contains_typed hx ht
  exact withBool_untyped (paramSig_noBool h1) hb u hu

section
variable {sys : Sys} {p : P4Info} {ci : ConstraintInfo} (h : p4ToConstraintInfo sys p = .ok ci) (hw : NonNegProgram p)
  {d : TableDecl} (hd : d ∈ p.tables) {vs : List VarInfo} (hv : Each KeyDecl d.matchFields vs) {entry : RtEntry}
  (hfit : EntryFits vs entry) (hid : entry.tableId = d.preamble.id) (ha : entry.action = none)

include h hw hd hv hfit hid ha in
/-- C83: an entry satisfies `k::g o c` iff the number in the field `g` of its match for `k` compares to `c` like this. -/
theorem C83_field {f : MatchField} (hf : f ∈ d.matchFields) {o : Cmp} {g : Str} {e : SExpr} {c : Int} (he : IsInteger e c)
    (hs : TableSays sys.inetPton6 d (.cmp o (.field (.key f.name) g) e)) :
    reasonEntryViolatesConstraint entry ci = .ok [] ↔ ∃ z, FieldNumber f g entry z ∧ o.ofInts z (written f g c) :=
  field_reason h hw hd hv hfit hid ha hf he hs

include h hd hv hfit in
/-- C83: this number exists and is unique. -/
theorem C83_number {f : MatchField} (hf : f ∈ d.matchFields) {g : Str} (hg : HasField f.kind g) :
    ∃ z, ∀ y, FieldNumber f g entry y ↔ y = z := fieldNumber_exists (declared_distinct h hd hv) hv hfit hf hg

include h hd in
/-- C83: other fields than those documented can not be used. -/
theorem C83_fields {f : MatchField} (hf : f ∈ d.matchFields) {g : Str} {s : SExpr} (hs : Spelled sys.inetPton6 .table d.preamble s)
    (hc : Contains s (.field (.key f.name) g)) : HasField f.kind g := by
  obtain ⟨vs, r, h1, h2, h3⟩ := (p4ToConstraintInfo_succeeds.1 ⟨ci, h⟩).2.2.1 d hd
  obtain ⟨t, ht⟩ := spelled_read hs h3
  exact field_exists h2 h1 hf ht hc

include h hw hd hv hfit hid ha in
/-- C83: masks of optional matches are 0 or -1. -/
theorem C83_optional {id : Nat} {name : Str} {w : Int} (hf : ⟨id, name, w, .matchType .optional⟩ ∈ d.matchFields)
    (hs : TableSays sys.inetPton6 d (.conn .or (.cmp .eq (.field (.key name) c!"mask") (.int 0))
      (.cmp .eq (.field (.key name) c!"mask") (.neg (.int 1))))) :
    reasonEntryViolatesConstraint entry ci = .ok [] := optional_reason h hw hd hv hfit hid ha hf hs

end

/-! ### Examples -/

theorem Ex.spelled {text : Str} {loc : Loc} {x : SExpr}
    (ha : extractConstraint .table (Ex.tableDecl text).preamble = .ok (some ⟨text, loc⟩))
    (h : abs (Ex.get (.notSet {}) (parseConstraint Ex.sys .table ⟨text, loc⟩)) = some x)
    (hok : Ex.isOk (parseConstraint Ex.sys .table ⟨text, loc⟩) = true) :
    Spelled Ex.sys.inetPton6 .table (Ex.tableDecl text).preamble x :=
  ⟨_, _, _, attached_iff.1 ha, tokenize_iff (src := ⟨text, loc⟩).1 rfl,
    parseConstraint_iff.1 (Ex.get_of_isOk (d := .notSet {}) hok), h⟩

/-- The entry with the value 3 for the key `opt` of 4 bits satisfies `opt == 0x13`. -/
example : reasonEntryViolatesConstraint (Ex.entry 2) (Ex.ci c!"opt == 0x13" c!"true") = .ok [] := by
  have hs : TableSays Ex.sys.inetPton6 (Ex.tableDecl c!"opt == 0x13") (.cmp .eq (.key c!"opt") (.int 19)) := by
    obtain ⟨src, ts, e, h1, h2, h3, h4⟩ := Ex.spelled (text := c!"opt == 0x13") (loc := { src := .tableName c!"tbl" })
      (x := .cmp .eq (.key c!"opt") (.int 19)) (by decide +kernel) (by decide +kernel) (by decide +kernel)
    exact ⟨Ex.keys, src, e, Ex.keysDeclared _, .some h1 h2 h3 h4
      (.cmp (.key (by rfl) ⟨by nofun, by nofun⟩) (.int 19) ((lub_iff (t := .optionalMatch 4)).1 (by decide +kernel)) (by nofun))⟩
  refine (C82_equals_partial (sys := Ex.sys) (p := Ex.p4info c!"opt == 0x13" c!"true") (Ex.get_of_isOk (by decide +kernel))
    (Ex.nonNeg _ _) (d := Ex.tableDecl c!"opt == 0x13") List.mem_cons_self (f := ⟨5, c!"opt", 4, .matchType .optional⟩)
    (by decide +kernel) (by decide) (.int 19) hs (Ex.keysDeclared _) (Ex.entryFits 2) rfl rfl).2 ?_
  exact ⟨⟨5, .optional [3]⟩, by decide +kernel, rfl, .optional (by decide +kernel)⟩

/-- The constraint `ex == 2 || !(opt == true)` is not accepted. -/
example : ¬ ∃ ci, p4ToConstraintInfo Ex.sys (Ex.p4info c!"ex == 2 || !(opt == true)" c!"true") = .ok ci :=
  C82_fails (d := Ex.tableDecl c!"ex == 2 || !(opt == true)") List.mem_cons_self
    (Ex.spelled (loc := { src := .tableName c!"tbl" })
      (x := .conn .or (.cmp .eq (.key c!"ex") (.int 2)) (.not (.cmp .eq (.key c!"opt") (.bool true))))
      (by decide +kernel) (by decide +kernel) (by decide +kernel))
    (.connR (.not .here)) (.right _ _ (.key _))

/-- C82: a key of one bit, compared with `true`. -/
theorem C82_bool_key :
    p4ToConstraintInfo Ex.sys ⟨[⟨⟨1, c!"t", [c!"@entry_restriction(\"k == true\")"]⟩, [⟨1, c!"k", 1, .matchType .exact⟩]⟩], []⟩ =
      .err .invalidArgument ∧
    Ex.isOk (p4ToConstraintInfo Ex.sys
      ⟨[⟨⟨1, c!"t", [c!"@entry_restriction(\"k == 1\")"]⟩, [⟨1, c!"k", 1, .matchType .exact⟩]⟩], []⟩) = true :=
  ⟨by rfl, by decide +kernel⟩

theorem Ex.saysField : TableSays Ex.sys.inetPton6 (Ex.tableDecl c!"ran::high >= -2")
    (.cmp .ge (.field (.key c!"ran") c!"high") (.neg (.int 2))) := by
  obtain ⟨src, ts, e, h1, h2, h3, h4⟩ := Ex.spelled (text := c!"ran::high >= -2") (loc := { src := .tableName c!"tbl" })
    (x := .cmp .ge (.field (.key c!"ran") c!"high") (.neg (.int 2))) (by decide +kernel) (by decide +kernel) (by decide +kernel)
  exact ⟨Ex.keys, src, e, Ex.keysDeclared _, .some h1 h2 h3 h4 (.cmp (.field (.key (by rfl) ⟨by nofun, by nofun⟩) (.rangeHigh 8))
    (.neg (.int 2)) (join_bit 8) (fun _ => .bit 8))⟩

/-- The entry omits the range of 8 bits, which is from 0 to 255, and so satisfies `ran::high >= -2`, where -2 is 254. -/
example : reasonEntryViolatesConstraint (Ex.entry 2) (Ex.ci c!"ran::high >= -2" c!"true") = .ok [] := by
  refine (C83_field (sys := Ex.sys) (p := Ex.p4info c!"ran::high >= -2" c!"true") (Ex.get_of_isOk (by decide +kernel))
    (Ex.nonNeg _ _) (d := Ex.tableDecl c!"ran::high >= -2") List.mem_cons_self (Ex.keysDeclared _) (Ex.entryFits 2) rfl rfl
    (f := ⟨4, c!"ran", 8, .matchType .range⟩) (by decide +kernel) (.neg (.int 2)) Ex.saysField).2 ?_
  exact ⟨2 ^ 8 - 1, .inr ⟨by decide +kernel, .rangeHigh⟩, (by decide +kernel : (254 : Int) ≤ 255)⟩

/-- The field of the constraint is one of those documented. -/
example : HasField (.matchType .range) c!"high" :=
  C83_fields (sys := Ex.sys) (p := Ex.p4info c!"ran::high >= -2" c!"true") (ci := Ex.ci c!"ran::high >= -2" c!"true")
    (Ex.get_of_isOk (by decide +kernel)) (d := Ex.tableDecl c!"ran::high >= -2") List.mem_cons_self
    (f := ⟨4, c!"ran", 8, .matchType .range⟩) (by decide +kernel) (Ex.spelled (loc := { src := .tableName c!"tbl" })
      (x := .cmp .ge (.field (.key c!"ran") c!"high") (.neg (.int 2))) (by decide +kernel) (by decide +kernel) (by decide +kernel))
    (.cmpL .here)

/-- The mask of the optional match is 0 or -1. -/
example : reasonEntryViolatesConstraint (Ex.entry 2) (Ex.ci c!"opt::mask == 0 || opt::mask == -1" c!"true") = .ok [] := by
  refine C83_optional (sys := Ex.sys) (p := Ex.p4info c!"opt::mask == 0 || opt::mask == -1" c!"true")
    (Ex.get_of_isOk (by decide +kernel)) (Ex.nonNeg _ _) (d := Ex.tableDecl c!"opt::mask == 0 || opt::mask == -1")
    List.mem_cons_self (Ex.keysDeclared _) (Ex.entryFits 2) rfl rfl (id := 5) (name := c!"opt") (w := 4) (by decide +kernel) ?_
  obtain ⟨src, ts, e, h1, h2, h3, h4⟩ := Ex.spelled (text := c!"opt::mask == 0 || opt::mask == -1")
    (loc := { src := .tableName c!"tbl" })
    (x := .conn .or (.cmp .eq (.field (.key c!"opt") c!"mask") (.int 0)) (.cmp .eq (.field (.key c!"opt") c!"mask") (.neg (.int 1))))
    (by decide +kernel) (by decide +kernel) (by decide +kernel)
  have hf : HasTy (keySig Ex.keys) (.field (.key c!"opt") c!"mask") (.fixedUnsigned 4) :=
    .field (.key (by rfl) ⟨by nofun, by nofun⟩) (.optionalMask 4)
  exact ⟨Ex.keys, src, e, Ex.keysDeclared _, .some h1 h2 h3 h4
    (.conn (.cmp hf (.int 0) (join_bit 4) (by nofun)) (.cmp hf (.neg (.int 1)) (join_bit 4) (by nofun)))⟩

/-- C83: the well-formedness of matches is assumed, as documented, and not enforced. There are entries that satisfy
constraints which only malformed matches can: a ternary match with bits that are masked off, a range from 2 to 1 and a prefix
length larger than the width. -/
theorem C83_unenforced :
    reasonEntryViolatesConstraint
      { tableId := 1, matches_ := [⟨1, .exact [2]⟩, ⟨2, .ternary [255] [0]⟩, ⟨3, .lpm [1] 17⟩, ⟨4, .range [2] [1]⟩], priority := 10 }
      (Ex.ci c!"tern::value == 255; tern::mask == 0; pre::prefix_length > 16; ran::low == 2; ran::high == 1" c!"true") = .ok [] := by
  decide +kernel

end P4C
