import Verif.Proofs.EntryReport2
import Verif.Props.Diagnosis

/-!
# C61: what is reported about an entry that cannot be judged
-/

namespace P4C

open Spec

/-- C61: if there is an error instead of a verdict on an entry, the code and the message of the error describe what is wrong:
the first fault of the entry; the constraint that is not boolean; the first part of the constraint, in the order of
evaluation, that has no value, quoted from the source if it is on one of its lines; or the first fault of the actions of the
entry. This is for widths that are not negative. Missing from the full statement: violated constraints of actions are sometimes
not explained, and the message then says only that an expression is invalid (`C61_fails`); and there may be an error instead of
a verdict after a lone carriage return (`C61_fails_return`). -/
theorem C61_blames_partial {x : EntryTexts} {sys : Sys} {p : P4Info} {ci : ConstraintInfo}
    (h : p4ToConstraintInfo sys p = .ok ci) (hw : NonNegProgram p) {entry : RtEntry} {c : Code} {m : Str}
    (he : reasonEntryViolatesConstraintM x entry ci = .err c m) : EntryError x sys.inetPton6 p entry c m :=
  reasonM_err h hw he

/-- C61: conversely, if there is something to blame, there is no verdict. -/
theorem C61_blamed {x : EntryTexts} {sys : Sys} {p : P4Info} {ci : ConstraintInfo}
    (h : p4ToConstraintInfo sys p = .ok ci) (hw : NonNegProgram p) {entry : RtEntry} {c : Code} {m : Str}
    (hf : EntryError x sys.inetPton6 p entry c m) {r : Str} :
    reasonEntryViolatesConstraintM x entry ci ≠ .ok r :=
  entryError_not_ok h hw hf

/-- C61: the place and the text are determined by the constraint and the entry, and then the constraint has no value. -/
theorem C61_one_place {name : Str} {Γ : Sig} {ρ : Env} {e : Expr} {a b : Loc} {text : Str} (h : Stuck name Γ ρ e a b text) :
    (∀ {a' b' text'}, Stuck name Γ ρ e a' b' text' → a = a' ∧ b = b' ∧ text = text') ∧
    (∀ {s t v}, abs e = some s → ¬ Evaluates Γ ρ s t v) ∧ ∃ u, NodeOf u e ∧ a = u.start ∧ b = u.stop :=
  ⟨stuck_unique h, stuck_no_value h, stuck_node h⟩

/-- C61: if an entry fits its table, the error about the constraint of the table is the one that describes why the constraint
cannot be judged. -/
theorem C61_table {x : EntryTexts} {sys : Sys} {p : P4Info} {ci : ConstraintInfo}
    (h : p4ToConstraintInfo sys p = .ok ci) (hw : NonNegProgram p) {entry : RtEntry}
    {d : TableDecl} {vs : List VarInfo} {src : ConstraintSource} {e : Expr} {s : SExpr} {ρ : Env} {c : Code} {m : Str}
    (hd : d ∈ p.tables) (hid : d.preamble.id = entry.tableId) (hk : Each KeyDecl d.matchFields vs)
    (hr : ReadConstraint sys.inetPton6 .table (keySig vs) d.preamble (some (src, e, s, .boolean)))
    (hf : EntryFits vs entry) (hm : EntryMeans vs entry ρ) (hj : JudgeFault x d.preamble.name src (keySig vs) ρ e c m) :
    reasonEntryViolatesConstraintM x entry ci = .err c m :=
  reasonM_table_fault h hw hd hid hk hr hf hm hj

/-- C61: the same for the first action that does not pass, if the table does. -/
theorem C61_action {x : EntryTexts} {sys : Sys} {p : P4Info} {ci : ConstraintInfo}
    (h : p4ToConstraintInfo sys p = .ok ci) (hw : NonNegProgram p) {entry : RtEntry}
    {d : TableDecl} {pre post : List RtAction} {a : RtAction} {da : ActionDecl}
    {vs : List VarInfo} {src : ConstraintSource} {e : Expr} {s : SExpr} {ρ : Env} {c : Code} {m : Str}
    (hd : d ∈ p.tables) (hid : d.preamble.id = entry.tableId) (hpass : TablePasses sys.inetPton6 d entry)
    (has : actionsOf entry.action = some (pre ++ a :: post))
    (hpre : ∀ b ∈ pre, ∃ d ∈ p.actions, d.preamble.id = b.actionId ∧ ActionPasses sys.inetPton6 d b)
    (hda : da ∈ p.actions) (hida : da.preamble.id = a.actionId) (hk : Each ParamIs da.params vs)
    (hr : ReadConstraint sys.inetPton6 .action (paramSig vs) da.preamble (some (src, e, s, .boolean)))
    (hf : ArgsFit vs a.params) (hm : ActionMeans vs a ρ) (hj : JudgeFault x da.preamble.name src (paramSig vs) ρ e c m) :
    reasonEntryViolatesConstraintM x entry ci = .err c m :=
  reasonM_action_fault h hw hd hid hpass has hpre hda hida hk hr hf hm hj

/-- C61: what is to blame for the want of an explanation is determined by the constraint and the entry, and then there is no
explanation. -/
theorem C61_one_reason {name : Str} {Γ : Sig} {ρ : Env} {e : Expr} {f : Blame} (h : Unexplained name Γ ρ e f) :
    (∀ g, Unexplained name Γ ρ e g → f = g) ∧ ∀ y, ¬ Explained Γ ρ e y :=
  ⟨fun _ hg => unexplained_unique h hg, fun _ hy => unexplained_not_explained h hy⟩

/-- C03: a violated constraint of a table has an explanation, which is then reported (C69), or else there is something to
blame, and then there is an error instead (C61_table); not both (C61_one_reason). -/
theorem C03_exact_table {sys : Sys} {p : P4Info} {ci : ConstraintInfo}
    (h : p4ToConstraintInfo sys p = .ok ci) (hw : NonNegProgram p) {entry : RtEntry}
    {d : TableDecl} {vs : List VarInfo} {src : ConstraintSource} {e : Expr} {s : SExpr} {ρ : Env}
    (hd : d ∈ p.tables) (hk : Each KeyDecl d.matchFields vs)
    (hr : ReadConstraint sys.inetPton6 .table (keySig vs) d.preamble (some (src, e, s, .boolean)))
    (hf : EntryFits vs entry) (hm : EntryMeans vs entry ρ) (hv : Valued (keySig vs) ρ e false) :
    (∃ y, Explained (keySig vs) ρ e y) ∨ ∃ f, Unexplained d.preamble.name (keySig vs) ρ e f :=
  table_explained_or h hw hd hk hr hf hm hv

/-- C03: the same for actions (C61_action). -/
theorem C03_exact_action {sys : Sys} {p : P4Info} {ci : ConstraintInfo}
    (h : p4ToConstraintInfo sys p = .ok ci) (hw : NonNegProgram p) {a : RtAction}
    {d : ActionDecl} {vs : List VarInfo} {src : ConstraintSource} {e : Expr} {s : SExpr} {ρ : Env}
    (hd : d ∈ p.actions) (hk : Each ParamIs d.params vs)
    (hr : ReadConstraint sys.inetPton6 .action (paramSig vs) d.preamble (some (src, e, s, .boolean)))
    (hf : ArgsFit vs a.params) (hm : ActionMeans vs a ρ) (hv : Valued (paramSig vs) ρ e false) :
    (∃ y, Explained (paramSig vs) ρ e y) ∨ ∃ f, Unexplained d.preamble.name (paramSig vs) ρ e f :=
  action_explained_or h hw hd hk hr hf hm hv

/-- C61: the value that evaluation step by step gives is the meaning. -/
theorem C61_evaluates {Γ : Sig} {ρ : Env} {s : SExpr} {t u : Ty} {v w : Value} (h : Evaluates Γ ρ s t v)
    (h' : Means Γ ρ s u w) : t = u ∧ v = w :=
  evaluates_means h h'

/-- C61: the messages modelled here are those of the errors of the other properties. -/
theorem C61_same_errors (x : EntryTexts) (entry : RtEntry) (ci : ConstraintInfo) :
    (reasonEntryViolatesConstraintM x entry ci).erase = reasonEntryViolatesConstraint entry ci :=
  erase_reason x entry ci

/-- Unmodelled texts, for examples. -/
def Ex.entryTexts : EntryTexts :=
  ⟨fun _ _ _ => [], fun _ _ _ => [], fun _ => c!"RET_CHECK: ", fun _ => c!"0", fun _ => [], fun _ => [], fun _ => c!"..",
    fun _ => [], fun _ => c!".."⟩

/-- The answer about an entry. -/
def Ex.answer (tc ac : Str) (entry : RtEntry) : MRes Str :=
  reasonEntryViolatesConstraintM Ex.entryTexts entry (Ex.ci tc ac)

/-- Messages about the entry: an unknown table, an unknown key, a match of another kind, two matches for a key, and a
missing exact match. -/
example :
    Ex.answer c!"ex == 1" c!"true" { tableId := 33554433, matches_ := [] } =
      .err .invalidArgument c!"table entry with unknown table ID 1 (full ID: 33554433 (0x02000001))" ∧
    Ex.answer c!"ex == 1" c!"true" { tableId := 1, matches_ := [⟨9, .exact [1]⟩] } =
      .err .invalidArgument c!"unknown table key with ID 9 (0x00000009);  while parsing P4RT table entry for table 'tbl':" ∧
    Ex.answer c!"ex == 1" c!"true" { tableId := 1, matches_ := [⟨1, .exact [1]⟩, ⟨2, .exact [1]⟩] } =
      .err .internal (c!"RET_CHECK: P4RT table entry inconsistent with P4 program;  " ++
        c!"while parsing P4RT table entry for table 'tbl':") ∧
    Ex.answer c!"ex == 1" c!"true" { tableId := 1, matches_ := [⟨1, .exact [1]⟩, ⟨1, .exact [1]⟩] } =
      .err .invalidArgument (c!"duplicate match on key ex with ID 1 (0x00000001);  " ++
        c!"while parsing P4RT table entry for table 'tbl':") ∧
    Ex.answer c!"ex == 1" c!"true" { tableId := 1, matches_ := [] } =
      .err .invalidArgument c!"missing exact match key 'ex';  while parsing P4RT table entry for table 'tbl':" := by
  decide +kernel

/-- Messages about evaluation: an ordered comparison of exact matches, once needed for the verdict, and once only for the
explanation; an argument that is missing; and about actions. -/
example :
    Ex.answer c!"opt == 3 &&\n ex < 7" c!"true" (Ex.entry 2) = .err .internal
      (c!"In @entry_restriction of table 'tbl'; at offset line 2, columns 2 to 3:\n  | opt == 3 &&\n2 |  ex < 7\n  |  ^^\n" ++
        c!"Runtime type error: expected expression of integral type;  in ordered comparison") ∧
    Ex.answer c!"ex == 1 && ex < 7" c!"true" (Ex.entry 2) = .err .internal
      (c!"In @entry_restriction of table 'tbl'; at offset line 1, columns 12 to 13:\n1 | ex == 1 && ex < 7\n" ++
        c!"  |            ^^\nRuntime type error: expected expression of integral type;  in ordered comparison") ∧
    Ex.answer c!"ex == 2" c!"p == 1 && q == 3"
        { Ex.entry 2 with action := some (.actionSet [⟨8, []⟩, ⟨7, [(1, [1])]⟩]) } = .err .internal
      (c!"In @action_restriction of action 'act'; at offset line 1, column 11:\n1 | p == 1 && q == 3\n  |           ^\n" ++
        c!"Runtime type error: unknown action parameter q in action act") ∧
    Ex.answer c!"ex == 2" c!"p == 1" { Ex.entry 2 with action := some (.action ⟨7, [(1, [1]), (1, [1])]⟩) } =
      .err .invalidArgument
        c!"duplicate action param with ID 1 (0x00000001);  while parsing P4RT table entry for action 'act':" ∧
    Ex.answer c!"ex == 2" c!"p" { Ex.entry 2 with action := some (.action (Ex.action 1 2)) } =
      .err .invalidArgument c!"action act has non-boolean constraint: .." ∧
    Ex.answer c!"ex == 2" c!"p == 1" { Ex.entry 2 with action := some (.actionSet [Ex.action 1 2, ⟨9, []⟩]) } =
      .err .invalidArgument c!"action entry with unknown action ID 9 (0x00000009)" ∧
    Ex.answer c!"ex == 2" c!"p == 1" { Ex.entry 2 with action := some (.memberId 3) } =
      .err .invalidArgument c!"action restrictions not supported for entries with the given kind of action: .." := by
  decide +kernel

/-- The hypotheses hold for this program. -/
theorem Ex.widths : NonNegProgram (Ex.p4info c!"opt == 3 &&\n ex < 7" c!"p == 1") := by
  constructor <;> decide

example : ∃ ci, p4ToConstraintInfo Ex.sys (Ex.p4info c!"opt == 3 &&\n ex < 7" c!"p == 1") = .ok ci :=
  ⟨Ex.ci c!"opt == 3 &&\n ex < 7" c!"p == 1", Ex.get_of_isOk (by decide +kernel)⟩

/-- The ordered comparison is where `opt == 3 && ex < 7` gets stuck, if `opt == 3`. -/
example (i j k l m n o : Info) (hl : k.start = {} ∧ k.stop = {}) :
    let Γ : Sig := ⟨fun s => if s = c!"ex" then some (.exact 32) else some (.optionalMatch 4), fun _ => none⟩
    let ρ : Env := ⟨fun s => if s = c!"ex" then some (.exact 2) else some (.ternary 3 15), fun _ => none, some 10⟩
    Stuck c!"tbl" Γ ρ (.bin i .and (.bin j .eq (.key l c!"opt") (.intConst m c!"3"))
        (.bin n .lt (.key k c!"ex") (.intConst o c!"7"))) {} {}
      c!"expected expression of integral type;  in ordered comparison" := by
  intro Γ ρ
  obtain ⟨h1, h2⟩ := hl
  refine .second (o := .and) (s := .cmp .eq (.key c!"opt") (.int 3)) (x := true) rfl rfl ?_ (by simp [DecidedLeft, Conn.apply]) ?_
  · refine .cmp (t := .optionalMatch 4) (c := true) (.key (t := .optionalMatch 4) (v := .ternary 3 15) (by decide) (by decide))
      (.int 3) ⟨.refl _, ?_, fun _ h _ => h⟩ (by simp) (by decide)
    exact .step (.intBit 4) (.step (.bitOptional 4) (.refl _))
  · have := Stuck.exact (name := c!"tbl") (Γ := Γ) (ρ := ρ) (i := n) (op := .lt) (o := .lt) (l := .key k c!"ex")
      (r := .intConst o c!"7") (s := .key c!"ex") (u := .int 7) (t := .exact 32) (t' := .arbitraryInt) (v := .exact 2) (w := 32)
      rfl rfl rfl rfl (.key (by decide) (by decide)) (.int 7) ?_
    · simpa [Expr.start, Expr.stop, Expr.info, h1, h2, within] using this
    · exact ⟨.refl _, .step (.intBit 32) (.step (.bitExact 32) (.refl _)), fun _ h _ => h⟩

/-- The first parameter is to blame if `p == 1 && q == 3` is not explained, and both comparisons are false. -/
example (i j k l m n o : Info) :
    let Γ : Sig := ⟨fun _ => none, fun _ => some (.fixedUnsigned 8)⟩
    let ρ : Env := ⟨fun _ => none, fun _ => some 5, none⟩
    Unexplained c!"act" Γ ρ (.bin i .and (.bin j .eq (.actionParam k c!"p") (.intConst l c!"1"))
        (.bin m .eq (.actionParam n c!"q") (.intConst o c!"3"))) (.param ⟨k.start, k.stop, .fixedUnsigned 8⟩ c!"p") := by
  intro Γ ρ
  have join : IsJoin (.fixedUnsigned 8) .arbitraryInt (.fixedUnsigned 8) := lub_iff.1 rfl
  refine .sizeLeft (o := .and) (a := false) (b := false) rfl
    ⟨.cmp .eq (.param c!"p") (.int 1), rfl, .cmp (c := false) (.param (z := 5) rfl rfl) (.int 1) join (fun h => by cases h) ?_⟩
    ⟨.cmp .eq (.param c!"q") (.int 3), rfl, .cmp (c := false) (.param (z := 5) rfl rfl) (.int 3) join (fun h => by cases h) ?_⟩
    rfl rfl (.cmp rfl) (.cmp rfl) (.left (.self _ _)) rfl <;> decide

/-- C61 fails: a violated constraint of an action is not explained, and the message does not say what is wrong. -/
theorem C61_fails :
    Ex.answer c!"ex == 2" c!"p == 1 && q == 3" { Ex.entry 2 with action := some (.action (Ex.action 5 5)) } =
      .err .invalidArgument c!"invalid expression: .." := by
  decide +kernel

/-- C61 fails: after a lone carriage return, a violated constraint is not reported as such. The error is about what cannot be
quoted, because the explanation is on the second line, and the code that quotes finds one line only. -/
theorem C61_fails_return (x : EntryTexts) :
    ∃ src a b, src.str = c!"true &&\r ex == 2" ∧ a.line = 1 ∧
      reasonEntryViolatesConstraintM x (Ex.entry 3) (Ex.ci c!"true &&\r ex == 2" c!"p == 1") =
        .err .invalidArgument (x.quoteStatus src a b) :=
  ⟨_, _, _, rfl, rfl, rfl⟩

end P4C
