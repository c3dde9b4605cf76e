import Verif.Proofs.Exchange
import Verif.Proofs.Express
import Verif.Props.Compose

/-!
# C81: equivalent parts can be exchanged
-/

namespace P4C

open Spec

section
variable {sys : Sys} {ts : List TableDecl} {as : List ActionDecl} {a b : Str} {d d' : TableDecl} {ci ci' : ConstraintInfo}

/-- C81: a part `(a)` of the constraint of a table can be exchanged for a part `(b)` of the same type: one program is accepted
if and only if the other one is. -/
theorem C81_accepted (h : TableExchanged a b d d') (ht : SameType sys.inetPton6 d a b) :
    (∃ ci, p4ToConstraintInfo sys ⟨d :: ts, as⟩ = .ok ci) ↔ ∃ ci, p4ToConstraintInfo sys ⟨d' :: ts, as⟩ = .ok ci := by
  have key : ∀ {a b : Str} {d d' : TableDecl}, TableExchanged a b d d' → SameType sys.inetPton6 d a b →
      (∃ ci, p4ToConstraintInfo sys ⟨d :: ts, as⟩ = .ok ci) → ∃ ci, p4ToConstraintInfo sys ⟨d' :: ts, as⟩ = .ok ci := by
    intro a b d d' h ht hok
    rw [p4ToConstraintInfo_succeeds] at hok ⊢
    obtain ⟨h1, h2, h3, h4⟩ := hok
    refine ⟨?_, h2, List.forall_mem_cons.2 ⟨goodTable_exchanged h ht (h3 d (by simp)), fun x hx => h3 x (List.mem_cons_of_mem _ hx)⟩, h4⟩
    simpa [h.ids] using h1
  exact ⟨key h ht, key (tableExchanged_symm h) (sameType_symm h.keys ht)⟩

/-- C81: if the parts also have the same value for an entry, or both have none, then the entry satisfies one constraint if and
only if it satisfies the other one. -/
theorem C81_verdict (hw : NonNegProgram ⟨d :: ts, as⟩) (hd : p4ToConstraintInfo sys ⟨d :: ts, as⟩ = .ok ci)
    (hd' : p4ToConstraintInfo sys ⟨d' :: ts, as⟩ = .ok ci') {entry : RtEntry} (h : TableExchanged a b d d')
    (hv : SameValue sys.inetPton6 d entry a b) :
    reasonEntryViolatesConstraint entry ci = .ok [] ↔ reasonEntryViolatesConstraint entry ci' = .ok [] := by
  have hw' := nonNeg_keys h.keys.symm hw
  by_cases hid : entry.tableId = d.preamble.id
  · have e : TableValue sys.inetPton6 d entry true ↔ TableValue sys.inetPton6 d' entry true :=
      ⟨tableValue_exchanged h hv true, tableValue_exchanged (tableExchanged_symm h) (sameValue_symm h.keys hv) true⟩
    obtain ⟨hi, hk, p, s, s1, s2, _⟩ := h
    rw [(verdict_here hd hw s1 hid).1, (verdict_here hd' hw' s2 (hid.trans hi)).1, e]
  · rw [verdict_elsewhere hd hw hid, verdict_elsewhere hd' hw' (h.ids ▸ hid)]

/-- C81: in particular no two reports disagree. -/
theorem C81_reports (hw : NonNegProgram ⟨d :: ts, as⟩) (hd : p4ToConstraintInfo sys ⟨d :: ts, as⟩ = .ok ci)
    (hd' : p4ToConstraintInfo sys ⟨d' :: ts, as⟩ = .ok ci') {entry : RtEntry} (h : TableExchanged a b d d')
    (hv : SameValue sys.inetPton6 d entry a b) {m m' : Str} (h1 : reasonEntryViolatesConstraint entry ci = .ok m)
    (h2 : reasonEntryViolatesConstraint entry ci' = .ok m') : m = [] ↔ m' = [] := by
  have := C81_verdict hw hd hd' h hv
  rw [h1, h2] at this
  simpa using this

end

section
variable {sys : Sys} {ts : List TableDecl} {as : List ActionDecl} {a b : Str} {d d' : ActionDecl} {ci ci' : ConstraintInfo}

/-- C81 for actions: acceptance of the program. -/
theorem C81_action_accepted (h : ActionExchanged a b d d') (ht : SameArgType sys.inetPton6 d a b) :
    (∃ ci, p4ToConstraintInfo sys ⟨ts, d :: as⟩ = .ok ci) ↔ ∃ ci, p4ToConstraintInfo sys ⟨ts, d' :: as⟩ = .ok ci := by
  have key : ∀ {a b : Str} {d d' : ActionDecl}, ActionExchanged a b d d' → SameArgType sys.inetPton6 d a b →
      (∃ ci, p4ToConstraintInfo sys ⟨ts, d :: as⟩ = .ok ci) → ∃ ci, p4ToConstraintInfo sys ⟨ts, d' :: as⟩ = .ok ci := by
    intro a b d d' h ht hok
    rw [p4ToConstraintInfo_succeeds] at hok ⊢
    obtain ⟨h1, h2, h3, h4⟩ := hok
    refine ⟨h1, ?_, h3, List.forall_mem_cons.2 ⟨goodAction_exchanged h ht (h4 d (by simp)), fun x hx => h4 x (List.mem_cons_of_mem _ hx)⟩⟩
    simpa [h.ids] using h2
  exact ⟨key h ht, key (actionExchanged_symm h) (sameArgType_symm h.params ht)⟩

/-- C81 for actions: verdicts. -/
theorem C81_action_verdict (hw : NonNegProgram ⟨ts, d :: as⟩) (hd : p4ToConstraintInfo sys ⟨ts, d :: as⟩ = .ok ci)
    (hd' : p4ToConstraintInfo sys ⟨ts, d' :: as⟩ = .ok ci') {i : RtAction} (h : ActionExchanged a b d d')
    (hv : SameArgValue sys.inetPton6 d i a b) : reasonAction i ci = .ok [] ↔ reasonAction i ci' = .ok [] := by
  have hw' := nonNeg_params h.params.symm hw
  by_cases hid : i.actionId = d.preamble.id
  · have e : ActionValue sys.inetPton6 d i true ↔ ActionValue sys.inetPton6 d' i true :=
      ⟨actionValue_exchanged h hv true, actionValue_exchanged (actionExchanged_symm h) (sameArgValue_symm h.params hv) true⟩
    obtain ⟨hi, hk, p, s, s1, s2, _⟩ := h
    rw [(actionVerdict_here hd hw s1 hid).1, (actionVerdict_here hd' hw' s2 (hid.trans hi)).1, e]
  · rw [actionVerdict_elsewhere hd hw hid, actionVerdict_elsewhere hd' hw' (h.ids ▸ hid)]

end

/-! ### Examples -/

theorem Ex.partSays {k : ConstraintKind} {Γ : Sig} {text : Str} {x : SExpr} {t : Ty}
    (h : abs (Ex.get (.notSet {}) (parseConstraint Ex.sys k ⟨text, {}⟩)) = some x)
    (hok : Ex.isOk (parseConstraint Ex.sys k ⟨text, {}⟩) = true) (ht : HasTy Γ x t) : PartSays Ex.sys.inetPton6 k Γ text x t :=
  ⟨_, _, tokenize_iff (src := ⟨text, {}⟩).1 rfl, parseConstraint_iff.1 (Ex.get_of_isOk (d := .notSet {}) hok), h, ht⟩

/-- The part `ex == 2 // two` of a constraint, exchanged for `!(ex != 0x2)`. -/
theorem Ex.exchangedTables : TableExchanged c!"ex == 2 // two" c!"!(ex != 0x2)"
    (Ex.tableDecl (enclosed c!"opt == 3 &&" c!"ex == 2 // two" c!"|| false"))
    (Ex.tableDecl (enclosed c!"opt == 3 &&" c!"!(ex != 0x2)" c!"|| false")) := by
  refine ⟨rfl, rfl, c!"opt == 3 &&", c!"|| false", ?_, ?_, ?_, ?_, ?_⟩
  · exact Ex.says (src := ⟨enclosed c!"opt == 3 &&" c!"ex == 2 // two" c!"|| false", { src := .tableName c!"tbl" }⟩) (by decide +kernel) rfl
  · exact Ex.says (src := ⟨enclosed c!"opt == 3 &&" c!"!(ex != 0x2)" c!"|| false", { src := .tableName c!"tbl" }⟩) (by decide +kernel) rfl
  · exact lexed_closed (tokenize_lexed ⟨c!"opt == 3 &&", {}⟩)
      ⟨(tokenize ⟨c!"opt == 3 &&", {}⟩).getLast (by decide +kernel), by rw [List.getLast?_eq_some_getLast], by decide +kernel⟩
      (Ex.notInfix (by decide +kernel))
  · exact C66_closed (sys := Ex.sys) (k := .table) (src := ⟨c!"ex == 2 // two", {}⟩)
      (e := Ex.get (.notSet {}) (parseConstraint Ex.sys .table ⟨c!"ex == 2 // two", {}⟩))
      (Ex.get_of_isOk (by decide +kernel)) (Ex.notInfix (by decide +kernel))
  · exact C66_closed (sys := Ex.sys) (k := .table) (src := ⟨c!"!(ex != 0x2)", {}⟩)
      (e := Ex.get (.notSet {}) (parseConstraint Ex.sys .table ⟨c!"!(ex != 0x2)", {}⟩))
      (Ex.get_of_isOk (by decide +kernel)) (Ex.notInfix (by decide +kernel))

theorem Ex.evaluates_ne {Γ : Sig} {ρ : Env} {l r : SExpr} {v : Value} :
    Evaluates Γ ρ (.cmp .eq l r) .boolean v ↔ Evaluates Γ ρ (.not (.cmp .ne l r)) .boolean v := by
  have h1 : ∀ a b c, compareVals .eq a b = some c → compareVals .ne a b = some (!c) := by
    intro a b c h
    cases a <;> cases b <;> simp_all [compareVals] <;> grind
  have h2 : ∀ a b c, compareVals .ne a b = some c → compareVals .eq a b = some (!c) := by
    intro a b c h
    cases a <;> cases b <;> simp_all [compareVals] <;> grind
  constructor
  · intro h
    cases h with
    | @cmp _ _ _ _ _ _ _ _ c e1 e2 e3 e4 e5 =>
      rw [← Bool.not_not c]
      exact .not (.cmp e1 e2 e3 (by nofun) (h1 _ _ _ e5))
  · intro h
    cases h with
    | not h =>
      cases h with
      | cmp e1 e2 e3 e4 e5 => exact .cmp e1 e2 e3 (by nofun) (h2 _ _ _ e5)

theorem Ex.exchanged_same (tc : Str) (entry : RtEntry) :
    SameValue Ex.sys.inetPton6 (Ex.tableDecl tc) entry c!"ex == 2 // two" c!"!(ex != 0x2)" := by
  have hk : HasTy (keySig Ex.keys) (.key c!"ex") (.exact 32) := .key (by rfl) ⟨by nofun, by nofun⟩
  have hj : IsJoin (.exact 32) .arbitraryInt (.exact 32) := lub_iff.1 (by decide +kernel)
  refine ⟨Ex.keys, .cmp .eq (.key c!"ex") (.int 2), .not (.cmp .ne (.key c!"ex") (.int 2)), .boolean, Ex.keysDeclared _,
    Ex.partSays (by decide +kernel) (by decide +kernel) (.cmp hk (.int 2) hj (by nofun)),
    Ex.partSays (by decide +kernel) (by decide +kernel) (.not (.cmp hk (.int 2) hj (by nofun))),
    fun ρ _ v => Ex.evaluates_ne⟩

/-- The entry satisfies the constraint, so also the one with the part exchanged. -/
example : reasonEntryViolatesConstraint (Ex.entry 2)
    (Ex.ci (enclosed c!"opt == 3 &&" c!"!(ex != 0x2)" c!"|| false") c!"true") = .ok [] :=
  (C81_verdict (ts := [Ex.freeTable]) (as := [Ex.actionDecl c!"true", Ex.freeAction]) (Ex.nonNeg _ _)
    (ci := Ex.ci (enclosed c!"opt == 3 &&" c!"ex == 2 // two" c!"|| false") c!"true")
    (Ex.get_of_isOk (by decide +kernel)) (Ex.get_of_isOk (by decide +kernel)) Ex.exchangedTables (Ex.exchanged_same _ _)).1
    (by decide +kernel)

/-- The same for an action. -/
theorem Ex.exchangedActions : ActionExchanged c!"p == 1" c!"!(p != 1)"
    (Ex.actionDecl (enclosed c!"q > 2 ->" c!"p == 1" c!"")) (Ex.actionDecl (enclosed c!"q > 2 ->" c!"!(p != 1)" c!"")) := by
  refine ⟨rfl, rfl, c!"q > 2 ->", c!"", ?_, ?_, ?_, ?_, ?_⟩
  · exact ⟨⟨enclosed c!"q > 2 ->" c!"p == 1" c!"", { src := .actionName c!"act" }⟩, attached_iff.1 (by decide +kernel), rfl⟩
  · exact ⟨⟨enclosed c!"q > 2 ->" c!"!(p != 1)" c!"", { src := .actionName c!"act" }⟩, attached_iff.1 (by decide +kernel), rfl⟩
  · exact lexed_closed (tokenize_lexed ⟨c!"q > 2 ->", {}⟩)
      ⟨(tokenize ⟨c!"q > 2 ->", {}⟩).getLast (by decide +kernel), by rw [List.getLast?_eq_some_getLast], by decide +kernel⟩
      (Ex.notInfix (by decide +kernel))
  · exact C66_closed (sys := Ex.sys) (k := .action) (src := ⟨c!"p == 1", {}⟩)
      (e := Ex.get (.notSet {}) (parseConstraint Ex.sys .action ⟨c!"p == 1", {}⟩))
      (Ex.get_of_isOk (by decide +kernel)) (Ex.notInfix (by decide +kernel))
  · exact C66_closed (sys := Ex.sys) (k := .action) (src := ⟨c!"!(p != 1)", {}⟩)
      (e := Ex.get (.notSet {}) (parseConstraint Ex.sys .action ⟨c!"!(p != 1)", {}⟩))
      (Ex.get_of_isOk (by decide +kernel)) (Ex.notInfix (by decide +kernel))

theorem Ex.exchanged_same_args (ac : Str) (i : RtAction) :
    SameArgValue Ex.sys.inetPton6 (Ex.actionDecl ac) i c!"p == 1" c!"!(p != 1)" := by
  let vs : List VarInfo := [⟨1, c!"p", .fixedUnsigned 8⟩, ⟨2, c!"q", .fixedUnsigned 8⟩]
  have hk : HasTy (paramSig vs) (.param c!"p") (.fixedUnsigned 8) := .param (by rfl) ⟨by nofun, by nofun⟩
  refine ⟨vs, .cmp .eq (.param c!"p") (.int 1), .not (.cmp .ne (.param c!"p") (.int 1)), .boolean,
    .cons (.bits ..) (.cons (.bits ..) .nil),
    Ex.partSays (by decide +kernel) (by decide +kernel) (.cmp hk (.int 1) (join_bit _) (by nofun)),
    Ex.partSays (by decide +kernel) (by decide +kernel) (.not (.cmp hk (.int 1) (join_bit _) (by nofun))),
    fun ρ _ v => Ex.evaluates_ne⟩

/-- The invocation does not satisfy the constraint, nor the one with the part exchanged. -/
example : reasonAction (Ex.action 2 3) (Ex.ci c!"true" (enclosed c!"q > 2 ->" c!"!(p != 1)" c!"")) ≠ .ok [] :=
  fun h => absurd ((C81_action_verdict (ts := [Ex.tableDecl c!"true", Ex.freeTable]) (as := [Ex.freeAction]) (Ex.nonNeg _ _)
    (ci := Ex.ci c!"true" (enclosed c!"q > 2 ->" c!"p == 1" c!"")) (Ex.get_of_isOk (by decide +kernel))
    (Ex.get_of_isOk (by decide +kernel)) Ex.exchangedActions (Ex.exchanged_same_args _ _)).2 h) (by decide +kernel)

/-- C81: the parentheses matter. Exchanging `true` for `false || true` without them changes the verdict. -/
theorem C81_parentheses :
    Ex.isOk (reasonEntryViolatesConstraint (Ex.entry 2) (Ex.ci (c!"false && " ++ c!"true") c!"true")) = true ∧
    reasonEntryViolatesConstraint (Ex.entry 2) (Ex.ci (c!"false && " ++ c!"true") c!"true") ≠ .ok [] ∧
    reasonEntryViolatesConstraint (Ex.entry 2) (Ex.ci (c!"false && " ++ c!"false || true") c!"true") = .ok [] := by
  decide +kernel

end P4C
