import Verif.Proofs.Verdict

/-
A small program used in the examples beside the theorems.
-/

namespace P4C.Ex

open Spec

/-- No IPv6 addresses are used in the examples. -/
def sys : Sys := ⟨fun _ => none⟩

/-- A table with one key of every match kind. -/
def tableDecl (constraint : Str) : TableDecl :=
  { preamble := ⟨1, c!"tbl", [c!"@entry_restriction(\"" ++ constraint ++ c!"\")"]⟩
    matchFields := [⟨1, c!"ex", 32, .matchType .exact⟩, ⟨2, c!"tern", 8, .matchType .ternary⟩,
      ⟨3, c!"pre", 16, .matchType .lpm⟩, ⟨4, c!"ran", 8, .matchType .range⟩,
      ⟨5, c!"opt", 4, .matchType .optional⟩] }

/-- An action with two parameters. -/
def actionDecl (constraint : Str) : ActionDecl :=
  { preamble := ⟨7, c!"act", [c!"@action_restriction(\"" ++ constraint ++ c!"\")"]⟩
    params := [⟨1, c!"p", 8, []⟩, ⟨2, c!"q", 8, []⟩] }

/-- A second table and a second action, both without constraint. -/
def freeTable : TableDecl := { preamble := ⟨2, c!"free", []⟩, matchFields := [⟨1, c!"k", 8, .matchType .exact⟩] }

def freeAction : ActionDecl := { preamble := ⟨8, c!"nop", []⟩, params := [] }

/-- The program. -/
def p4info (tc ac : Str) : P4Info := ⟨[tableDecl tc, freeTable], [actionDecl ac, freeAction]⟩

/-- An entry with the exact key `n`, and optional key 3. -/
def entry (n : UInt8) : RtEntry :=
  { tableId := 1, matches_ := [⟨1, .exact [n]⟩, ⟨5, .optional [3]⟩], priority := 10 }

/-- An invocation of the action. -/
def action (p q : UInt8) : RtAction := ⟨7, [(1, [p]), (2, [q])]⟩

/-- The result of a computation that succeeds. -/
def get {α : Type} (d : α) : Res α → α
  | .ok a => a
  | _ => d

/-- The definitions of the program. -/
def ci (tc ac : Str) : ConstraintInfo := get ⟨[], []⟩ (p4ToConstraintInfo sys (p4info tc ac))

/-- The definition of the table. -/
def ti (tc : Str) : TableInfo := get ⟨0, [], none, {}, [], []⟩ (parseTableInfo sys (tableDecl tc))

/-- The definition of the action. -/
def ai (ac : Str) : ActionInfo := get ⟨0, [], none, {}, [], []⟩ (parseActionInfo sys (actionDecl ac))

/-- The table constraint as parsed. -/
def expr (tc : Str) : Expr := get (.notSet {}) (parseConstraint sys .table (ti tc).source)

/-- The action constraint as parsed. -/
def aexpr (ac : Str) : Expr := get (.notSet {}) (parseConstraint sys .action (ai ac).source)

/-- The meaning of the entry. -/
def ctx (tc : Str) (e : RtEntry) : EvalCtx :=
  get ⟨.table ⟨[], 0, []⟩, {}⟩ (parseTableEntry e (ti tc))

/-- The meaning of the action invocation. -/
def actx (ac : Str) (a : RtAction) : EvalCtx :=
  get ⟨.table ⟨[], 0, []⟩, {}⟩ (parseAction a (ai ac))

/-- Is the result a success? -/
def isOk {α : Type} : Res α → Bool
  | .ok _ => true
  | _ => false

theorem get_of_isOk {α : Type} {d : α} {r : Res α} (h : isOk r = true) : r = .ok (get d r) := by
  cases r with
  | ok a => rfl
  | _ => cases h

/-- All the computations needed for a table case. -/
def caseOk (tc ac : Str) (e : RtEntry) (s : SExpr) : Bool :=
  let c := get (.notSet {}) (inferAndCheck (ti tc).source (.table (ti tc).keysByName) (expr tc))
  isOk (p4ToConstraintInfo sys (p4info tc ac)) &&
  decide (lookup e.tableId (ci tc ac).tables = some (ti tc)) &&
  decide ((ti tc).constraint = some c) &&
  isOk (inferAndCheck (ti tc).source (.table (ti tc).keysByName) (expr tc)) &&
  decide (abs (expr tc) = some s) && decide (c.ty = .boolean) &&
  (ti tc).keysByName.all (fun k => nonNegB k.2.ty) && isOk (parseTableEntry e (ti tc))

theorem tableCase {tc ac : Str} {e : RtEntry} {s : SExpr} (h : caseOk tc ac e s = true) :
    TableCase (ci tc ac) e (ti tc) s (envOf (ctx tc e)) := by
  simp only [caseOk, Bool.and_eq_true, decide_eq_true_eq] at h
  obtain ⟨⟨⟨⟨⟨⟨⟨h1, h2⟩, h3⟩, h4⟩, h5⟩, h6⟩, h7⟩, h8⟩ := h
  exact tableCase_of (get_of_isOk h1) h2 h3 (get_of_isOk h4) h5 h6 h7 (get_of_isOk h8)

/-- All the computations needed for an action case. -/
def acaseOk (tc ac : Str) (a : RtAction) (s : SExpr) : Bool :=
  let c := get (.notSet {}) (inferAndCheck (ai ac).source (.action (ai ac).paramsByName) (aexpr ac))
  isOk (p4ToConstraintInfo sys (p4info tc ac)) &&
  decide (lookup a.actionId (ci tc ac).actions = some (ai ac)) &&
  decide ((ai ac).constraint = some c) &&
  isOk (inferAndCheck (ai ac).source (.action (ai ac).paramsByName) (aexpr ac)) &&
  decide (abs (aexpr ac) = some s) && decide (c.ty = .boolean) &&
  (ai ac).paramsByName.all (fun k => nonNegB k.2.ty) && isOk (parseAction a (ai ac)) &&
  (ai ac).paramsById.all (fun p => hasKey p.1 a.params)

theorem actionCase {tc ac : Str} {a : RtAction} {s : SExpr} (h : acaseOk tc ac a s = true) :
    ActionCase (ci tc ac) a (ai ac) s (envOf (actx ac a)) := by
  simp only [acaseOk, Bool.and_eq_true, decide_eq_true_eq] at h
  obtain ⟨⟨⟨⟨⟨⟨⟨⟨h1, h2⟩, h3⟩, h4⟩, h5⟩, h6⟩, h7⟩, h8⟩, h9⟩ := h
  exact actionCase_of (get_of_isOk h1) h2 h3 (get_of_isOk h4) h5 h6 h7 (get_of_isOk h8) h9

/-- A constraint using most of the language, and its abstract syntax. -/
def tc1 : Str := c!"ex == 5 && (tern::mask == 0 -> pre::prefix_length < 9); !(opt != 3) || ::priority > 100"

def s1 : SExpr :=
  .conn .and
    (.conn .and (.cmp .eq (.key c!"ex") (.int 5))
      (.conn .implies (.cmp .eq (.field (.key c!"tern") c!"mask") (.int 0))
        (.cmp .lt (.field (.key c!"pre") c!"prefix_length") (.int 9))))
    (.conn .or (.not (.cmp .ne (.key c!"opt") (.int 3))) (.cmp .gt (.attr c!"priority") (.int 100)))

/-- A constraint of the action. -/
def ac1 : Str := c!"p <= q"

def s2 : SExpr := .cmp .le (.param c!"p") (.param c!"q")

theorem case1 (n : UInt8) (h : caseOk tc1 ac1 (entry n) s1 = true := by decide +kernel) :
    TableCase (ci tc1 ac1) (entry n) (ti tc1) s1 (envOf (ctx tc1 (entry n))) := tableCase h

theorem acase1 (p q : UInt8) (h : acaseOk tc1 ac1 (action p q) s2 = true := by decide +kernel) :
    ActionCase (ci tc1 ac1) (action p q) (ai ac1) s2 (envOf (actx ac1 (action p q))) := actionCase h

end P4C.Ex
