import Verif.Proofs.Names
import Verif.Props.Program

/-
Names in constraints: property C60.
-/

namespace P4C

open Spec

/-- C60, for tables: every name written in the constraint of an accepted program is that of a key of the table. -/
theorem C60_tables_partial {sys : Sys} {p : P4Info} {ci : ConstraintInfo} (h : p4ToConstraintInfo sys p = .ok ci) {d : TableDecl}
    (hd : d ∈ p.tables) {src : ConstraintSource} (hsrc : Attached .table d.preamble (some src)) {ts : List Token}
    (hts : Lexed src.loc src.str ts) {n : Str} (hn : Writes ts n) : ∃ f ∈ d.matchFields, f.name = n := by
  obtain ⟨vs, r, h1, h2, h3⟩ := (C31_succeeds.1 ⟨ci, h⟩).2.2.1 d hd
  obtain ⟨t, ht⟩ := table_name h3 hsrc hts hn
  obtain ⟨v, hv, rfl⟩ := keySig_mem ht
  obtain ⟨f, hf, hk⟩ := each_mem h1 v hv
  exact ⟨f, hf, by cases hk <;> rfl⟩

/-- A table with a key that has a dotted name, and an action. -/
def Ex.dotted (tc ac : Str) : P4Info :=
  ⟨[{ preamble := ⟨1, c!"t", [c!"@entry_restriction(\"" ++ tc ++ c!"\")"]⟩
      matchFields := [⟨1, c!"hdr.dst", 8, .matchType .exact⟩] }],
   [{ preamble := ⟨2, c!"act", [c!"@action_restriction(\"" ++ ac ++ c!"\")"]⟩, params := [⟨1, c!"ab", 8, []⟩] }]⟩

theorem Ex.writes3 {ts rest : List Token} {a d b t : Token} (h : ts = a :: d :: b :: t :: rest) (ha : a.kind = .id)
    (hd : d.kind = .dot) (hb : b.kind = .id) (ht : t.kind ≠ .dot ∧ t.kind ≠ .lpar) : Writes ts (a.text ++ c!"." ++ b.text) := by
  subst h
  refine ⟨[], [a, d, b], t :: rest, _, _, rfl, .snoc (ts := [a]) (.one ha) hd hb, nofun, fun t' h => ?_⟩
  cases h
  exact ht

/-- Blanks and comments within a name do not matter. -/
example : ∃ d ∈ (Ex.dotted c!"hdr . /* to */ dst::value == 1" c!"ab == 1").tables, ∃ f ∈ d.matchFields, f.name = c!"hdr.dst" := by
  have h : Ex.isOk (p4ToConstraintInfo Ex.sys (Ex.dotted c!"hdr . /* to */ dst::value == 1" c!"ab == 1")) = true := by
    decide +kernel
  have ha : Attached .table ⟨1, c!"t", [c!"@entry_restriction(\"hdr . /* to */ dst::value == 1\")"]⟩
      (some ⟨c!"hdr . /* to */ dst::value == 1", { line := 0, col := 0, src := .tableName c!"t" }⟩) := attached_iff.1 (by rfl)
  refine ⟨_, List.mem_cons_self, C60_tables_partial (Ex.get_of_isOk (d := ⟨[], []⟩) h) List.mem_cons_self ha (tokenize_lexed _) ?_⟩
  exact Ex.writes3 rfl rfl rfl rfl (by decide)

/-- C60, for actions and names without dots: every such name written in the constraint of an accepted program is that of a
parameter of the action. Missing: names with dots, see `C60_fails`. -/
theorem C60_actions_partial {sys : Sys} {p : P4Info} {ci : ConstraintInfo} (h : p4ToConstraintInfo sys p = .ok ci)
    {d : ActionDecl} (hd : d ∈ p.actions) {src : ConstraintSource} (hsrc : Attached .action d.preamble (some src))
    {ts : List Token} (hts : Lexed src.loc src.str ts) {n : Str} (hn : Writes ts n) (hdot : '.' ∉ n) :
    ∃ f ∈ d.params, f.name = n := by
  obtain ⟨vs, r, h1, h2, h3⟩ := (C31_succeeds.1 ⟨ci, h⟩).2.2.2 d hd
  obtain ⟨t, ht⟩ := action_name h3 hsrc hts hn hdot
  obtain ⟨v, hv, rfl⟩ := paramSig_mem ht
  obtain ⟨f, hf, hk⟩ := each_mem h1 v hv
  exact ⟨f, hf, by cases hk <;> rfl⟩

/-- C60, exactly, for actions: every name written in the constraint of an accepted program is, without its dots, that of a
parameter of the action. -/
theorem C60_actions_exact {sys : Sys} {p : P4Info} {ci : ConstraintInfo} (h : p4ToConstraintInfo sys p = .ok ci)
    {d : ActionDecl} (hd : d ∈ p.actions) {src : ConstraintSource} (hsrc : Attached .action d.preamble (some src))
    {ts : List Token} (hts : Lexed src.loc src.str ts) {n : Str} (hn : Writes ts n) :
    ∃ f ∈ d.params, f.name = n.filter (· ≠ '.') := by
  obtain ⟨vs, r, h1, h2, h3⟩ := (C31_succeeds.1 ⟨ci, h⟩).2.2.2 d hd
  obtain ⟨t, ht⟩ := action_name_undot h3 hsrc hts hn
  obtain ⟨v, hv, hvn⟩ := paramSig_mem ht
  obtain ⟨f, hf, hk⟩ := each_mem h1 v hv
  exact ⟨f, hf, by rw [← hvn]; cases hk <;> rfl⟩

/-- `a.b` is the parameter `ab`. -/
example : ∃ d ∈ (Ex.dotted c!"true" c!"a.b == 1").actions, ∃ f ∈ d.params, f.name = c!"a.b".filter (· ≠ '.') := by
  have h : Ex.isOk (p4ToConstraintInfo Ex.sys (Ex.dotted c!"true" c!"a.b == 1")) = true := by decide +kernel
  have ha : Attached .action ⟨2, c!"act", [c!"@action_restriction(\"a.b == 1\")"]⟩
      (some ⟨c!"a.b == 1", { line := 0, col := 0, src := .actionName c!"act" }⟩) := attached_iff.1 (by rfl)
  refine ⟨_, List.mem_cons_self, C60_actions_exact (Ex.get_of_isOk (d := ⟨[], []⟩) h) List.mem_cons_self ha
    (tokenize_lexed _) ?_⟩
  exact Ex.writes3 rfl rfl rfl rfl (by decide)

/-- A parameter. -/
example : ∃ d ∈ (Ex.dotted c!"true" c!"/* a */ ab == 1").actions, ∃ f ∈ d.params, f.name = c!"ab" := by
  have h : Ex.isOk (p4ToConstraintInfo Ex.sys (Ex.dotted c!"true" c!"/* a */ ab == 1")) = true := by decide +kernel
  have ha : Attached .action ⟨2, c!"act", [c!"@action_restriction(\"/* a */ ab == 1\")"]⟩
      (some ⟨c!"/* a */ ab == 1", { line := 0, col := 0, src := .actionName c!"act" }⟩) := attached_iff.1 (by rfl)
  refine ⟨_, List.mem_cons_self, C60_actions_partial (Ex.get_of_isOk (d := ⟨[], []⟩) h) List.mem_cons_self ha
    (tokenize_lexed _) ?_ (by decide)⟩
  refine ⟨[], [_], _, _, _, rfl, .one rfl, nofun, fun t' h => ?_⟩
  cases h
  decide

/-- C60 in full is false: the dots of a name are dropped in the constraint of an action, so that the name of another
parameter may result. -/
theorem C60_fails : ∃ (p : P4Info) (ci : ConstraintInfo) (d : ActionDecl) (src : ConstraintSource) (ts : List Token) (n : Str),
    p4ToConstraintInfo Ex.sys p = .ok ci ∧ d ∈ p.actions ∧ Attached .action d.preamble (some src) ∧
    Lexed src.loc src.str ts ∧ Writes ts n ∧ ∀ f ∈ d.params, f.name ≠ n := by
  have h : Ex.isOk (p4ToConstraintInfo Ex.sys (Ex.dotted c!"true" c!"a.b == 1")) = true := by decide +kernel
  refine ⟨Ex.dotted c!"true" c!"a.b == 1", _, _, ⟨c!"a.b == 1", { line := 0, col := 0, src := .actionName c!"act" }⟩, _, c!"a.b",
    Ex.get_of_isOk (d := ⟨[], []⟩) h, List.mem_cons_self, attached_iff.1 (by rfl), tokenize_lexed _, ?_, by decide⟩
  exact Ex.writes3 rfl rfl rfl rfl (by decide)

end P4C
