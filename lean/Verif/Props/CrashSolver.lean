import Verif.Proofs.CrashSolver
import Verif.Props.Solve
import Verif.Props.DiagnosisAny

/-
C87: when a constraint solver stops the process. C88: what is said about texts that are no constraints of the table.
-/

namespace P4C

open Spec

section
variable {sys : Sys} {p : P4Info} {ci : ConstraintInfo} (h : p4ToConstraintInfo sys p = .ok ci) {d : TableDecl}
  (hd : d ∈ p.tables) {ti : TableInfo} (hti : lookup d.preamble.id ci.tables = some ti) {skip : Str → Bool} {z : Z3Oracle}

include h hd hti in
/-- C87, creating a solver stops the process if and only if the keys that are not skipped are of supported kinds and the
constraint of the table converts a number to a bit string without bits; otherwise it succeeds or reports an error. -/
theorem C87_create (hw : NonNegProgram p) (hs : Solvable d skip) (hz : z.Sound) (hdec : Z3Oracle.Decides z) :
    (Solver.create z ti (fun n => .ok (skip n)) = .crash ↔ AllSupported d skip ∧
      ∃ vs se, Each KeyDecl d.matchFields vs ∧ TableSays sys.inetPton6 d se ∧ ConvertsToNothing vs skip se) ∧
    (Solver.create z ti (fun n => .ok (skip n)) ≠ .crash →
      (∃ s, Solver.create z ti (fun n => .ok (skip n)) = .ok s) ∨
        ∃ c, Solver.create z ti (fun n => .ok (skip n)) = .err c) := by
  have hpi := declared_parse h hd hti
  rw [← createCrash_iff hpi]
  have he := erase_create z Ex.symTexts ti fun n => .ok (skip n)
  change _ = Solver.create z ti (fun n => .ok (skip n)) at he
  rw [← he]
  rcases create_outcomes hpi (hw.1 d hd) hs hz hdec Ex.symTexts with ⟨⟨s, h1⟩ | ⟨c, m, h1⟩, h2⟩ | ⟨h1, h2⟩
  · rw [h1]
    exact ⟨⟨nofun, fun h => (h2 h).elim⟩, fun _ => .inl ⟨s, rfl⟩⟩
  · rw [h1]
    exact ⟨⟨nofun, fun h => (h2 h).elim⟩, fun _ => .inr ⟨c, rfl⟩⟩
  · rw [h1]
    exact ⟨⟨fun _ => h2, fun _ => rfl⟩, fun h => (h rfl).elim⟩

include h hd hti in
/-- C87, adding a text, after any history, stops the process if and only if the text converts a number to a bit string without
bits, or has a type error whose positions cannot be quoted from the constraint of the table; otherwise the text is accepted,
refused, or an error is reported. -/
theorem C87_add (hw : NonNegProgram p) (hz : z.Sound) (hdec : Z3Oracle.Decides z) {s : Solver} {texts : List Str}
    (hr : SolverRun z sys ti skip s texts) (text : Str) :
    ((s.addConstraintStr z sys text).1 = .crash ↔
      BitlessText sys.inetPton6 d skip text ∨ MisquotedText sys.inetPton6 d text) ∧
    ((s.addConstraintStr z sys text).1 ≠ .crash →
      (∃ b, (s.addConstraintStr z sys text).1 = .ok b) ∨ ∃ c, (s.addConstraintStr z sys text).1 = .err c) := by
  have hpi := declared_parse h hd hti
  have he : (s.addConstraintStr z sys text).1 = (s.addConstraintStrM z Ex.symTexts sys text).1.erase := by
    rw [← erase_addConstraintStr z Ex.symTexts]
    rfl
  rw [he]
  rcases text_outcomes hpi (hw.1 d hd) hz hdec Ex.symTexts hr (text := text) with ⟨⟨b, h1⟩ | ⟨c, m, h1⟩, h2⟩ | ⟨h1, h2⟩
  · rw [h1]
    exact ⟨⟨nofun, fun h => (h2 h).elim⟩, fun _ => .inl ⟨b, rfl⟩⟩
  · rw [h1]
    exact ⟨⟨nofun, fun h => (h2 h).elim⟩, fun _ => .inr ⟨c, rfl⟩⟩
  · rw [h1]
    exact ⟨⟨fun _ => h2, fun _ => rfl⟩, fun h => (h rfl).elim⟩

include h hd hti in
/-- C87, in particular a text without line breaks is safe if no key has width 0. -/
theorem C87_one_line (hw : ∀ f ∈ d.matchFields, 0 < f.bitwidth) (hn : NonNegProgram p) (hz : z.Sound)
    (hdec : Z3Oracle.Decides z) {s : Solver} {texts : List Str} (hr : SolverRun z sys ti skip s texts) {text : Str}
    (ht : '\n' ∉ text ∧ '\r' ∉ text) : (s.addConstraintStr z sys text).1 ≠ .crash := by
  intro hc
  rcases (C87_add h hd hti hn hz hdec hr text).1.1 hc with ⟨vs, se, hk, _, hb⟩ | ⟨a, b, m, src, hf, _, _, hu, _⟩
  · refine bitless_positive ?_ hb
    intro ki hki hwd
    obtain ⟨f, hf, hd⟩ := each_mem hk ki hki
    have := hw f hf
    cases hd <;> cases hwd <;> exact Int.lt_irrefl _ this
  · exact hu (textFault_oneLine ht hf)

include h hd hti in
/-- C87, so is any text if the constraint of the table has a file name (or there is none) and no key has width 0. -/
theorem C87_named (hw : ∀ f ∈ d.matchFields, 0 < f.bitwidth) (hn : NonNegProgram p) (hz : z.Sound)
    (hdec : Z3Oracle.Decides z) {s : Solver} {texts : List Str} (hr : SolverRun z sys ti skip s texts) {text : Str}
    (hsrc : ∀ src, Attached .table d.preamble (some src) → ∃ f, src.loc.src = .filePath f) :
    (s.addConstraintStr z sys text).1 ≠ .crash := by
  intro hc
  rcases (C87_add h hd hti hn hz hdec hr text).1.1 hc with ⟨vs, se, hk, _, hb⟩ | ⟨a, b, m, src, _, ha, hs, _⟩
  · refine bitless_positive ?_ hb
    intro ki hki hwd
    obtain ⟨f, hf, hd⟩ := each_mem hk ki hki
    have := hw f hf
    cases hd <;> cases hwd <;> exact Int.lt_irrefl _ this
  · obtain ⟨f, hf⟩ := hsrc src ha
    rw [hf] at hs
    cases hs

include h hd hti in
/-- C88, a text that is no constraint by the grammar: the message quotes the first token of the text that cannot continue it,
if it is on a line of the text, or says what is wrong with an address literal in the text. Missing from the full statement:
type errors (`C88_fails`); quoting of address literals (`C52_fails`); lone carriage returns (`C43_fails`). -/
theorem C88_syntax_partial (x : SymTexts) {s : Solver} {texts : List Str} (hr : SolverRun z sys ti skip s texts) {text : Str}
    {ts : List Token} (hl : Lexed { src := .tableName d.preamble.name } text ts)
    (hg : ∀ e, ¬ Constraint sys.inetPton6 .table ts e) :
    ∃ c m, (s.addConstraintStrM z x sys text).1 = .err c m ∧
      ((∃ before t after complaint, Culprit ts before t after ∧ AddressesOk sys.inetPton6 ts before.length ∧
          Complaint (before.map (·.kind)) t complaint ∧
          Shown .invalidArgument c!"Parse error: " x.toTexts.quoteFailure ⟨text, { src := .tableName d.preamble.name }⟩
            t.start t.stop complaint c m) ∨
        c = .invalidArgument ∧ ∃ before i s after, Literal ts before i s after ∧
          AddressesOk sys.inetPton6 ts before.length ∧ AddressFault sys.inetPton6 i.text s.text m) := by
  have hpi := declared_parse h hd hti
  have hname := (parseTableInfo_id hpi).2
  obtain rfl := (C19_lexical_structure ⟨text, { src := .tableName d.preamble.name }⟩ _).2 hl
  have hno : ∀ e, parseConstraint sys .table ⟨text, { src := .tableName d.preamble.name }⟩ ≠ .ok e :=
    fun e he => hg e (parseConstraint_iff.1 he)
  have her := erase_parseConstraint x.toTexts sys .table ⟨text, { src := .tableName d.preamble.name }⟩
  cases hp : parseConstraintM x.toTexts sys .table ⟨text, { src := .tableName d.preamble.name }⟩ with
  | ok e => rw [hp] at her; exact (hno e her.symm).elim
  | err c m =>
    have hm := C52_any (src := ⟨text, { src := .tableName d.preamble.name }⟩) (Int.le_refl 0) (Int.le_refl 0) hp
    rw [← hname] at hp
    exact ⟨c, m, (text_untyped x hr (by rw [hp]; rfl)).2 _ _ rfl, hm⟩
  | _ =>
    rw [hp] at her
    rcases C43_no_crash (sys := sys) (k := .table) (src := ⟨text, { src := .tableName d.preamble.name }⟩) (Int.le_refl 0)
      with ⟨e, he⟩ | he | he <;> rw [he] at her <;> cases her

include h hd hti in
/-- C88, a text with a type error: the message says what is wrong with its first part without a type. But what it quotes is
from the constraint of the table, at the positions that the part has in the text; if this cannot be quoted, the process stops;
and if the constraint of the table has a file name or has no such line, or if there is none, the error is an internal one. -/
theorem C88_types (x : SymTexts) {s : Solver} {texts : List Str} (hr : SolverRun z sys ti skip s texts) {text : Str}
    {a b : Loc} {m : Str} (hf : TextFault sys.inetPton6 d text a b m) :
    (∀ src q, Attached .table d.preamble (some src) → Quotation src a b q →
      (s.addConstraintStrM z x sys text).1 = .err .invalidArgument (q ++ c!"Type error: " ++ m)) ∧
    (∀ src, Attached .table d.preamble (some src) → src.loc.src = .tableName d.preamble.name → Unquotable src a b →
      (s.addConstraintStrM z x sys text).1 = .crash) ∧
    ((∀ src, Attached .table d.preamble (some src) → (∀ q, ¬ Quotation src a b q) ∧
        ¬ (src.loc.src = .tableName d.preamble.name ∧ Unquotable src a b)) →
      ∃ u, (s.addConstraintStrM z x sys text).1 = .err .internal (u ++ m)) := by
  have hpi := declared_parse h hd hti
  obtain ⟨e, y, h1, h2, h3⟩ := (textFault_iff hpi).1 hf
  have hsame : ∀ {src}, Attached .table d.preamble (some src) → ti.source = src := by
    intro src hs
    rcases source_cases hpi with ⟨src', g1, g2⟩ | ⟨g1, g2⟩
    · cases attached_unique g1 hs
      exact g2
    · cases attached_unique g1 hs
  rw [text_fault hpi x hr hf]
  refine ⟨fun src q hs hq => ?_, fun src hs h4 h5 => ?_, fun hno => ?_⟩
  · rw [hsame hs, typeErrorM, quotingErrorM, (text_quote_ok h1 h2 h3 src).2 hq]
  · rw [typeErrorM, quotingErrorM, (misquoted_iff hpi hf).2 ⟨src, hs, h4, h5⟩]
  · rcases quoteSub_total ti.source a b with ⟨q, hq⟩ | hq | hq
    · rcases source_cases hpi with ⟨src, g1, g2⟩ | ⟨g1, g2⟩
      · rw [g2] at hq
        exact ((hno src g1).1 q ((text_quote_ok h1 h2 h3 src).1 hq)).elim
      · have := ((text_quote_ok h1 h2 h3 _).1 hq).1
        rw [g2, (fault_where h1 (Int.le_refl 0) h2 h3).1] at this
        cases this
    · exact ⟨_, by rw [typeErrorM, quotingErrorM, hq]⟩
    · obtain ⟨src, g1, g2⟩ := (misquoted_iff hpi hf).1 hq
      exact ((hno src g1).2 g2).elim

end

/-- C49, syntax: a text that is no constraint by the grammar is rejected, and the solver is as before. -/
theorem C49_syntax_any {z : Z3Oracle} {sys : Sys} {s : Solver} {text : Str}
    (h : ¬ ∃ e, Constraint sys.inetPton6 .table (tokenize ⟨text, { src := .tableName s.table.name }⟩) e) :
    ∃ c, (c = .invalidArgument ∨ c = .internal) ∧ s.addConstraintStr z sys text = (.err c, s) := by
  have hp : ∃ c, (c = .invalidArgument ∨ c = .internal) ∧
      parseConstraint sys .table ⟨text, { src := .tableName s.table.name }⟩ = .err c := by
    rcases C43_no_crash (sys := sys) (k := .table) (src := ⟨text, { src := .tableName s.table.name }⟩) (Int.le_refl 0)
      with ⟨e, he⟩ | he | he
    · exact (h ⟨e, parseConstraint_iff.1 he⟩).elim
    · exact ⟨_, .inl rfl, he⟩
    · exact ⟨_, .inr rfl, he⟩
  obtain ⟨c, hc, hp⟩ := hp
  refine ⟨c, hc, ?_⟩
  unfold Solver.addConstraintStr
  dsimp only
  rw [hp]
  rfl

/-! ### Examples -/

/-- A text with a type error that extends over two lines and starts behind the end of the constraint of the table. -/
def Ex.illTypedLines : Str := List.replicate 90 ' ' ++ c!"1 ==\n true"

/-- C88 fails: the message about the type error in the text quotes the constraint of the table. -/
theorem C88_fails : ∀ (z : Z3Oracle) (s : Solver) (texts : List Str),
    SolverRun z Ex.sys (Ex.symTi Ex.d1) (fun _ => false) s texts →
    (s.addConstraintStrM z Ex.symTexts Ex.sys c!"1 == true").1 = .err .invalidArgument
      (c!"In @entry_restriction of table 'tbl'; at offset line 1, columns 1 to 9:\n" ++
       c!"1 | ex == 5 && (tern::mask == 0 -> pre::prefix_length < 9); !(opt != 3) || ::priority > 100\n" ++
       c!"  | ^^^^^^^^^\n" ++ c!"Type error: cannot unify types int and bool") ∧
    (s.addConstraintStrM z Ex.symTexts Ex.sys c!"true ||\n1 == true").1 = .err .internal
      c!"cannot unify types int and bool" := by
  intro z s texts hr
  exact ⟨(text_untyped Ex.symTexts hr (by decide +kernel)).2 _ _ rfl, (text_untyped Ex.symTexts hr (by decide +kernel)).2 _ _ rfl⟩

/-- The process stops on this text. -/
theorem C87_misquoted : ∀ (z : Z3Oracle) (s : Solver) (texts : List Str),
    SolverRun z Ex.sys (Ex.symTi Ex.d1) (fun _ => false) s texts →
    (s.addConstraintStr z Ex.sys Ex.illTypedLines).1 = .crash := by
  intro z s texts hr
  have hc := (text_untyped Ex.symTexts hr (text := Ex.illTypedLines) (r := .crash) (by decide +kernel)).1 rfl
  have he := congrArg Prod.fst (erase_addConstraintStr z Ex.symTexts Ex.sys s Ex.illTypedLines)
  rw [← he, eraseFst, hc]
  rfl

/-- There are such solvers. -/
example : SolverRun (constOracle Ex.m1) Ex.sys (Ex.symTi Ex.d1) (fun _ => false) Ex.solver1 [] :=
  .create (Ex.get_of_isOk (by decide +kernel))

theorem Ex.solve_nonNeg : NonNegProgram (Ex.symInfo Ex.d1) := by
  constructor <;> decide +kernel

/-- By `C87_add`, the text therefore is as described. -/
example : MisquotedText Ex.sys.inetPton6 Ex.d1 Ex.illTypedLines := by
  obtain ⟨s, hs, _⟩ := Ex.solve_accepted Ex.perfect_sound Ex.perfect_decides
  have hr : SolverRun Ex.perfect Ex.sys (Ex.symTi Ex.d1) (fun _ => false) s [] := .create hs
  rcases (C87_add Ex.solve_ci (List.mem_singleton.2 rfl) Ex.solve_ti Ex.solve_nonNeg Ex.perfect_sound Ex.perfect_decides hr
    Ex.illTypedLines).1.1 (C87_misquoted _ _ _ hr) with ⟨vs, se, hk, _, hb⟩ | hm
  · refine (bitless_positive ?_ hb).elim
    cases keys_same hk Ex.solve_keys
    intro ki hki hw
    simp only [Ex.solveKeys, List.mem_cons, List.not_mem_nil, or_false] at hki
    rcases hki with rfl | rfl | rfl | rfl <;> cases hw
  · exact hm

/-- Creating a solver for `5 == zero`, where `zero` has no bits and is skipped, stops the process. -/
example {z : Z3Oracle} (hz : z.Sound) (hdec : Z3Oracle.Decides z) :
    Solver.create z (Ex.symTi Ex.crashDecl) (fun n => .ok (n == c!"zero")) = .crash := by
  have hci : p4ToConstraintInfo Ex.sys (Ex.symInfo Ex.crashDecl) = .ok (Ex.symCi Ex.crashDecl) :=
    Ex.get_of_isOk (by decide +kernel)
  have hti : lookup Ex.crashDecl.preamble.id (Ex.symCi Ex.crashDecl).tables = some (Ex.symTi Ex.crashDecl) := by decide +kernel
  have hd : Ex.crashDecl ∈ (Ex.symInfo Ex.crashDecl).tables := List.mem_singleton.2 rfl
  have hk : Each KeyDecl Ex.crashDecl.matchFields [⟨1, c!"zero", .ternary 0⟩] := .cons (.ternary ..) .nil
  obtain ⟨_, _, hc, hch, hty⟩ := Ex.sym_of_ok (d := Ex.crashDecl) (s := .cmp .eq (.int 5) (.key c!"zero")) (by decide +kernel)
  obtain ⟨vs, e, se, r⟩ := table_read (declared_parse hci hd hti) hc
  cases keys_same hk r.keys
  cases checked_unique hch ⟨_, e, r.typed, r.meant⟩
  have hread := r.read
  rw [hty] at hread
  refine (C87_create hci hd hti ⟨by decide +kernel, by decide +kernel⟩ ⟨?_, ?_, ?_, ?_⟩ hz hdec).1.2
    ⟨?_, _, _, hk, ⟨_, _, _, hk, hread⟩, .cmp trivial ⟨.int 5, _, .key (t := .ternary 0) rfl ?_, .ternary 0⟩⟩
  · intro vs' hk' ki hki _
    cases keys_same hk hk'
    cases List.mem_singleton.1 hki
    exact ⟨_, .ternary _⟩
  · decide +kernel
  · decide +kernel
  · decide +kernel
  · intro vs' hk' ki hki
    cases keys_same hk hk'
    cases List.mem_singleton.1 hki
    exact .inl rfl
  · simp [Supported]

/-- A message about syntax quotes the text. -/
example : (Ex.solver1.addConstraintStrM (constOracle Ex.m1) Ex.symTexts Ex.sys c!"ex == ==").1 = .err .invalidArgument
    (c!"In @entry_restriction of table 'tbl'; at offset line 1, columns 7 to 8:\n1 | ex == ==\n  |       ^^\n" ++
      c!"Parse error: unexpected token: ==. Expected true, false, <BINARY>, <OCTARY>, <DECIMAL>, <HEXADEC>, <ID>, ::, !, -, or (.") := by
  decide +kernel

end P4C
