# Verification design: p4-constraints in Lean 4

The subject is the C++ library in `/repo/p4_constraints` (read as text, never built or run).
The Lean project is in `lean/`; `lake build` checks everything.

## Layout

| module (under `lean/Verif/`) | contents |
|---|---|
| `Model/*` | the executable model, function by function, with `/repo` file:line citations |
| `Spec/*` | small specifications written without reference to model helpers |
| `Proofs/*` | helper lemmas |
| `Props/*` | the property theorems (named `Cnn_...`), each with a concrete `example` that meets its hypotheses; `Props/Instances1` to `Props/Instances7` apply theorems of several files to one program and its entries, `Props/*Ex*` hold programs used in examples, and witnesses for properties that the code violates |
| `Golden/*` | the repository's own tests run on the model (see *Trusted base*); generated from the test files, not proofs of properties |

## Modelling conventions

* **Strings** are `List Char`, one `Char` per byte (`Char.toNat < 256`); RE2's rune semantics for negated
  character classes is modelled on the byte level.
* **Outcomes**: `Res α = ok a | err code | crash | oof`. `err` carries the absl status code only; *producing* a
  message may itself fail or crash because it quotes the source, and this is modelled. `Model/Message.lean` has a second
  version of the parser, the type checker and `P4ToConstraintInfo` whose errors carry the messages (`MRes`), and
  `Model/EntryMessage.lean` and `Model/SymMessage.lean` those of the interpreters; they are proved to agree with the first. Debug strings of protobuf messages
  and a few other texts in messages are parameters (`Texts`, `EntryTexts`). `crash` stands for undefined behaviour, an uncaught C++ exception or an abort.
  `oof` ("out of fuel") is an artefact of structural recursion in the parser; it is proved unreachable.
* **Hash maps** are association lists in an arbitrary order; the list order is the iteration order, and
  order-independence is a theorem, not an assumption.
* **Pointers as cache keys** (`EvaluationCache`, `SizeCache`) are modelled by tree paths.
* **Integers**: `mpz_class` is `Int`. Line/column numbers (`int32`) are unbounded `Int`s (no overflow at 2^31).
  Bit widths are `Int` (they are `int32` in the proto and may be negative); `uint32` ids are `Nat`.
* **Protobuf** messages are inductive types; every `oneof` has a "not set" case.
* **RE2** is modelled by ordered (leftmost-first) matching of a small regex syntax in which the patterns of the
  code are transcribed literally.
* **GMP** `mpz_set_str`/`get_str`, shifts and comparisons are modelled by their mathematical meaning.
* **inet_pton(AF_INET6)** is a function parameter, uninterpreted everywhere except in C74, which puts in a model of the
  `inet_pton` of glibc (2.26 and later; `Model/Inet.lean`). The source of glibc is not at hand; the model was written from
  knowledge of it and compared with the C library of this machine on 5332 texts (1060 of them addresses) without a difference.
* **Z3** is modelled by a term language with its standard semantics (`<`, `>`, `<=`, `>=` of z3++ on bit-vectors
  are the *signed* comparisons) and an oracle `check` assumed sound: `sat` comes with a model, `unsat` means
  that there is none (`Z3Oracle.Sound`). This is a hypothesis of the theorems, not an axiom. The oracle may answer
  differently each time it is asked (it is given the number of the call). Where more is needed it is a further
  hypothesis: `Decides` (never `unknown`), `Deterministic`, `InterpretsPriority` (models assign the priority).
* **Callbacks**: the skip function of `ConstraintSolver::Create` is a pure function that may return an error.
* **A name of a Z3 constant** is a C string: it ends at the first NUL (`cstr`).
* `DCHECK`s are no-ops (release build), except in `Model/Debug.lean`, which models a build with assertions.

## Not modelled

Reading and parsing of files and flags in `cli/p4check.cc` (the rest, from parsed
messages to exit code and printed text, is modelled in `Model/Cli.lean` and `Model/CliText.lean`); protobuf (de)serialisation; memory management;
`int32` overflow of source positions (C78 shows when there is none); stack overflow (C89, C93 and C104 bound the depth of the recursion of the parser, the type checker and the interpreters, and show that there is no
bound for all texts); performance except for numbers of calls and copies (C57, C89). The generated `Constraint` proto's
`DebugString` and the printing functions used only in messages are not modelled.

| file in `/repo/p4_constraints` | model |
|---|---|
| `ast.h/.cc` | `Model/Ast.lean`, `Model/Utility.lean`, `Model/Basic.lean` (`ParseP4RTInteger` etc. in `Interpreter`) |
| `quote.h/.cc`, `constraint_source.*`, `errors.*` | `Model/Quote.lean` |
| `frontend/token.*`, `frontend/lexer.*` | `Model/Regex.lean`, `Model/Token.lean`, `Model/Lexer.lean` |
| `frontend/parser.*`, `frontend/constraint_kind.h` | `Model/Parser.lean` |
| `backend/type_checker.*` | `Model/TypeChecker.lean` |
| `backend/interpreter.*` | `Model/Interpreter.lean` |
| `backend/constraint_info.*` | `Model/ConstraintInfo.lean` |
| `backend/symbolic_interpreter.*` | `Model/Z3.lean`, `Model/Symbolic.lean`, `Model/SymMessage.lean` |
| `cli/p4check.cc` | `Model/Cli.lean`, `Model/CliText.lean` |
| messages of `frontend/parser.cc`, `backend/type_checker.cc`, `backend/constraint_info.cc` | `Model/Message.lean` |
| messages of `backend/interpreter.cc` | `Model/EntryMessage.lean` |
| `gutils/status_builder.*`, `gutils/status_macros.h`, `gutils/ret_check.*`, `gutils/status.cc` | `Model/Status.lean` |
| `inet_pton(AF_INET6)` of glibc | `Model/Inet.lean` |
| `backend/interpreter.cc`, `Size` and `AddVariables`, with a counter of calls and the depth of the recursion | `Model/Cost.lean` |
| `frontend/parser.cc` and `backend/type_checker.cc`, with meters | `Model/ParseCost.lean` |

## Trusted base

* The Lean 4.33.0 kernel.
* Axioms: no theorem uses more than `propext`, `Classical.choice` and `Quot.sound`; none uses `sorryAx`,
  `Lean.ofReduceBool` or an axiom of this project. The list by theorem is at the end of this file.
* The faithfulness of the transcription in `Model/*`; the semantics given there to RE2, GMP, abseil and Z3.
  As evidence for it, `Golden/*` runs the tests of the repository on the model and checks the result in the kernel:
  `Golden/Invalid` and `Golden/Valid` reproduce the output of `p4check` in `e2e_tests/*.expected.output` byte by byte,
  `Golden/Interpreter` reproduces all of `backend/interpreter_golden_test_runner.expected`, `Golden/Lexer`,
  `Golden/Parser`, `Golden/Ast`, `Golden/Info`, `Golden/Types` and `Golden/Eval` contain all cases of `lexer_test.cc`, `parser_test.cc`,
  `ast_test.cc`, `constraint_info_test.cc`, `type_checker_test.cc` and `interpreter_test.cc`. `Golden/Symbolic` contains those of
  `symbolic_interpreter_test.cc`: where Z3 finds a model the test is given one, and where it finds none it is proved that there is
  none. These are tests of the model, not
  proofs, and no property rests on them. Tests that ask Z3 for a model are not among them.

## Specifications

* `Spec/Language` abstract syntax, values, typing relation `HasTy`, meaning relation `Means`, `Holds`.
* `Spec/Entry`, `Spec/Verdict` what a P4Runtime entry says about the keys (`EntryEnv`), well-formed entries.
* `Spec/Lexical`, `Spec/Layout` tokens of a text and where they are; separators.
* `Spec/Grammar`, `Spec/Print`, `Spec/Numeral` grammar, printer, values of numerals and addresses.
* `Spec/Quote`, `Spec/Explain` what is quoted, sufficient and minimal explanations.
* `Spec/Order`, `Spec/Repr` permutations of maps and entries, byte strings.
* `Spec/Annotation`, `Spec/Program` annotations, well-formed programs and the definitions they give rise to.
* `Spec/Diagnosis` beginnings of constraints, the first wrong token, complaints.
* `Spec/TypeError` names of types, the first fault of an ill-typed constraint and its description.
* `Spec/Match` packets matched by a value, documented well-formedness of values.
* `Spec/Cost` sizes of constraints that concern an entry.
* `Spec/Names` names of variables written in a constraint.
* `Spec/Signed` the meaning of constraints with signed comparisons of bit strings, as the solver takes them.
* `Spec/Shuffle` entries that differ in the order of their parts; `Spec/Priority` priorities required by P4Runtime.
* `Spec/Accept` which entries are accepted, from the declarations; `Spec/Compose` constraints made from the texts of others.
* `Spec/Packets` entries that match the same packets; `Spec/Express` constraints written into annotations.
* `Spec/Violation` the report about an entry that violates a constraint (`Explained` chooses the part that is quoted).
* `Spec/Cli` what p4check prints.
* `Spec/SymFault` what the constraint solver reports.
* `Spec/Solve` what the constraint solver is asked and answers, in terms of the declarations of the program.
* `Spec/Rename` programs, constraints and entries with other names and ids.
* `Spec/Widen` match kinds that are special cases of others.
* `Spec/Bounds` the range of source locations.
* `Spec/SolveLaws` sequences of constraints that are all accepted.
* `Spec/Exchange` parts of constraints exchanged for others.
* `Spec/Constant` matches on one number only, comparisons with `true` and `false`, and the fields of matches;
* `Spec/Missing` parts of constraints that cannot be quoted, and what is said instead;
* `Spec/Crash` entries about which they would have to be;
* `Spec/CrashProgram` programs with type errors that cannot be quoted;
* `Spec/CrashCli` runs of p4check that end in a crash;
* `Spec/Formula` constraints as formulas of arithmetic;
* `Spec/CrashSolver` texts on which constraint solvers stop the process;
* `Spec/ParseCost` depths of nodes and heights of syntax trees;
* `Spec/Widthless` matches that consist of zeros;
* `Spec/Weaken` constraints with parts replaced by weaker or stronger ones;
* `Spec/Negative` entries that are consistent except for negative widths;
* `Spec/EvalDepth` the height of the constraints that apply to an entry;
* `Spec/SolverCost` the size of terms, and oracles with the same answers to some queries;
* `Spec/Obtain` entries up to the order of matches, and what it means that a solver can be made to return an entry;
* `Spec/Independent` constraints that mention different keys, and entries put together from two;
* `Spec/Enumerate` rounds of requesting and excluding entries;
* `Spec/Moved` a table with a constraint and the same table without it;
* `Spec/Skipped` a table without the keys that are skipped;
* `Spec/Runtime` the well-formed entries of a table according to the P4Runtime specification;
* `Spec/HandMade` suitable type marks in syntax trees of any origin, and possible outcomes for these;
* `Spec/Sorts` the syntax trees that make sense for a table with certain keys;
* `Spec/Debug` texts in UTF-8, declared widths, casts to types with a width;
* `Spec/NoConflict` trees that the interpreter and the solver read alike;
* `Spec/Small` entries without top bits in ordered bit strings,
* `Spec/Compare` two versions of a table,
* `Spec/Evolve` programs that grow.
* `Spec/SolveSigned` solutions for constraints read with signed comparisons.
* `Spec/Ipv6` the texts of IPv6 addresses.
* `Spec/Status` statuses enriched with texts.
* `Spec/Slice` the text between two locations, matching parentheses.
* `Spec/Smallest` parts that determine the value of a constraint over a class of contexts.
* `Spec/Symbolic` symbolic keys and entries, canonical entries, histories of a solver.

## Properties

For each: what is modelled, and how it is proved. "Fails" means that the negation of the full statement is proved with a
witness, and that the theorem for the rest is named `_partial`.

* **C01** `InferAndCheckTypes` + `Eval` against the meaning relation; induction on expressions. Fails for ordered comparison
  of exact keys.
* **C02** progress/preservation style induction. Fails for ordered comparison of exact keys, `::priority` in action
  constraints, incomplete action invocations.
* **C03** `ReasonEntryViolatesConstraint`, `ExplainConstraintViolation`, `Size`, `Quote`. Fails: `Size` lacks action
  parameters; multi-line `Quote` may throw; `\r` line breaks. The side conditions are exact: a violated constraint has an
  explanation, or there is something to blame for the want of one (C03_exact_table, C03_exact_action).
* **C04** path-keyed cache, invariant by induction.
* **C05, C06** `MinimalSubexpressionLeadingToEvalResult`; induction on expressions.
* **C07** permutation invariance of all map consumers. Fails: status codes of failing entries may depend on the order.
* **C08, C09** `ParseTableEntry`, `ParseKey`; fold invariants. Fails: a kind mismatch gives Internal.
* **C10, C11** `ReasonEntryViolatesConstraint`; induction on action sets.
* **C12** `ParseP4RTInteger`; induction on byte strings.
* **C13** castability functions; case analysis with symbolic widths.
* **C14, C15, C16** `InferAndCheckTypes`; induction on expressions against the typing relation.
* **C17, C18, C44** consequences of the evaluator model, stated on evaluation results. C18: equality is not transitive in
  general (witness); `C18_eq_transitive_across_partial` and `C18_eq_modulo` say when it is, and what holds otherwise.
  C44: commutativity fails if an operand cannot be evaluated (`C44_fails`); the other laws hold also then.
* **C19, C20, C21, C22** regex model of `kTokenPattern`, proved equal to a direct scanner; induction on the text. C20 fails
  after string literals that span lines (`C20_exact`: line breaks in them count as columns), C22 for identifiers that start
  with `true` or `false` (`C22_exact`).
* **C23, C24, C25** fuel-based parser against an inductive grammar, which is shown to be unambiguous.
* **C26, C27** numeral and address conversion; induction on digit strings.
* **C28** invariant of the parser. **C29** `Quote` line arithmetic; fails (crash) for nodes that span lines. **C51** the whole text
  of quotations, as an equivalence with a relational specification; the crashes are characterised.
* **C30** regex model of the annotation patterns; fails for the annotation without content. **C31, C32** folds over
  tables/actions.
* **C33** bit-vector reasoning over all 32-bit ids.
* **C34** term semantics vs. `Eval`. Fails for ordered comparisons of bit-vectors (signed in Z3); `SignedMeans` is the meaning that
  the formulas have in all cases.
* **C35, C36, C37, C38, C40, C50** the solver as a state machine over an abstract oracle; induction on histories
  (`Reachable`). C35 fails for signed comparisons and skipped exact keys, C40 for signed comparisons, name clashes of Z3
  constants, and priorities of tables without priorities.
* **C39** induction on bit strings and hexadecimal digits.
* **C41, C42** `GetVariables`; induction on expressions.
* **C43** totality of lexer/parser; fuel adequacy. Fails: Internal errors for lone carriage returns; C43_internal
  says exactly when. Quoting has three outcomes (`quoteSub_outcomes`): a quotation, an error if the line does not exist
  (`Missing`), or a crash (`Unquotable`); C52_any and C54_any follow from it for all texts.
* **C45** soundness of verdicts without any side condition on the constraint. `C45_action_any` covers action
  constraints that mention the priority: they are read with an arbitrary priority, because an action has none.
* **C46** composition: from P4Info to verdicts; fails where C01 does.
* **C47** `p4check` from messages to reports. The collision of table ids is proved as a theorem.
* **C48** errors of `P4ToConstraintInfo`; fails (crash) for constraints of several lines.
* **C49** `AddConstraint(text)`; fails: type errors are quoted from the constraint of the table instead of the text and so
  may become Internal errors.
* **C52, C53** messages of the parser. A recogniser of token kinds that mirrors the parser is proved to fail exactly at
  the first token that no constraint continues with (every state of the parser has a continuation: `Hole`), and to pass
  over no malformed address literal. What is wrong with an address is specified by its own relation. Fail for
  malformed addresses, which are reported without their place (C52), and for the completeness and, in part, the
  correctness of the list of expected tokens (C53). Which tokens are listed is specified exactly (`Enumerated`); that no
  others are possible, up to stated exceptions, follows from a relation between neighbouring tokens of constraints.
* **C54** messages of the type checker: induction on expressions, against a relation that describes the first fault. Fails for
  the names of LPM types.
* **C55** the message of `P4ToConstraintInfo`, specified as a list of reports over the definitions (`Reports`); combines
  C30, C52 and C54. Fails because some messages do not name the table or action.
* **C56** equality against the sets of packets matched: bit-level lemmas on masks and prefixes. Well-formedness is assumed, as
  documented, and shown to be needed.
* **C57** `Model/Cost.lean` repeats the interpreter with a counter that each of the six recursive functions increments when
  called; erasing the counter gives the interpreter (`C57_same_results`). The bound is proved with a potential on the two
  caches: what is in a cache is not paid for again. Not counted: conversion of the entry, hash map
  operations, quoting and formatting.
* **C58** the documented, semantic notion of smallest explanation, against the syntactic one of C06. Proved by extending a
  combination of values of the atomic parts, if all combinations are possible. Fails for constants.
* **C59** two programs with the same definitions of what an entry names. Proved from the characterisation of accepted programs
  (C31) and of table and action lookup.
* **C60** names written in the text, as a relation between tokens and names. Proved by following the grammar; fails for dotted
  names in the constraints of actions.
* **C61** messages about entries, specified by relations that describe the first fault: of the matches and arguments
  (`MatchesFault`, `ArgsFault`), of evaluation (`Stuck`, beside a big-step relation `Evaluates` with short circuits) and of the
  search for an explanation (`Unexplained`). Proved by simultaneous induction on the typed and untyped constraint. For entries
  that fit the table the error is exactly the one specified (C61_table, C61_action); which of several missing keys is named is
  left open, since the code iterates over a hash map. Fails because `ast::Size` rejects action parameters.
* **C62** the text between two locations. Proved from the grammar: the tokens between the locations of an expression are those
  of a derivation from which leading `(` and trailing `)` have been removed, and the lexer gives the same tokens for the text
  cut out. Fails because the parser drops parentheses without extending locations.
* **C63** entries as permutations of one another. Consistency with the table and what the constraint says of the entry are
  stated without reference to order, so that reading gives the same map; the rest depends on the map only.
* **C64** follows from C36 except for range keys, which the solver only tolerates if skipped. Fails for tables with range keys
  and no ternary or optional ones, contrary to the P4Runtime specification.
* **C65** combines C01, C02, C46 and C61 into one equivalence: acceptance is `Accepted`, stated from the declarations of the
  program (grammar, typing and value relations only). C65_violated is the corresponding statement for reported violations.
* **C66** follows from C65 by reading the composed text: its tokens are those of the parts (C27, the parts being on lines of
  their own), the grammar reads it as the composition, elaboration and values are compositional. `Closed` excludes block
  comments without an end, which the lexer accepts (C66_open).
* **C67** compares entries by the sets of packets they match (`Hits`). Canonical values are determined by what they match
  (C56), hence both entries mean the same; the rest depends on the meaning only. Fails without canonicity (C67_canonical).
* **C68** writes an abstract constraint with the printer of C24 into an annotation (the printed text contains neither
  quotation marks nor NULs), reads it back, and applies C65. C68_distinguish writes the constraints `k::value == n && ...` and
  `::priority == n` that hold of one of the entries only; its converse is C67.
* **C69** is the counterpart of C65 for violations: an equivalence between the message returned and a report described in
  terms of the declarations. The choice of the part that is quoted is made on the parsed constraint (`Explained`), not on the
  typed one as in the code; sizes, names and positions are shown to be the same in both. C69_least and C69_sufficient say that
  the choice is a good one, independently of how it is made.
* **C70**: `Model/CliText.lean` models `main` of p4check once more, with the printed text. C70_prints combines C55 (faulty
  programs), C65 (accepted entries), C69 (violations) and C61 (errors). C70_read says that the three kinds of verdict can be told
  apart, C70_status when the exit status is 0, C70_same that the outcome agrees with the model of C47, and
  C70_crash (from C84 and C85) when it ends at all.
* **C71**: `Model/SymMessage.lean` models the symbolic interpreter once more, with messages; C71_same says that nothing else
  changes. What is reported is described by `CreateFault` and `SolverFault` in terms of the table and the abstract syntax.
  C71_crash shows that a skipped key of width 0 may lead to an exception in Z3; the theorems say when this happens.
* **C72**: connects C35, C36, C38 and C40, which are about tables as read, with the declarations of the program, with C65 (which
  entries the checker accepts) and with the grammar and the typing rules for the texts. `Proofs/Solve.lean` shows that for
  constraints that only order integers, the meaning that Z3 gives them is the one that the checker evaluates. `C72_..._exact` are about all constraints,
  with ordered comparisons of bit strings read as signed (`Spec/SolveSigned`).
* **C73**: the builder with its stream (contents and write position); induction on what is done with it. Fails for texts streamed
  into copies, which overwrite the beginning (the copy constructor makes a `stringstream` that does not write at its end); an
  equivalence says when. Connected with the message model by `C73_bind`, `C73_annotate`, `C73_quoting`.
* **C74**: `Spec/Ipv6` is the notation of RFC 4291 as a grammar; `inetPton6_iff` shows by induction over the loop of `inet_pton6`
  that it accepts exactly these texts. `literal_tokens` lexes the text of the literal. Fails for texts with NUL characters.
* **C75**: `Spec/Evolve` says how a program grows. Typing, evaluation and explanation depend only on the declarations and
  values of the names mentioned (`evaluates_extends`, `evaluates_restricts`, `explained_restricts`); the rest follows from C31,
  C65 and C69.
* **C76**: `Spec/Rename` says what renaming does to programs, constraints and entries. `Accepted` (`Spec/Accept`, C65) is
  preserved by induction on constraints (`accepted_renamed`); the rest follows from C31 and C65.
* **C77**: `Spec/Widen` says which match kinds are special cases of others, and how a match is stated for the wider kind.
  Values of expressions agree by induction on typed constraints (`evaluates_widens`); `accepted_widens` lifts this to
  `Accepted` (C65).
* **C78**: the sum of line and column grows by at most one per character (`within_advance`), token by token (`Placed`, C20);
  nodes start and end with tokens (`G_ends`), and type checking keeps locations. `C78_fails` is a program with
  `@line(2147483647)`. So the model, which has unbounded integers for locations, is exact for all but such programs. `C78_exact`: no token is in a later
  line than the end of the text (C20), whose line is known, so that this one decides.
* **C79**: by C72 a text is accepted if and only if it is understood and has a common solution with those accepted before; what
  it says has a truth value for every entry in canonical form (`signed_total`), and negations and connectives of texts are read as
  such (C66). For errors, the environment of the solver is the same after any history (`run_same`).
* **C80**: the tokens of a text that ends with a line break, except for the end and for an opening quotation mark, are tokens of
  each continuation of the text (`lexed_prefix`, by induction on `Lexed`); the culprit or the malformed address literal is
  therefore the same, and by C52 so is the message. The quoted line is complete, so the quotation is the same
  (`quotation_append`). If there is no such line in the first lines, the error is Internal, and the text that follows may
  provide one (`C80_carriage`).
* **C81**: the tokens of a text with the part `(a)` contain those of `a` between two parentheses (`tokensOf_enclosed`).
  Parentheses in a derivation of the grammar are balanced, so the part is derived as a subexpression of its own, or lies within
  one operand (`paren_split`, `G_swap`, by induction on the grammar `G`). The two abstract expressions therefore differ in one
  subexpression (`Swap`), which types (`swap_hasTy`) and values (`swap_evaluates`) do not see. C65 gives the verdicts.
* **C82** (partial): C65 reduces the verdict to the value of the constraint, which is that of the equation between the value of
  the key and the constant converted to the type of the key (`equals_iff`); by cases on the declaration this is `MatchesOnly`
  (`denotes_only`), and the value of an omitted key is never that of a constant as the width is positive (`wildcard_not`). The
  documentation says that `true` and `false` can be used with keys of type bool. They cannot: booleans convert to nothing else
  and nothing else converts to them (`casts_boolean`, `casts_to_boolean`), and no variable is boolean.
* **C83**: as for C82, the verdict is the value of the comparison (`reason_value`), which is that of two integers
  (`field_iff`, `compare_ints`). The fields of the value of a key are those of the match, or of the match of everything if it is
  omitted (`fieldNumber_iff`). `C83_unenforced` is the caution of the documentation: malformed matches are not rejected.
* **C84**: the outcomes of judging a constraint (`Judged.cases`) by cases on its value and on what the search for an
  explanation finds; quoting a node of a parsed constraint crashes exactly on what
  `Unquotable` describes, whatever the carriage returns are (`nodes_unquotable`). Parsing an entry
  always returns (`parseTableEntryM_answers`), as widths are not negative. The four outcomes are those of C65, C69, C61, and
  `EntryCrash`.
* **C85**: what a type error quotes begins and ends with nodes of the constraint, so that quoting crashes exactly on what
  `Unquotable` describes (`fault_unquotable`); definitions are read one after the other whatever was wrong with earlier ones
  (`collectM_crash_iff`), so that any crashing one is reached.
* **C86**: `Spec/Formula` reads a constraint as a proposition about the entry, where numbers are those of `Spec/Constant`; by
  induction on this reading the constraint has a value, which is true iff the proposition is (`formula_value`). All
  well-typed constraints have such a reading (`formula_exists`), except for those that order keys themselves.
* **C87**, **C88**: `Spec/CrashSolver` describes, by the declarations of the program, the texts on which a solver stops the
  process: C71 restated for programs, and quoting (C47) from a source that the positions do not belong to, whose first line
  may even have a larger number (`quote_before`).
* **C89**: `Model/ParseCost.lean` repeats the parser and the type checker with three meters: calls and iterations, depth of
  the recursion, and nodes copied where an `Expression` is passed by value without `std::move`. Bounds by induction on the
  fuel, in terms of the tokens consumed; the sum of the depths of the nodes (`Spec/ParseCost`) is what the copies add up
  to. The lower bounds are for two families of texts, `true && … && true` and `! … ! true`, parsed by C24.
* **C90**: `Spec/Widthless` says which matches consist of zeros. All constants are 0 modulo 2^0, so the number that the
  constant is compared as is 0 (C82 and C86 for width 0), and the wildcard of a key of width 0 is the match on 0.
* **C91**: `Spec/Weaken` defines constraints that are weaker than others, by their positions. Induction shows that a true
  constraint does not become false, and a false one in a negative position does not become true, also if operands have no value
  or are not evaluated. Together with C02 and C03 this is about verdicts. For constraints that do not order keys C86 gives a value.
* **C92**: shifting by a negative width is a crash of the model (`shl1`), as GMP aborts. `Spec/Negative` says which entries are
  consistent up to widths. The loops of `ParseTableEntry` succeed or crash on them, and crash iff some key needs a mask.
* **C93**: `Model/Cost.lean` also has the depth of the recursion: `deeper` is the body of a function. Bounds by induction on the
  expression; a chain of negations meets them because nothing is in the cache on the way down.
* **C94**: symbolic evaluation yields fewer nodes than three times those of the expression, by induction, since keys and attributes
  are constants; with C57's bound of the nodes by the text, and by induction on the history. What is asked of Z3 is stated without
  a trace: if two oracles agree on these queries, results agree.
* **C95**: the text is printed (C24) from the conjunction of `k::value == v`, `k::mask == m` and so on for the keys that are not
  skipped, and of `::priority == p`. Among canonical entries it only holds of the given one, since canonical byte strings are
  determined by their numbers (C39). Then C72.
* **C96**: two canonical entries are put together, taking the matches of one for the keys mentioned and those of the other for
  the rest. The value of a constraint only depends on what it mentions (induction), so this is a solution of all constraints; then
  C72 and C95.
* **C97**: by induction on the rounds with C95 and C72. Canonical entries are encoded injectively (up to order) as numbers below the
  bound, with two digits for each key and one for the priority, so a list of different ones is not longer.
* **C98**: tokens, and hence what the grammar derives, do not depend on the location of the source (`tokens_src`), so the constraint
  of the table and the text added say the same; the rest is C72 and C95 for both solvers.
* **C99**: typing and the signed meaning only depend on the keys that a constraint mentions, and a constraint that is accepted by the
  solver mentions no skipped key; so C72 and C95 for the two tables speak of the same entries. The tables differ if no ternary or
  optional key is left, because the solver decides from all keys whether entries have a priority.
* **C100**: well-formed entries are specified from the declaration of the table alone (`Spec/Runtime`), with range matches, which the
  solver never produces. The canonical entries of C36 and C72 are compared with these; for the converse C95 is used. The full
  statement fails for skipped exact keys and for tables that owe their priorities to range keys; `C100_exact` is an equivalence.
* **C101**: about all values of `ConstraintInfo`, with no assumption that these come from a program. By induction on syntax trees the
  outcomes of evaluation and of explanation are restricted to two error codes and crashes, and crashes to locations over several
  lines and negative widths (`Proofs/HandMade`). `Spec/HandMade` says which marks suit which expressions (`Marked`) and what is
  evaluated whatever the values are (`Reached`). That malformed trees always give errors is false.
* **C102**: `Spec/Sorts` assigns forms (values of a sort, exact matches, values with masks or prefix lengths) to syntax trees, given
  those of the declared keys; that a tree has a form is shown to be equivalent to its translation into a formula, by induction in
  both directions (`Proofs/Sorts`). The source of a constraint is shown to be used only for quoting. Not all malformed trees give
  errors. Constants that are not in decimal are left out, see `Model/Z3`.
* **C103**: `Model/Debug` models the functions with a `DCHECK`, and their callers, a second time; a failed `DCHECK` ends the process.
  The two models are related function by function: same outcome, or stopped and a condition on the input is violated
  (`Proofs/Debug`, `Debug2`, `Debug3`). `LOG(ERROR)` gets a switch that makes it fatal, to be able to say that it is not reached.
  Some assertions can fail, there are witnesses.
* **C104**: `Model/SymCost.lean` repeats symbolic evaluation and its callers with the counters of `Model/Cost.lean`, and
  `C104_same_results` shows that the results are the same. Bounds by induction on the tree; those in the length of a text follow
  from the bounds of C89 on the tree of a text. Terms of Z3 and queries are not counted here (C94).
* **C105**: `Spec/NoConflict.lean` says node by node which trees are read alike. The proof relates the value that the interpreter
  finds to what the term of the solver denotes, by induction on the tree and without types: as numbers, for whatever sort the
  solver chose (`SymNum`). With the model of the entry that is returned this gives `C105_returned_partial`, with the model that
  belongs to an entry `C105_refused_partial`. Partial, since the code violates the full statement (`C105_fails_*`). Numerals of Z3
  other than in decimal notation are not modelled.
* **C106**: `Spec/Compare.lean` says what two versions of a table are, `Spec/Runtime.lean` what entries are well-formed. The proof
  combines C66 (the text of a negation says the negation), C72 (answers and solutions), C65 (verdicts) and C100 (canonical and
  well-formed entries). Partial, since the solver orders bit strings as signed numbers (`C106_fails`, `C106_fails_evidence`);
  for entries without top bits in ordered bit strings (`Spec/Small.lean`) this makes no difference, here and in C72
  (`C106_*_small_partial`, `C72_*_small_partial`). `C106_answer_exact` and `C106_evidence_exact` say what is true for all
  constraints, in the reading of solvers (`Spec/SolveSigned.lean`).
* **C107**: the statements are in the terms of C106 (`Spec/Compare.lean`, `Spec/Runtime.lean`) and of C69 (`TableReport`). The proof
  adds to that of C106 that violations are reported (C03, C69). Partial, since the solver orders bit strings as signed numbers
  (`C107_fails_order`), and the checker may crash when it explains the violation of a constraint on several lines
  (`C107_fails_crash`). `C107_entry_small_partial` also covers constraints that order bit strings, as long as no top bits are set.
* **C108**: what a match for a key is (`MatchesOnly`), and the number in a field of it (`FieldNumber`), are those of C82 and C83
  (`Spec/Constant.lean`). The answers of solvers are those of C72 for any constraints (`Spec/SolveSigned.lean`); the constraints
  added here order no bit strings, so that they are true in this reading iff they are true (`Proofs/Small.lean`), which C82 and C83
  reduce to the match.
* **C109**: sizes as documented in ast.h are the relation `HasSize`, the parts that count with their addresses `CountedPart`
  (`Spec/Utility.lean`). By induction on the syntax tree (`Proofs/Utility.lean`), for the function without and with a cache. The
  cache after an error is not modelled.
* **C110**: `Model/Utility.lean` has the functions of ast.cc that nothing else in the library calls. Equality of locations is
  compared with equality of all their fields, widths with the relation `FixedSize`. By cases.
* **C111**: `Spec/Guard.lean` says which constraints are covered (`OrdersLow`: fields for which a text says `k::g >= 0`, small numbers,
  and integers) and in which entries these fields do not have their top bit set (`LowEntry`). Read with signed numbers, `k::g >= 0`
  says just this of an entry whose values fit the widths; then the theorems of C72, C106 and C107 for such entries apply.
  `C111_fails_number` shows that numbers with the top bit set must be excluded.
* **C112**: `Spec/Valued.lean` defines the rewritten constraint (`valued`) and what is documented of an entry (`Documented`, by `Means`, not
  by `Evaluates` as in C68). The rewriting keeps types and meaning, and its result orders no exact keys, so that the theorems about such
  constraints (C01, C03) and C68 apply.
* **C113**: consequences of C86, with the numbers of `Spec/Constant` and `Spec/Formula`; `written` is the priority modulo 2^W, except for
  prefix lengths. The full statement fails (`C113_fails`), because the implicit conversion of integers to bit<W> wraps around also where
  the integer is the priority.
* **C114**: consequences of C86 for actions, with `bytesNat` for the number that an argument is. The full statement fails (`C114_fails`);
  C83 is about the same reduction for keys.

## Mutation tests

`seeded/LOG.jsonl` has one line per edited model. The edits are made in a copy of the project from which the examples are
removed, so that only theorems can notice them. `theorems_failed` are the declarations that no longer compile (first
failures only: what depends on them is not rebuilt), `property_theorems_affected` those property theorems that depend on
them. Where a failing declaration only says that the model equals an auxiliary definition of the proofs, the attempt was
repeated with that definition edited in the same way.

## Axioms by theorem

Printed with `#print axioms`.

* propext, Classical.choice, Quot.sound:
  C01_action_partial, C01_verdict_partial, C02_action_soundness_partial, C02_soundness_partial, C03_action_partial,
  C03_exact_action, C03_exact_table, C03_explained_partial, C03_fails_cr, C03_fails_crash, C03_fails_order,
  C03_fails_size, C03_multiline_partial, C05_sufficient, C06_minimal, C07_answers, C07_order_partial, C08_wildcard,
  C09_accepts, C09_rejects_partial, C09_wrong_kind_partial, C100_every, C100_exact, C100_skipped,
  C100_wellformed_partial, C101_detected_action_partial, C101_detected_partial, C102_answered, C102_detected_partial,
  C103_logs, C103_p4check_partial, C103_p4check_same, C103_parser, C103_program_partial, C103_program_same,
  C103_solver_partial, C103_solver_same, C103_text_partial, C103_trees_partial, C103_utf8, C103_verdict_partial,
  C103_verdict_same, C104_create, C104_deep, C104_text, C104_tree, C105_refused_partial, C105_returned_partial,
  C106_answer_exact, C106_answer_partial, C106_answer_skipping_partial, C106_equivalent_partial, C106_evidence_exact,
  C106_evidence_partial, C106_evidence_small_partial, C106_fails, C106_fails_evidence, C106_refused_small_partial,
  C106_understood, C106_understood_skipping, C107_entry_partial, C107_entry_skipping_partial,
  C107_entry_small_partial, C107_fails_crash, C107_fails_order, C107_found_partial, C107_free_partial, C108_field,
  C108_field_accepted, C108_key, C108_key_accepted, C108_omitted, C109_cache, C109_error, C109_table, C111_answer,
  C111_compare, C111_entry, C111_fails_number, C111_true, C111_violation, C112_agrees, C112_meaning, C112_typed,
  C112_verdict, C112_violation, C112_written, C113_constant, C113_fails, C113_field, C113_field_first, C113_partial,
  C114_constant, C114_fails, C114_partial, C114_two, C114_widths, C11_all_checked_partial, C12_bytes,
  C14_only_annotates, C14_recovers_input, C16_not_repeated, C16_repeated, C17_bit_key, C17_int_bit, C17_int_key,
  C18_coherent, C18_eq_modulo, C18_eq_transitive_across_partial, C19_lexical_structure, C19_terminated, C20_exact,
  C20_exact_line, C20_locations_partial, C21_insert_separators, C21_insert_separators_parse, C22_exact,
  C22_exact_keywords, C22_roundtrip_partial, C23_grammar, C23_grammar_text, C23_unambiguous, C24_print_parse,
  C24_print_parse_text, C25_doubled, C25_leading, C25_sequence, C25_trailing, C26_interchangeable, C26_value,
  C26_value_exists, C27_address, C27_literal, C27_unique, C28_spans, C29_multiline_partial, C29_node_text,
  C29_quote_partial, C30_annotation_partial, C30_position, C31_definitions, C31_order, C31_succeeds, C32_maps,
  C33_coercion, C34_agree_partial, C34_entry_model, C34_fails, C34_model_entry, C34_signed,
  C35_entry_satisfies_partial, C35_signed, C35_texts_checked, C36_canonical, C37_satisfiable, C38_create, C38_omitted,
  C38_rejected, C38_skip_errors, C39_bytes, C40_add_partial, C40_create_partial, C40_create_signed, C40_signed,
  C41_depends, C41_depends_action, C42_action_message, C42_message, C43_internal, C43_no_crash,
  C43_parse_total_partial, C43_terminates, C44_commutative_partial, C44_connectives, C44_double_negation, C44_laws,
  C45_action_any, C45_no_wrong_action_verdict, C45_no_wrong_verdict, C46_action_partial, C46_table_partial,
  C46_table_unconstrained, C47_collision, C47_ids, C47_p4check, C48_errors_partial, C48_outcomes, C49_accepts_only,
  C49_fails, C49_not_boolean, C49_syntax, C49_syntax_any, C49_type_partial, C50_concretize, C51_failures, C51_text,
  C51_unique, C52_any, C52_complaint, C52_culprit_partial, C52_exclusive, C52_rejected, C53_any, C53_complete_partial,
  C53_expected_partial, C53_fails_listed, C54_any, C54_blames_partial, C54_crash, C54_names, C54_otherwise,
  C54_unique, C55_determined, C55_exact, C55_faulty, C55_otherwise, C55_reports_partial, C56_equality, C56_meaning,
  C56_not_enforced, C56_omitted, C56_solver, C56_wildcard, C57_text, C58_smallest_partial, C59_part,
  C60_actions_exact, C60_actions_partial, C60_fails, C60_tables_partial, C61_action, C61_blamed, C61_blames_partial,
  C61_table, C62_action_partial, C62_fails, C62_plain, C62_reads_partial, C62_table_partial, C63_action, C63_answers,
  C63_errors, C64_exact, C64_priority_partial, C64_ranges_skipped, C65_accepted, C65_action, C65_value, C65_violated,
  C66_accepted, C66_accepted_not, C66_action_accepted, C66_action_accepted_not, C66_action_and, C66_action_exact,
  C66_action_implies, C66_action_not, C66_action_not_exact, C66_action_or, C66_and, C66_closed, C66_implies,
  C66_implies_exact, C66_not, C66_not_exact, C66_or, C66_or_exact, C67_action, C67_same, C68_action, C68_distinguish,
  C68_table, C69_action, C69_report, C70_crash, C70_prints, C70_read, C70_status, C71_add_partial, C71_concretize,
  C71_create_partial, C71_text_partial, C72_add_exact, C72_add_partial, C72_always, C72_checked_partial,
  C72_create_exact, C72_create_partial, C72_entry_exact, C72_entry_partial, C72_entry_small_partial, C72_fails,
  C72_refused_small_partial, C73_annotate, C73_bind, C73_builder_partial, C73_exact, C73_fails, C73_quoting,
  C73_retCheck, C73_returnIfError, C74_every, C74_exact, C74_fails, C74_literal_partial, C74_unique, C75_accepted,
  C75_order, C75_same, C76_accepted, C76_judged_alike, C76_verdict, C77_exists, C77_ternary, C77_verdict, C78_exact,
  C78_fits_lines_partial, C78_fits_partial, C78_tokens, C78_tree, C79_again, C79_and, C79_contradiction,
  C79_excluded_middle, C79_history, C79_implies, C79_monotone, C79_or, C79_order, C79_redundant, C80_accepted,
  C80_stable, C81_accepted, C81_action_accepted, C81_action_verdict, C81_reports, C81_verdict, C82_equals_partial,
  C82_fails, C82_fails_action, C83_field, C83_fields, C83_number, C83_optional, C84_crash, C84_error, C84_exclusive,
  C84_one_line, C84_otherwise, C84_outcomes, C85_anywhere, C85_crash, C85_error, C85_exclusive, C85_one_line,
  C85_otherwise, C85_outcomes, C86_actions, C86_table, C87_add, C87_create, C87_named, C87_one_line,
  C88_syntax_partial, C88_types, C89_copied, C89_deep, C89_height, C89_parse, C89_quadratic, C90_argument,
  C90_constant, C91_accepted, C91_action, C91_action_accepted, C91_not_rejected, C92_crashes, C92_true, C93_deep,
  C93_text, C94_add, C94_concretize, C94_create, C94_size, C95_checked, C95_exactly, C95_exclude, C95_pick, C96_alone,
  C96_combine, C96_same, C97_distinct, C97_ends, C97_next, C98_answers, C98_create, C98_entries, C99_accepted,
  C99_answers, C99_create, C99_entries, C99_priority, parsed_abs
* propext, Quot.sound:
  C01_verdict_fails, C02_fails_exact, C02_fails_priority, C04_cache_transparent, C04_search_transparent, C07_actions,
  C07_wellFormed, C08_omitted, C08_spellings, C09_action, C09_fails, C100_fails_exact, C100_fails_range, C101_codes,
  C101_kind, C101_returns, C101_root, C101_root_action, C102_codes, C102_fails_code, C102_fails_crash,
  C102_fails_marks, C102_overloads, C102_source, C104_same_results, C105_fails_field, C105_fails_negated,
  C105_fails_ordered, C109_right, C109_size_partial, C10_unconstrained, C10_unknown_action, C10_unknown_action_entry,
  C10_unknown_table, C110_equivalence, C110_exact, C11_componentwise, C12_spelling, C13_comparable,
  C15_accepts_exactly, C17_minus_one, C18_eq_transitive_partial, C25_meaning, C29_fails, C34_readings,
  C35_fails_signed, C35_fails_skipped, C37_added_text, C37_refused, C37_same_answers, C37_unchanged_concretize,
  C37_unchanged_text, C39_unique, C40_fails_names, C40_fails_priority, C40_fails_signed, C42_values, C46_meaning,
  C52_same_errors, C52_unique, C53_fails_missing, C53_fails_unlisted, C54_same_errors, C55_same_errors, C57_linear,
  C57_same_results, C58_fails, C59_local, C61_one_place, C61_one_reason, C61_same_errors, C63_set, C64_fails,
  C67_canonical, C69_least, C69_sufficient, C70_same, C71_crash, C71_gives_up, C71_same, C73_code, C73_stable,
  C74_range, C77_mask, C77_optional_mask, C86_reads, C86_reads_action, C87_misquoted, C88_fails, C89_check,
  C89_same_results, C93_depth, C94_queries
* propext:
  C02_fails_missing_param, C04_empty, C07_fails, C101_fails_crash, C101_fails_equation, C101_fails_lazy, C102_root,
  C103_fails_cast, C103_fails_comment, C103_fails_width, C104_unevaluated, C109_fails_param, C10_unsupported_action,
  C110_case, C110_fails, C110_locations_partial, C110_set, C110_width, C11_first_failure, C13_castability_order,
  C13_least_upper_bound, C18_eq_not_transitive, C20_fails, C22_fails, C29_fails_cr, C30_fails, C34_orderSafe,
  C37_added, C37_unchanged, C41_variables, C43_fails, C43_fails_column, C44_fails, C48_fails, C52_fails,
  C53_determined, C53_names, C54_fails_name, C55_fails, C61_evaluates, C61_fails, C61_fails_return, C63_codes_differ,
  C66_open, C73_stable_form, C78_fails, C80_carriage, C80_exceptions, C81_parentheses, C82_bool_key, C83_unenforced,
  C91_positions, C92_compared
* no axioms:
  C103_keywords, C109_fails_valid, C73_codes, C73_convert
