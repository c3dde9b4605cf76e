{
 "claims": [
  {
   "property": "C01",
   "status": "partial",
   "theorems": [
    "P4C.C01_verdict_partial",
    "P4C.C01_action_partial",
    "P4C.C01_verdict_fails",
    "P4C.C65_accepted",
    "P4C.C65_action",
    "P4C.C65_violated"
   ],
   "note": "Proved for accepted constraints without ordered comparison of exact keys; for those evaluation fails (C01_verdict_fails), so the full statement is false of the code. Without side conditions, C65_accepted and C65_action say exactly what is accepted, and C65_violated that nothing else is said to violate a constraint than what makes one false."
  },
  {
   "property": "C02",
   "status": "partial",
   "theorems": [
    "P4C.C02_soundness_partial",
    "P4C.C02_action_soundness_partial",
    "P4C.C02_fails_exact",
    "P4C.C02_fails_priority",
    "P4C.C02_fails_missing_param"
   ],
   "note": "Proved under the side conditions (no ordered comparison of exact keys, no ::priority in action constraints, complete parameters); the negation is proved for each without them."
  },
  {
   "property": "C03",
   "status": "partial",
   "theorems": [
    "P4C.C03_exact_table",
    "P4C.C03_exact_action",
    "P4C.C03_explained_partial",
    "P4C.C03_multiline_partial",
    "P4C.C03_action_partial",
    "P4C.C03_fails_order",
    "P4C.C03_fails_crash",
    "P4C.C03_fails_cr",
    "P4C.C03_fails_size"
   ],
   "note": "Proved for tables without ordered comparison of exact keys and texts on one line; for texts of several lines the crash condition is exact; for actions up to the InvalidArgument error that arises from action parameters having no size. The negation is proved in each of the excluded cases. For entries and actions that fit, the boundary is exact (C03_exact_table, C03_exact_action): a violated constraint is explained or there is something to blame for the want of an explanation, and then C61 determines the error."
  },
  {
   "property": "C04",
   "status": "proved",
   "theorems": [
    "P4C.C04_cache_transparent",
    "P4C.C04_search_transparent",
    "P4C.C04_empty"
   ],
   "note": "Cache keys are node addresses (tree paths)."
  },
  {
   "property": "C05",
   "status": "proved",
   "theorems": [
    "P4C.C05_sufficient"
   ],
   "note": ""
  },
  {
   "property": "C06",
   "status": "proved",
   "theorems": [
    "P4C.C06_minimal"
   ],
   "note": ""
  },
  {
   "property": "C07",
   "status": "partial",
   "theorems": [
    "P4C.C07_answers",
    "P4C.C07_order_partial",
    "P4C.C07_actions",
    "P4C.C07_wellFormed",
    "P4C.C07_fails"
   ],
   "note": "Answers never depend on the iteration order; error codes do not if the keys of the table are of the five match kinds. The negation is proved for a table with a key of another kind."
  },
  {
   "property": "C08",
   "status": "proved",
   "theorems": [
    "P4C.C08_omitted",
    "P4C.C08_wildcard",
    "P4C.C08_spellings"
   ],
   "note": ""
  },
  {
   "property": "C09",
   "status": "partial",
   "theorems": [
    "P4C.C09_rejects_partial",
    "P4C.C09_wrong_kind_partial",
    "P4C.C09_accepts",
    "P4C.C09_action",
    "P4C.C09_fails"
   ],
   "note": "Proved except for the status code of a match of the wrong kind, for which Internal is returned (negation proved)."
  },
  {
   "property": "C10",
   "status": "proved",
   "theorems": [
    "P4C.C10_unknown_table",
    "P4C.C10_unknown_action",
    "P4C.C10_unknown_action_entry",
    "P4C.C10_unconstrained",
    "P4C.C10_unsupported_action"
   ],
   "note": ""
  },
  {
   "property": "C100",
   "status": "partial",
   "theorems": [
    "P4C.C100_exact",
    "P4C.C100_wellformed_partial",
    "P4C.C100_skipped",
    "P4C.C100_every",
    "P4C.C100_fails_exact",
    "P4C.C100_fails_range"
   ],
   "note": "C100_exact says exactly when the entry is well-formed. It is not if an exact key is skipped (C100_fails_exact), because entries must match all exact keys, or if the table has a range key, which must be skipped, but no ternary or optional key (C100_fails_range), because it then has priority 0. The converse is under the assumptions of C95, with ordered comparisons of bit strings read as the solver does (C72)."
  },
  {
   "property": "C101",
   "status": "partial",
   "theorems": [
    "P4C.C101_codes",
    "P4C.C101_returns",
    "P4C.C101_root",
    "P4C.C101_root_action",
    "P4C.C101_detected_partial",
    "P4C.C101_detected_action_partial",
    "P4C.C101_kind",
    "P4C.C101_fails_equation",
    "P4C.C101_fails_lazy",
    "P4C.C101_fails_crash"
   ],
   "note": "That malformed constraints give errors fails in three ways: equations between different types are evaluated (C101_fails_equation), right operands of connectives are looked at only when needed (C101_fails_lazy), and building the error message crashes for some locations (C101_fails_crash)."
  },
  {
   "property": "C102",
   "status": "partial",
   "theorems": [
    "P4C.C102_codes",
    "P4C.C102_root",
    "P4C.C102_source",
    "P4C.C102_overloads",
    "P4C.C102_answered",
    "P4C.C102_detected_partial",
    "P4C.C102_fails_crash",
    "P4C.C102_fails_marks",
    "P4C.C102_fails_code"
   ],
   "note": "C102_answered says exactly which trees get an answer. That all malformed trees give errors fails: there can be a crash (C102_fails_crash), wrong marks are not noticed (C102_fails_marks), and there are other codes than the header says (C102_fails_code). Integer constants are assumed to be in decimal where it matters, because Z3 reads other notations as well and the model does not."
  },
  {
   "property": "C103",
   "status": "partial",
   "theorems": [
    "P4C.C103_program_same",
    "P4C.C103_verdict_same",
    "P4C.C103_solver_same",
    "P4C.C103_p4check_same",
    "P4C.C103_logs",
    "P4C.C103_keywords",
    "P4C.C103_parser",
    "P4C.C103_text_partial",
    "P4C.C103_utf8",
    "P4C.C103_program_partial",
    "P4C.C103_verdict_partial",
    "P4C.C103_trees_partial",
    "P4C.C103_solver_partial",
    "P4C.C103_p4check_partial",
    "P4C.C103_fails_comment",
    "P4C.C103_fails_width",
    "P4C.C103_fails_cast"
   ],
   "note": "That assertions only stop the process, and that the LOG(ERROR)s are not reached, is proved without hypotheses (C103_..._same, C103_logs). That the process is not stopped is proved for texts that consist of characters and for widths other than -1; without that it fails (C103_fails_comment, C103_fails_width, C103_fails_cast)."
  },
  {
   "property": "C104",
   "status": "proved",
   "theorems": [
    "P4C.C104_same_results",
    "P4C.C104_tree",
    "P4C.C104_unevaluated",
    "P4C.C104_text",
    "P4C.C104_create",
    "P4C.C104_deep"
   ],
   "note": ""
  },
  {
   "property": "C105",
   "status": "partial",
   "theorems": [
    "P4C.C105_returned_partial",
    "P4C.C105_refused_partial",
    "P4C.C105_fails_ordered",
    "P4C.C105_fails_negated",
    "P4C.C105_fails_field"
   ],
   "note": "Full statement is false in the code: C105_fails_ordered, C105_fails_negated, C105_fails_field. The partial theorems assume that the two read all parts of the tree alike (ReadAlike): decimal constants, fields of keys only, no negated bit strings, and top bits clear in ordered comparisons of bit strings."
  },
  {
   "property": "C106",
   "status": "partial",
   "theorems": [
    "P4C.C106_understood",
    "P4C.C106_answer_partial",
    "P4C.C106_evidence_partial",
    "P4C.C106_equivalent_partial",
    "P4C.C106_fails",
    "P4C.C106_fails_evidence",
    "P4C.C106_refused_small_partial",
    "P4C.C106_evidence_small_partial",
    "P4C.C106_answer_exact",
    "P4C.C106_evidence_exact",
    "P4C.C106_understood_skipping",
    "P4C.C106_answer_skipping_partial"
   ],
   "note": "Full statement is false in the code: C106_fails, C106_fails_evidence. The partial theorems assume that only integers are compared by <, <=, > and >= (PlainOrder); C106_understood does not. The _small_partial theorems allow ordered bit strings, and are about entries that have no top bits set in them. The _exact theorems say what the answer and the entry mean for all constraints, in the reading of solvers, and the _skipping ones are about solvers that skip keys."
  },
  {
   "property": "C107",
   "status": "partial",
   "theorems": [
    "P4C.C107_entry_partial",
    "P4C.C107_found_partial",
    "P4C.C107_entry_skipping_partial",
    "P4C.C107_free_partial",
    "P4C.C107_entry_small_partial",
    "P4C.C107_fails_order",
    "P4C.C107_fails_crash"
   ],
   "note": "Full statement is false in the code: C107_fails_order, C107_fails_crash. The partial theorems assume that only integers are compared by <, <=, > and >= (PlainOrder), and that the constraint is on one line; C107_entry_small_partial also covers constraints that order bit strings, for entries whose ordered bit strings have no top bit set."
  },
  {
   "property": "C108",
   "status": "proved",
   "theorems": [
    "P4C.C108_key",
    "P4C.C108_key_accepted",
    "P4C.C108_field",
    "P4C.C108_field_accepted",
    "P4C.C108_omitted"
   ],
   "note": "All comparisons with integer constants of keys by ==, of fields by == and !=, and of prefix lengths by all operators. Ordered comparisons of other fields are about signed numbers, see C72 and C106."
  },
  {
   "property": "C109",
   "status": "partial",
   "theorems": [
    "P4C.C109_size_partial",
    "P4C.C109_right",
    "P4C.C109_error",
    "P4C.C109_table",
    "P4C.C109_cache",
    "P4C.C109_fails_param",
    "P4C.C109_fails_valid"
   ],
   "note": "Full for syntax trees without bare parameters of actions. The code violates the rest: Size is an error for parameters of actions, so also for constraints of actions that are accepted (C109_fails_param), and it is no error if the part that is not set is inside of an arithmetic negation, a cast or a field access (C109_fails_valid). C109_error says exactly when there is an error."
  },
  {
   "property": "C11",
   "status": "partial",
   "theorems": [
    "P4C.C11_componentwise",
    "P4C.C11_first_failure",
    "P4C.C11_all_checked_partial",
    "P4C.C65_accepted",
    "P4C.C01_verdict_fails"
   ],
   "note": "The verdict decomposes into the table and its actions, and the first failure decides (no side conditions); the semantic form inherits the side conditions of C01, without which it fails (C01_verdict_fails). C65_accepted is the semantic form without side conditions."
  },
  {
   "property": "C110",
   "status": "partial",
   "theorems": [
    "P4C.C110_locations_partial",
    "P4C.C110_exact",
    "P4C.C110_equivalence",
    "P4C.C110_fails",
    "P4C.C110_width",
    "P4C.C110_set",
    "P4C.C110_case"
   ],
   "note": "Full for types, and for source locations that are not in actions. The code violates the rest: locations in different actions are equal if line and column are (C110_fails); C110_exact says exactly which are."
  },
  {
   "property": "C111",
   "status": "proved",
   "theorems": [
    "P4C.C111_entry",
    "P4C.C111_answer",
    "P4C.C111_true",
    "P4C.C111_compare",
    "P4C.C111_violation",
    "P4C.C111_fails_number"
   ],
   "note": "For constraints that order only integers, small numbers and fields said not to be negative (LowFor). C111_fails_number: with larger numbers the entry may be wrong."
  },
  {
   "property": "C112",
   "status": "proved",
   "theorems": [
    "P4C.C112_typed",
    "P4C.C112_meaning",
    "P4C.C112_verdict",
    "P4C.C112_violation",
    "P4C.C112_agrees",
    "P4C.C112_written"
   ],
   "note": "Of the typing rules and the meaning in Spec/Language.lean; widths declared are not negative."
  },
  {
   "property": "C113",
   "status": "partial",
   "theorems": [
    "P4C.C113_constant",
    "P4C.C113_field",
    "P4C.C113_field_first",
    "P4C.C113_partial",
    "P4C.C113_fails"
   ],
   "note": "Partial because the code reduces priorities modulo the width of the field (C113_fails); C113_field and C113_field_first say exactly what is compared."
  },
  {
   "property": "C114",
   "status": "partial",
   "theorems": [
    "P4C.C114_constant",
    "P4C.C114_two",
    "P4C.C114_widths",
    "P4C.C114_partial",
    "P4C.C114_fails"
   ],
   "note": "Partial because the code reduces constants modulo the width of the parameter (C114_fails); C114_constant says exactly what is compared."
  },
  {
   "property": "C12",
   "status": "proved",
   "theorems": [
    "P4C.C12_bytes",
    "P4C.C12_spelling"
   ],
   "note": ""
  },
  {
   "property": "C13",
   "status": "proved",
   "theorems": [
    "P4C.C13_castability_order",
    "P4C.C13_least_upper_bound",
    "P4C.C13_comparable"
   ],
   "note": ""
  },
  {
   "property": "C14",
   "status": "proved",
   "theorems": [
    "P4C.C14_only_annotates",
    "P4C.C14_recovers_input"
   ],
   "note": ""
  },
  {
   "property": "C15",
   "status": "proved",
   "theorems": [
    "P4C.C15_accepts_exactly"
   ],
   "note": ""
  },
  {
   "property": "C16",
   "status": "proved",
   "theorems": [
    "P4C.C16_not_repeated",
    "P4C.C16_repeated"
   ],
   "note": "The crash while quoting is that of C48."
  },
  {
   "property": "C17",
   "status": "proved",
   "theorems": [
    "P4C.C17_int_bit",
    "P4C.C17_minus_one",
    "P4C.C17_bit_key",
    "P4C.C17_int_key"
   ],
   "note": ""
  },
  {
   "property": "C18",
   "status": "partial",
   "theorems": [
    "P4C.C18_coherent",
    "P4C.C18_eq_transitive_partial",
    "P4C.C18_eq_transitive_across_partial",
    "P4C.C18_eq_modulo",
    "P4C.C18_eq_not_transitive"
   ],
   "note": "All laws are proved except transitivity of == when the outer operands have type int and the middle one does not; its negation is proved, and that the outer operands agree modulo 2^W then."
  },
  {
   "property": "C19",
   "status": "proved",
   "theorems": [
    "P4C.C19_lexical_structure",
    "P4C.C19_terminated"
   ],
   "note": ""
  },
  {
   "property": "C20",
   "status": "partial",
   "theorems": [
    "P4C.C20_locations_partial",
    "P4C.C20_exact",
    "P4C.C20_exact_line",
    "P4C.C20_fails"
   ],
   "note": "Proved for texts whose string literals do not span lines; the negation is proved otherwise. C20_exact and C20_exact_line say what is true for all texts: line breaks in string literals count as columns, and the line of a token is short of exactly those in the literals before it."
  },
  {
   "property": "C21",
   "status": "proved",
   "theorems": [
    "P4C.C21_insert_separators",
    "P4C.C21_insert_separators_parse",
    "P4C.parsed_abs"
   ],
   "note": "Insertion of separators at any token boundary outside comments; the parsed abstract syntax is unchanged."
  },
  {
   "property": "C22",
   "status": "partial",
   "theorems": [
    "P4C.C22_roundtrip_partial",
    "P4C.C22_exact",
    "P4C.C22_exact_keywords",
    "P4C.C22_fails"
   ],
   "note": "Proved except for identifiers starting with true/false, for which the negation is proved; C22_exact is an equivalence, and C22_exact_keywords says what is read otherwise."
  },
  {
   "property": "C23",
   "status": "proved",
   "theorems": [
    "P4C.C23_grammar",
    "P4C.C23_grammar_text",
    "P4C.C23_unambiguous"
   ],
   "note": "Soundness and completeness of the precedence-climbing parser with respect to the stratified grammar (Spec/Grammar.lean), and uniqueness of the tree."
  },
  {
   "property": "C24",
   "status": "proved",
   "theorems": [
    "P4C.C24_print_parse",
    "P4C.C24_print_parse_text"
   ],
   "note": "Pretty-printer with minimal parentheses (Spec/Print.lean). Identifiers starting with true/false cannot be written (C22)."
  },
  {
   "property": "C25",
   "status": "proved",
   "theorems": [
    "P4C.C25_sequence",
    "P4C.C25_meaning",
    "P4C.C25_trailing",
    "P4C.C25_leading",
    "P4C.C25_doubled"
   ],
   "note": "Sequences have the conjuncts of the conjunction, hence its meaning and typing; trailing, leading, doubled semicolons."
  },
  {
   "property": "C26",
   "status": "proved",
   "theorems": [
    "P4C.C26_value",
    "P4C.C26_value_exists",
    "P4C.C26_interchangeable"
   ],
   "note": "Numerals of any base and length."
  },
  {
   "property": "C27",
   "status": "proved",
   "theorems": [
    "P4C.C27_address",
    "P4C.C27_literal",
    "P4C.C27_unique"
   ],
   "note": "IPv6 recognition is that of inet_pton, a parameter of the model here; C74 is about the one of glibc."
  },
  {
   "property": "C28",
   "status": "proved",
   "theorems": [
    "P4C.C28_spans"
   ],
   "note": "All accepted texts."
  },
  {
   "property": "C29",
   "status": "partial",
   "theorems": [
    "P4C.C29_quote_partial",
    "P4C.C29_node_text",
    "P4C.C29_multiline_partial",
    "P4C.C29_fails",
    "P4C.C29_fails_cr"
   ],
   "note": "Proved for nodes on one line of texts whose carriage returns are all part of CRLF and whose string literals do not span lines: the quotation succeeds and marks exactly the node. For nodes spanning lines the exact condition under which the code crashes is proved, and a crashing witness; also a witness for lone carriage returns."
  },
  {
   "property": "C30",
   "status": "partial",
   "theorems": [
    "P4C.C30_annotation_partial",
    "P4C.C30_position",
    "P4C.C30_fails"
   ],
   "note": "Proved for annotations with content and without NUL characters; the annotation without content is taken for no constraint (negation proved). C46 uses the exact description for all annotations (Spec.Attached)."
  },
  {
   "property": "C31",
   "status": "proved",
   "theorems": [
    "P4C.C31_succeeds",
    "P4C.C31_definitions",
    "P4C.C31_order"
   ],
   "note": "Well-formedness and definitions are stated by Spec/Program.lean in terms of the grammar, the type system and the annotations."
  },
  {
   "property": "C32",
   "status": "proved",
   "theorems": [
    "P4C.C32_maps"
   ],
   "note": ""
  },
  {
   "property": "C33",
   "status": "proved",
   "theorems": [
    "P4C.C33_coercion"
   ],
   "note": ""
  },
  {
   "property": "C34",
   "status": "partial",
   "theorems": [
    "P4C.C34_agree_partial",
    "P4C.C34_signed",
    "P4C.C34_readings",
    "P4C.C34_model_entry",
    "P4C.C34_entry_model",
    "P4C.C34_orderSafe",
    "P4C.C34_fails"
   ],
   "note": "Proved for all accepted constraints whose ordered comparisons are between integers or bit strings with clear most significant bit and whose names have a symbolic counterpart; every interpretation satisfying the key assertions describes an entry and vice versa. The negation is proved for signed comparisons; C34_signed describes the formula exactly in all cases: bit strings are compared as two's complement numbers."
  },
  {
   "property": "C35",
   "status": "partial",
   "theorems": [
    "P4C.C35_entry_satisfies_partial",
    "P4C.C35_signed",
    "P4C.C35_texts_checked",
    "P4C.C35_fails_signed",
    "P4C.C35_fails_skipped"
   ],
   "note": "For every history of a solver and every sound Z3; proved under the same condition on ordered comparisons and if skipped keys may be omitted. The negation is proved in both cases; C35_signed says without a condition on comparisons what the entry satisfies."
  },
  {
   "property": "C36",
   "status": "proved",
   "theorems": [
    "P4C.C36_canonical"
   ],
   "note": "For every history and every sound Z3."
  },
  {
   "property": "C37",
   "status": "proved",
   "theorems": [
    "P4C.C37_unchanged",
    "P4C.C37_unchanged_text",
    "P4C.C37_unchanged_concretize",
    "P4C.C37_same_answers",
    "P4C.C37_added",
    "P4C.C37_added_text",
    "P4C.C37_satisfiable",
    "P4C.C37_refused"
   ],
   "note": "For every history; that the same state gives the same answers assumes that the answers of Z3 depend only on the assertions."
  },
  {
   "property": "C38",
   "status": "proved",
   "theorems": [
    "P4C.C38_omitted",
    "P4C.C38_rejected",
    "P4C.C38_create",
    "P4C.C38_skip_errors"
   ],
   "note": "The skip function is modelled as a pure function that may fail."
  },
  {
   "property": "C39",
   "status": "proved",
   "theorems": [
    "P4C.C39_bytes",
    "P4C.C39_unique"
   ],
   "note": ""
  },
  {
   "property": "C40",
   "status": "partial",
   "theorems": [
    "P4C.C40_add_partial",
    "P4C.C40_create_partial",
    "P4C.C40_signed",
    "P4C.C40_create_signed",
    "P4C.C40_fails_signed",
    "P4C.C40_fails_names",
    "P4C.C40_fails_priority"
   ],
   "note": "Proved for a Z3 that is sound and never gives up, if ordered comparisons have clear top bits, names of Z3 constants differ and names have a symbolic counterpart. The negation is proved in each of the excluded cases. C40_signed and C40_create_signed are equivalences without a condition on comparisons."
  },
  {
   "property": "C41",
   "status": "proved",
   "theorems": [
    "P4C.C41_variables",
    "P4C.C41_depends",
    "P4C.C41_depends_action"
   ],
   "note": "For tables and actions."
  },
  {
   "property": "C42",
   "status": "proved",
   "theorems": [
    "P4C.C42_message",
    "P4C.C42_action_message",
    "P4C.C42_values"
   ],
   "note": "For tables and actions; values are written as ValueText says."
  },
  {
   "property": "C43",
   "status": "partial",
   "theorems": [
    "P4C.C43_terminates",
    "P4C.C43_no_crash",
    "P4C.C43_parse_total_partial",
    "P4C.C43_internal",
    "P4C.C43_fails",
    "P4C.C43_fails_column"
   ],
   "note": "Termination and absence of crashes are proved for every text; that the error is InvalidArgument for every text in which carriage returns are part of CRLF and whose source is named. C43_internal says exactly when it is Internal: if the token to be quoted is on a line the source does not have, or the source is not named. The negation is proved: Internal errors for lone carriage returns and unnamed sources, a crash for a negative start column."
  },
  {
   "property": "C44",
   "status": "partial",
   "theorems": [
    "P4C.C44_connectives",
    "P4C.C44_laws",
    "P4C.C44_double_negation",
    "P4C.C44_commutative_partial",
    "P4C.C44_fails"
   ],
   "note": "All laws but commutativity hold without exception, also if operands cannot be evaluated. Commutativity is proved if both operands can be evaluated, and that two orders never have different values. The negation is proved: if an operand cannot be evaluated (ordered comparison of an exact key, C01), one order accepts an entry and the other reports an error."
  },
  {
   "property": "C45",
   "status": "proved",
   "theorems": [
    "P4C.C45_no_wrong_verdict",
    "P4C.C45_no_wrong_action_verdict",
    "P4C.C45_action_any"
   ],
   "note": "C45_action_any covers constraints of actions that mention the priority: answers given are right whatever the priority."
  },
  {
   "property": "C46",
   "status": "partial",
   "theorems": [
    "P4C.C46_table_partial",
    "P4C.C46_meaning",
    "P4C.C46_table_unconstrained",
    "P4C.C46_action_partial",
    "P4C.C65_accepted",
    "P4C.C65_action"
   ],
   "note": "Every answer is right for all accepted programs; that there is an answer is proved for constraints without ordered comparison of exact keys, and for action constraints without ::priority (negations proved under C01). Exactly what is accepted: C65_accepted, C65_action."
  },
  {
   "property": "C47",
   "status": "proved",
   "theorems": [
    "P4C.C47_p4check",
    "P4C.C47_ids",
    "P4C.C47_collision"
   ],
   "note": "Reading and parsing of files is a parameter; output is a list of reports."
  },
  {
   "property": "C48",
   "status": "partial",
   "theorems": [
    "P4C.C48_errors_partial",
    "P4C.C48_outcomes",
    "P4C.C48_fails",
    "P4C.C85_crash"
   ],
   "note": "Termination and the status code are proved for every program; absence of crashes for constraints on one line (negation proved for several lines). Exactly when it crashes: C85_crash."
  },
  {
   "property": "C49",
   "status": "partial",
   "theorems": [
    "P4C.C49_accepts_only",
    "P4C.C49_syntax",
    "P4C.C49_syntax_any",
    "P4C.C49_type_partial",
    "P4C.C49_not_boolean",
    "P4C.C49_fails"
   ],
   "note": "Proved except for the status code of type errors, which are quoted from the wrong text and may become Internal errors (negation proved); C49_syntax is for texts whose carriage returns are part of CRLF, C49_syntax_any for all texts, where the code may be Internal (see C43_internal)."
  },
  {
   "property": "C50",
   "status": "proved",
   "theorems": [
    "P4C.C50_concretize"
   ],
   "note": "For a Z3 that is sound, never gives up and gives a value to the priority."
  },
  {
   "property": "C51",
   "status": "proved",
   "theorems": [
    "P4C.C51_text",
    "P4C.C51_unique",
    "P4C.C51_failures"
   ],
   "note": "A missing space of the code before the last column of intervals of several lines is part of the specification."
  },
  {
   "property": "C52",
   "status": "partial",
   "theorems": [
    "P4C.C52_culprit_partial",
    "P4C.C52_rejected",
    "P4C.C52_exclusive",
    "P4C.C52_unique",
    "P4C.C52_complaint",
    "P4C.C52_same_errors",
    "P4C.C52_any",
    "P4C.C52_fails"
   ],
   "note": "Proved for texts whose carriage returns are part of CRLF and whose source is named, except that a malformed address literal before the token is reported instead: the first one, whose fault is described exactly, but without a quotation (negation proved). C52_any describes the message for all texts: nothing is quoted if the token is on a line the source does not have."
  },
  {
   "property": "C53",
   "status": "partial",
   "theorems": [
    "P4C.C53_expected_partial",
    "P4C.C53_any",
    "P4C.C53_determined",
    "P4C.C53_complete_partial",
    "P4C.C53_names",
    "P4C.C53_fails_listed",
    "P4C.C53_fails_missing",
    "P4C.C53_fails_unlisted"
   ],
   "note": "Proved: listed tokens are possible, except that ->, comparisons, ) and the end of the input may be listed wrongly in a list of several tokens; at least one listed token is possible. Which tokens are listed is determined by the tokens before and the one met. All possible tokens are listed except in three situations (C53_complete_partial). C53_any states the same for texts with any carriage returns and for sources without name. The negation is proved for wrongly listed tokens and for each of these situations."
  },
  {
   "property": "C54",
   "status": "partial",
   "theorems": [
    "P4C.C54_blames_partial",
    "P4C.C54_otherwise",
    "P4C.C54_any",
    "P4C.C54_crash",
    "P4C.C54_unique",
    "P4C.C54_same_errors",
    "P4C.C54_names",
    "P4C.C54_fails_name"
   ],
   "note": "Proved as an equivalence, for texts whose carriage returns are part of CRLF and whose source is named; for all texts by C54_any, where nothing is quoted if the part is on a line the source does not have. C54_crash says exactly when the process crashes instead (see C48_fails). The negation is proved for the names of LPM types."
  },
  {
   "property": "C55",
   "status": "partial",
   "theorems": [
    "P4C.C55_reports_partial",
    "P4C.C55_otherwise",
    "P4C.C55_faulty",
    "P4C.C55_exact",
    "P4C.C55_determined",
    "P4C.C55_same_errors",
    "P4C.C55_fails"
   ],
   "note": "Proved for all texts as an equivalence (C55_exact), including the text of each message, which is determined; except that messages about addresses and match types do not name the table (negation proved), and that a type error that extends over several lines may crash (C55_otherwise, C85). Texts printed by protobuf are parameters."
  },
  {
   "property": "C56",
   "status": "proved",
   "theorems": [
    "P4C.C56_equality",
    "P4C.C56_meaning",
    "P4C.C56_wildcard",
    "P4C.C56_omitted",
    "P4C.C56_solver",
    "P4C.C56_not_enforced"
   ],
   "note": "Proved for well-formed values; that this is needed is proved by C56_not_enforced (the documentation says that well-formedness is assumed and not enforced)."
  },
  {
   "property": "C57",
   "status": "proved",
   "theorems": [
    "P4C.C57_same_results",
    "P4C.C57_linear",
    "P4C.C57_text"
   ],
   "note": "Counted by an instrumented copy of the interpreter that is proved to give the same results. Hash map operations, formatting and quoting are not counted."
  },
  {
   "property": "C58",
   "status": "partial",
   "theorems": [
    "P4C.C58_smallest_partial",
    "P4C.C58_fails"
   ],
   "note": "Proved if every combination of truth values of the atomic parts occurs in the class of contexts. Otherwise, for instance with constants, a smaller sufficient part may exist (negation proved). That the part found is sufficient in general is C05."
  },
  {
   "property": "C59",
   "status": "proved",
   "theorems": [
    "P4C.C59_local",
    "P4C.C59_part"
   ],
   "note": "Stated for whole answers, including errors."
  },
  {
   "property": "C60",
   "status": "partial",
   "theorems": [
    "P4C.C60_tables_partial",
    "P4C.C60_actions_partial",
    "P4C.C60_actions_exact",
    "P4C.C60_fails"
   ],
   "note": "Proved in full for tables, and for actions for names without dots: in the constraints of actions dots are dropped, so that a.b denotes the parameter ab (negation proved; C60_actions_exact for all names)."
  },
  {
   "property": "C61",
   "status": "partial",
   "theorems": [
    "P4C.C61_blames_partial",
    "P4C.C61_blamed",
    "P4C.C61_table",
    "P4C.C61_action",
    "P4C.C61_one_place",
    "P4C.C61_one_reason",
    "P4C.C61_evaluates",
    "P4C.C61_same_errors",
    "P4C.C61_fails",
    "P4C.C61_fails_return"
   ],
   "note": "Proved for widths that are not negative: every error is one of the specified ones, there is no verdict if there is a fault, and if the entry fits, the error about a constraint that cannot be judged is exactly the specified one. The last sentence fails: a violated constraint of an action may be answered by an error that only says that an expression is invalid, and one whose explanation is after a lone carriage return by an error that only says that it cannot be quoted (negations proved)."
  },
  {
   "property": "C62",
   "status": "partial",
   "theorems": [
    "P4C.C62_reads_partial",
    "P4C.C62_plain",
    "P4C.C62_table_partial",
    "P4C.C62_action_partial",
    "P4C.C62_fails"
   ],
   "note": "Proved if parentheses match in the quoted text: it is accepted exactly then. Otherwise it is not, since parentheses around operands do not belong to locations: (a) || (b) is quoted as a) || (b (negation proved). String literals must not span lines (C20_fails)."
  },
  {
   "property": "C63",
   "status": "proved",
   "theorems": [
    "P4C.C63_answers",
    "P4C.C63_errors",
    "P4C.C63_action",
    "P4C.C63_set",
    "P4C.C63_codes_differ"
   ],
   "note": "Error codes may differ, since the first defect found is reported (C63_codes_differ); the order of the arguments of an action does not even change the error. C63_errors assumes that keys have sensible widths, since an omitted range key of negative width crashes."
  },
  {
   "property": "C64",
   "status": "partial",
   "theorems": [
    "P4C.C64_priority_partial",
    "P4C.C64_exact",
    "P4C.C64_ranges_skipped",
    "P4C.C64_fails"
   ],
   "note": "Proved unless range keys are the only ones that call for a priority: such a table gets entries of priority 0, which P4Runtime forbids (negation proved; C64_exact is an equivalence). Range keys must be skipped (C64_ranges_skipped)."
  },
  {
   "property": "C65",
   "status": "proved",
   "theorems": [
    "P4C.C65_accepted",
    "P4C.C65_action",
    "P4C.C65_violated",
    "P4C.C65_value"
   ],
   "note": "An equivalence with a specification in terms of the declarations (Spec/Accept). Operands of connectives that do not matter need not have a value; order of operands matters for that. Bitwidths are assumed not to be negative."
  },
  {
   "property": "C66",
   "status": "proved",
   "theorems": [
    "P4C.C66_accepted",
    "P4C.C66_accepted_not",
    "P4C.C66_and",
    "P4C.C66_or",
    "P4C.C66_or_exact",
    "P4C.C66_implies",
    "P4C.C66_implies_exact",
    "P4C.C66_not",
    "P4C.C66_not_exact",
    "P4C.C66_action_accepted",
    "P4C.C66_action_accepted_not",
    "P4C.C66_action_and",
    "P4C.C66_action_or",
    "P4C.C66_action_implies",
    "P4C.C66_action_not",
    "P4C.C66_action_not_exact",
    "P4C.C66_action_exact",
    "P4C.C66_closed",
    "P4C.C66_open"
   ],
   "note": "The texts must not contain a block comment without an end (C66_open shows that this is needed; C66_closed that texts without /* are of this kind). The theorems named exact say precisely which entries are accepted: that A is violated means there that it has the value false (there may be an error instead of the explanation, see C61)."
  },
  {
   "property": "C67",
   "status": "proved",
   "theorems": [
    "P4C.C67_same",
    "P4C.C67_action",
    "P4C.C67_canonical"
   ],
   "note": "Entries are compared by the packets they match (Spec/Packets). Canonical values are part of the statement; C67_canonical shows that this is needed and not checked."
  },
  {
   "property": "C68",
   "status": "proved",
   "theorems": [
    "P4C.C68_table",
    "P4C.C68_action",
    "P4C.C68_distinguish"
   ],
   "note": "The text is the pretty-printed constraint of C24. C68_distinguish is an equivalence (its converse uses C67). Operands of connectives that do not matter need not have a value, as in C65."
  },
  {
   "property": "C69",
   "status": "proved",
   "theorems": [
    "P4C.C69_report",
    "P4C.C69_action",
    "P4C.C69_least",
    "P4C.C69_sufficient"
   ],
   "note": "An equivalence in terms of the declarations. When sizes have to be compared and are not defined (an action parameter as operand of a comparison), or an operand that was not needed has no value, there is no report but an error (C61)."
  },
  {
   "property": "C70",
   "status": "proved",
   "theorems": [
    "P4C.C70_prints",
    "P4C.C70_read",
    "P4C.C70_status",
    "P4C.C70_same",
    "P4C.C70_crash"
   ],
   "note": "Reading and parsing of files and flags is input. What is printed before a crash is not modelled. Texts printed by protobuf are parameters. Errors are described by C61's relation, and are printed only of entries that are neither accepted nor violate a constraint."
  },
  {
   "property": "C71",
   "status": "partial",
   "theorems": [
    "P4C.C71_create_partial",
    "P4C.C71_add_partial",
    "P4C.C71_text_partial",
    "P4C.C71_concretize",
    "P4C.C71_gives_up",
    "P4C.C71_same",
    "P4C.C71_crash"
   ],
   "note": "Equivalences with the relations of Spec/SymFault, with the text of each message, for a Z3 that is sound and never gives up (C71_gives_up and C71_concretize say what happens if it does). Widths must not be negative. When Z3 stops the process is stated by equivalences, too; that it does is the reason for the status (negation of the full statement proved, C71_crash)."
  },
  {
   "property": "C72",
   "status": "partial",
   "theorems": [
    "P4C.C72_create_partial",
    "P4C.C72_add_partial",
    "P4C.C72_entry_partial",
    "P4C.C72_checked_partial",
    "P4C.C72_always",
    "P4C.C72_fails",
    "P4C.C72_create_exact",
    "P4C.C72_add_exact",
    "P4C.C72_entry_exact",
    "P4C.C72_entry_small_partial",
    "P4C.C72_refused_small_partial"
   ],
   "note": "In terms of declarations and texts only (Spec/Solve). Constraints that order bit strings are excluded in the theorems with suffix _partial: Z3 compares them as signed numbers, so that the claim is false for them (C72_fails). C72_create_exact, C72_add_exact and C72_entry_exact say what is true of them, too: the same, for constraints read in this way. The _small_partial theorems say when this makes no difference. That skipped keys must be omittable and that no key may be called like a mask is necessary, too (C35_fails_skipped, C40_fails_names)."
  },
  {
   "property": "C73",
   "status": "partial",
   "theorems": [
    "P4C.C73_builder_partial",
    "P4C.C73_exact",
    "P4C.C73_fails",
    "P4C.C73_code",
    "P4C.C73_convert",
    "P4C.C73_returnIfError",
    "P4C.C73_retCheck",
    "P4C.C73_bind",
    "P4C.C73_annotate",
    "P4C.C73_quoting",
    "P4C.C73_stable",
    "P4C.C73_stable_form",
    "P4C.C73_codes"
   ],
   "note": "Proved unless something is streamed into a copy of a builder into which something was streamed before: the copy writes over the beginning of the text (C73_fails); C73_exact says that these are the only exceptions. The library itself makes no such copies. Payloads of statuses are not modelled. C73_bind, C73_annotate and C73_quoting connect this with the model of the messages."
  },
  {
   "property": "C74",
   "status": "partial",
   "theorems": [
    "P4C.C74_literal_partial",
    "P4C.C74_exact",
    "P4C.C74_fails",
    "P4C.C74_unique",
    "P4C.C74_range",
    "P4C.C74_every"
   ],
   "note": "Proved for texts without NUL characters. The text is handed to inet_pton as a C string, so that everything after a NUL character is ignored (C74_fails, C74_exact). inet_pton is modelled after glibc (Model/Inet.lean)."
  },
  {
   "property": "C75",
   "status": "proved",
   "theorems": [
    "P4C.C75_same",
    "P4C.C75_accepted",
    "P4C.C75_order"
   ],
   "note": "Bitwidths are assumed not to be negative. That there is an error instead of a verdict is also preserved, but not which one: which of several missing keys is reported depends on the order of a hash map."
  },
  {
   "property": "C76",
   "status": "proved",
   "theorems": [
    "P4C.C76_accepted",
    "P4C.C76_verdict",
    "P4C.C76_judged_alike"
   ],
   "note": "Bitwidths are assumed not to be negative. Messages quote names and so are not the same; only verdicts are compared."
  },
  {
   "property": "C77",
   "status": "proved",
   "theorems": [
    "P4C.C77_verdict",
    "P4C.C77_exists",
    "P4C.C77_ternary",
    "P4C.C77_mask",
    "P4C.C77_optional_mask"
   ],
   "note": "Bitwidths are assumed not to be negative. Programs that are changed otherwise than from optional to ternary may no longer be accepted (example beside the theorems), so there both are assumed to be accepted."
  },
  {
   "property": "C78",
   "status": "partial",
   "theorems": [
    "P4C.C78_tokens",
    "P4C.C78_tree",
    "P4C.C78_fits_partial",
    "P4C.C78_fails",
    "P4C.C78_exact",
    "P4C.C78_fits_lines_partial"
   ],
   "note": "Holds if the number of the @line annotation plus the length of the text is below 2^31 - 1 and the text is shorter than 2^31 / 3. Missing: larger numbers in @line, for which C78_fails shows lines out of range (undefined behaviour in C++, which the model replaces by unbounded integers). C78_exact says exactly when the locations of the tokens of a text that is not too long are in range, C78_fits_lines_partial the same for constraints."
  },
  {
   "property": "C79",
   "status": "proved",
   "theorems": [
    "P4C.C79_history",
    "P4C.C79_monotone",
    "P4C.C79_order",
    "P4C.C79_again",
    "P4C.C79_contradiction",
    "P4C.C79_excluded_middle",
    "P4C.C79_redundant",
    "P4C.C79_and",
    "P4C.C79_or",
    "P4C.C79_implies"
   ],
   "note": "Conditions as for C72: skipped keys may be omitted, names do not clash with names of masks, Z3 is sound and does not give up. No condition on comparisons. For compositions the texts must consist of whole tokens (no unfinished block comment) and be understood on their own."
  },
  {
   "property": "C80",
   "status": "proved",
   "theorems": [
    "P4C.C80_stable",
    "P4C.C80_accepted",
    "P4C.C80_exceptions",
    "P4C.C80_carriage"
   ],
   "note": "The location is not negative. C80_exceptions and C80_carriage show that the exceptions occur."
  },
  {
   "property": "C81",
   "status": "proved",
   "theorems": [
    "P4C.C81_accepted",
    "P4C.C81_verdict",
    "P4C.C81_reports",
    "P4C.C81_action_accepted",
    "P4C.C81_action_verdict",
    "P4C.C81_parentheses"
   ],
   "note": "Widths are not negative. The texts before the part and in it must not end within a block comment (Closed), and each is on a line of its own, so that a line comment in it ends. Only verdicts are compared; messages quote the text and so differ. The table or action is listed first in the program, which is no restriction by C75."
  },
  {
   "property": "C82",
   "status": "partial",
   "theorems": [
    "P4C.C82_equals_partial",
    "P4C.C82_fails",
    "P4C.C82_fails_action",
    "P4C.C82_bool_key"
   ],
   "note": "The part about numbers is proved. The documented part about true and false is false: a program in which a constraint compares a key, parameter, field or number with true or false is never accepted (C82_fails, C82_fails_action; C82_bool_key is a concrete program). Widths are not negative."
  },
  {
   "property": "C83",
   "status": "proved",
   "theorems": [
    "P4C.C83_field",
    "P4C.C83_number",
    "P4C.C83_fields",
    "P4C.C83_optional",
    "P4C.C83_unenforced"
   ],
   "note": "Widths are not negative; entries without action. C83_unenforced is a concrete entry with malformed matches that satisfies a constraint."
  },
  {
   "property": "C84",
   "status": "proved",
   "theorems": [
    "P4C.C84_crash",
    "P4C.C84_otherwise",
    "P4C.C84_error",
    "P4C.C84_outcomes",
    "P4C.C84_exclusive",
    "P4C.C84_one_line"
   ],
   "note": "Widths are not negative."
  },
  {
   "property": "C85",
   "status": "proved",
   "theorems": [
    "P4C.C85_crash",
    "P4C.C85_otherwise",
    "P4C.C85_error",
    "P4C.C85_outcomes",
    "P4C.C85_exclusive",
    "P4C.C85_anywhere",
    "P4C.C85_one_line"
   ],
   "note": "For all programs."
  },
  {
   "property": "C86",
   "status": "proved",
   "theorems": [
    "P4C.C86_table",
    "P4C.C86_actions",
    "P4C.C86_reads",
    "P4C.C86_reads_action"
   ],
   "note": "Ordered comparisons of exact keys themselves, which type check but have no value, are the subject of C02; action constraints that mention the priority that of C45."
  },
  {
   "property": "C87",
   "status": "proved",
   "theorems": [
    "P4C.C87_create",
    "P4C.C87_add",
    "P4C.C87_one_line",
    "P4C.C87_named",
    "P4C.C87_misquoted"
   ],
   "note": "For a Z3 that is sound and never gives up, and widths that are not negative. C87_create excludes skipped keys that must not be omitted and names that clash."
  },
  {
   "property": "C88",
   "status": "partial",
   "theorems": [
    "P4C.C88_syntax_partial",
    "P4C.C88_types",
    "P4C.C88_fails"
   ],
   "note": "Errors about the syntax quote the text (up to what C52 says). Errors about types say what is wrong, but quote the constraint of the table (C88_types says exactly what is reported; negation of the full statement proved)."
  },
  {
   "property": "C89",
   "status": "proved",
   "theorems": [
    "P4C.C89_same_results",
    "P4C.C89_parse",
    "P4C.C89_copied",
    "P4C.C89_check",
    "P4C.C89_height",
    "P4C.C89_quadratic",
    "P4C.C89_deep"
   ],
   "note": "About a parser and a type checker with meters, which give the same results (C89_same_results). Tokenization, copies of tokens, and formatting of errors are not metered."
  },
  {
   "property": "C90",
   "status": "proved",
   "theorems": [
    "P4C.C90_constant",
    "P4C.C90_argument"
   ],
   "note": "For constraints that consist of the comparison; C86 says what it contributes to larger ones."
  },
  {
   "property": "C91",
   "status": "proved",
   "theorems": [
    "P4C.C91_not_rejected",
    "P4C.C91_accepted",
    "P4C.C91_action",
    "P4C.C91_action_accepted",
    "P4C.C91_positions"
   ],
   "note": "C91_positions shows that the positions matter. The parts follow from each other if, whenever one is true of the entry, the other one is not false; parts without a value are covered. The table or action is listed first in the program, which is no restriction by C75."
  },
  {
   "property": "C92",
   "status": "proved",
   "theorems": [
    "P4C.C92_crashes",
    "P4C.C92_true",
    "P4C.C92_compared"
   ],
   "note": "Shows why other theorems assume that widths are not negative. C92_compared is by example."
  },
  {
   "property": "C93",
   "status": "proved",
   "theorems": [
    "P4C.C93_depth",
    "P4C.C93_text",
    "P4C.C93_deep",
    "P4C.C57_same_results"
   ],
   "note": "About the interpreter with counters of C57, which gives the same results (C57_same_results)."
  },
  {
   "property": "C94",
   "status": "proved",
   "theorems": [
    "P4C.C94_queries",
    "P4C.C94_size",
    "P4C.C94_add",
    "P4C.C94_concretize",
    "P4C.C94_create"
   ],
   "note": "Sizes are numbers of nodes of terms as trees. What is asked is expressed by the answers the result depends on."
  },
  {
   "property": "C95",
   "status": "proved",
   "theorems": [
    "P4C.C95_pick",
    "P4C.C95_exactly",
    "P4C.C95_checked",
    "P4C.C95_exclude"
   ],
   "note": "For tables whose keys, unless skipped, have names that can be written in constraints, under the assumptions of C72 on the table and on Z3 (sound, never unknown, interprets the priority). Ordered comparisons of bit strings are read as the solver does (C72_fails); C95_checked is about the checker."
  },
  {
   "property": "C96",
   "status": "proved",
   "theorems": [
    "P4C.C96_alone",
    "P4C.C96_same",
    "P4C.C96_combine"
   ],
   "note": "Under the assumptions of C72 on the table and on Z3 (sound, never unknown). Ordered comparisons of bit strings are read as the solver does. C96_combine moreover assumes that names of keys can be written (C95)."
  },
  {
   "property": "C97",
   "status": "proved",
   "theorems": [
    "P4C.C97_distinct",
    "P4C.C97_next",
    "P4C.C97_ends"
   ],
   "note": "Under the assumptions of C72 on the table and on Z3 (sound, never unknown, interprets the priority), for tables with names of keys that can be written. Ordered comparisons of bit strings are read as the solver does."
  },
  {
   "property": "C98",
   "status": "proved",
   "theorems": [
    "P4C.C98_create",
    "P4C.C98_answers",
    "P4C.C98_entries"
   ],
   "note": "Under the assumptions of C72 on the table and on Z3; for the entries also those of C95. Error messages are not compared: they mention the source of the text."
  },
  {
   "property": "C99",
   "status": "proved",
   "theorems": [
    "P4C.C99_accepted",
    "P4C.C99_create",
    "P4C.C99_answers",
    "P4C.C99_entries",
    "P4C.C99_priority"
   ],
   "note": "Under the assumptions of C72 on the table and on Z3; for the entries also those of C95. Errors are not compared: an undeclared key is a type error, a skipped one is not found."
  }
 ]
}