{"id": "C01", "title": "Verdict agrees with the language semantics", "statement": "For a constraint that the type checker accepts and an entry that is consistent with the table (or an action invocation consistent with the action), the checker answers 'satisfied' exactly when the constraint, read with the semantics of docs/language-specification.md (boolean connectives, comparisons at the common type, int-to-bit conversion modulo 2^W, bit-to-match-key conversion), is true of the entry.", "quantifier": "every constraint expression accepted by the type checker, every table/action definition, every entry/action invocation, every key width", "why_tests_cant": "Expressions and entries form infinite spaces; tests evaluate a fixed list of expressions on a fixed entry.", "anchors": ["p4_constraints/backend/interpreter.cc: Eval, Eval_, EvalBinaryExpression, EvalFieldAccess, EvalAndCastTo", "p4_constraints/backend/type_checker.cc: InferAndCheckTypes", "docs/language-specification.md"]}
{"id": "C02", "title": "Type soundness of constraint evaluation", "statement": "A constraint accepted by InferAndCheckTypes never makes evaluation fail: on every consistent entry (or complete action invocation), evaluating the constraint returns a boolean, not an error status.", "quantifier": "every accepted constraint and every consistent entry / complete action invocation", "why_tests_cant": "Requires all well-typed expressions; a sampled suite in fact asserts that ordered comparisons on exact keys type check and, elsewhere, that evaluating them is an internal error.", "anchors": ["p4_constraints/backend/type_checker.cc: InferAndCheckTypes", "p4_constraints/ast.cc: TypeHasOrdering", "p4_constraints/backend/interpreter.cc: Eval, EvalToInt, DynamicTypeCheck"]}
{"id": "C03", "title": "A violated constraint always yields a non-empty explanation", "statement": "Whenever evaluation of an accepted constraint yields false on a consistent entry or action invocation, ReasonEntryViolatesConstraint returns a non-empty explanation string (rather than an empty string, an error status or a crash).", "quantifier": "every accepted constraint (with the source locations the parser gives it), every violating entry or action invocation", "why_tests_cant": "The explanation path depends on the shape of the constraint, on which operands are false, on the layout of the source text and on whether the constraint is on a table or an action.", "anchors": ["p4_constraints/backend/interpreter.cc: ExplainConstraintViolation, MinimalSubexpressionLeadingToEvalResult", "p4_constraints/ast.cc: Size", "p4_constraints/quote.cc: Quote, Explain, QuoteSubConstraint"]}
{"id": "C04", "title": "The evaluation cache is transparent", "statement": "Evaluating an expression with an evaluation cache whose contents are consistent with the context gives the same outcome (value or error) as evaluating without a cache, and leaves a cache that is again consistent; starting from an empty cache is therefore unobservable.", "quantifier": "every expression, every evaluation context, every consistent cache", "why_tests_cant": "The cache is keyed by node address and shared by evaluation and explanation; only an invariant over all evaluation orders shows that no stale or wrong entry can be read.", "anchors": ["p4_constraints/backend/interpreter.cc: EvalToBool, Eval, MinimalSubexpressionLeadingToEvalResult", "p4_constraints/backend/interpreter.h: EvaluationCache"]}
{"id": "C05", "title": "Explanations are sufficient", "statement": "The subexpression s returned by MinimalSubexpressionLeadingToEvalResult for a constraint e on an entry x justifies the verdict: every other entry on which s evaluates as it does on x also gives e the verdict it has on x.", "quantifier": "every boolean constraint, every pair of contexts on which it evaluates", "why_tests_cant": "Universally quantifies over a second, arbitrary entry; a test can only check which node is returned on an example.", "anchors": ["p4_constraints/backend/interpreter.cc: MinimalSubexpressionLeadingToEvalResult", "p4_constraints/backend/interpreter.h:198-215"]}
{"id": "C06", "title": "Explanations are boolean subexpressions, minimal among justifying candidates", "statement": "The returned explanation is a subexpression of the constraint, is of type boolean, is never itself a negation, and no strictly smaller node on a justifying path (a chain of operands each of which alone forces the value of its parent by short-circuiting or negation) exists; it is the smallest node on such paths, ties resolved to the left.", "quantifier": "every boolean constraint and every context on which it evaluates", "why_tests_cant": "Minimality compares against all candidate nodes of an arbitrary tree.", "anchors": ["p4_constraints/backend/interpreter.cc: MinimalSubexpressionLeadingToEvalResult", "p4_constraints/ast.cc: Size"]}
{"id": "C07", "title": "Results do not depend on hash-map iteration order", "statement": "For a fixed logical table/action definition the verdict (satisfied, violated with which explanation, or error) does not depend on the iteration order of the hash maps that hold the key, parameter, table and action definitions.", "quantifier": "every constraint info, every permutation of its maps, every entry", "why_tests_cant": "absl::flat_hash_map randomises iteration order; a test run observes one order.", "anchors": ["p4_constraints/backend/interpreter.cc: ParseTableEntry, ExplainConstraintViolation", "p4_constraints/backend/constraint_info.cc: P4ToConstraintInfo"]}
{"id": "C08", "title": "Omitted keys are wildcards", "statement": "Omitting an optional key from an entry is indistinguishable from giving the wildcard: an omitted ternary/optional key has value 0 and mask 0, an omitted LPM key has value 0 and prefix length 0, an omitted range key spans 0 to 2^W-1; an explicit match with these contents gives the same verdict.", "quantifier": "every table definition, every entry, every subset of omitted keys", "why_tests_cant": "Ranges over all subsets of keys and all tables.", "anchors": ["p4_constraints/backend/interpreter.cc: ParseTableEntry, ParseKey, MaxValueForBitwidth"]}
{"id": "C09", "title": "Inconsistent entries are rejected for constrained tables", "statement": "For a table with a constraint, an entry with an unknown match field id, a repeated match field, a missing exact key, or a match of a kind other than the one declared is rejected with InvalidArgument, and every other entry over supported match kinds is accepted for evaluation with every key of the table bound.", "quantifier": "every table definition with a constraint, every entry", "why_tests_cant": "All combinations of match fields and table layouts.", "anchors": ["p4_constraints/backend/interpreter.cc: ParseTableEntry, ParseKey, ReasonEntryViolatesConstraint"]}
{"id": "C10", "title": "Unknown tables and actions are rejected; unconstrained ones are never violated", "statement": "ReasonEntryViolatesConstraint returns InvalidArgument for an entry whose table is not defined, or whose action is checked and not defined; and an entry whose table and actions carry no constraint is always reported as satisfying its constraints.", "quantifier": "every constraint info and every entry", "why_tests_cant": "All entries and all definitions.", "anchors": ["p4_constraints/backend/interpreter.cc: ReasonEntryViolatesConstraint", "p4_constraints/backend/constraint_info.cc: GetTableInfoOrNull, GetActionInfoOrNull"]}
{"id": "C11", "title": "Every constraint attached to an entry is checked", "statement": "ReasonEntryViolatesConstraint returns the empty string exactly when the table constraint holds and, for a direct action or each action of a one-shot action set, the constraint of that action holds; the explanation returned otherwise belongs to the first failing one in the order table, then actions as listed.", "quantifier": "every constraint info, every entry with direct action, one-shot action set of any length, or no action", "why_tests_cant": "Action sets are of unbounded length and any member may be the only violating one.", "anchors": ["p4_constraints/backend/interpreter.cc: ReasonEntryViolatesConstraint"]}
{"id": "C12", "title": "P4Runtime byte strings denote big-endian unsigned integers", "statement": "A byte string in a match or parameter is read as the big-endian unsigned integer it encodes; leading zero bytes are irrelevant, two byte strings without leading zeros denote the same integer only if equal, and the empty string denotes 0.", "quantifier": "every byte string of every length", "why_tests_cant": "Infinite domain.", "anchors": ["p4_constraints/backend/interpreter.cc: ParseP4RTInteger"]}
{"id": "C13", "title": "Implicit castability is a strict partial order with least upper bounds", "statement": "Castability between types is irreflexive, transitive and asymmetric, and two operands of a comparison are accepted exactly if they have an upper bound; the common type chosen is the least upper bound, independent of operand order.", "quantifier": "all types, all bit widths", "why_tests_cant": "Bit widths are unbounded; order laws quantify over triples of types.", "anchors": ["p4_constraints/backend/type_checker.cc: StrictlyAboveInCastabilityOrder, LeastUpperBound, Unify"]}
{"id": "C14", "title": "Type checking only annotates and inserts legal casts", "statement": "On success InferAndCheckTypes returns the same expression up to type annotations and inserted casts: removing casts and annotations gives back the input, source locations are unchanged, inserted casts carry the location of what they convert, every inserted cast is one legal implicit conversion step (int to bit<W>, or bit<W> to a match type of the same width), and no node has type unknown or unsupported.", "quantifier": "every expression, every table/action definition", "why_tests_cant": "All syntax trees.", "anchors": ["p4_constraints/backend/type_checker.cc: InferAndCheckTypes, WrapWithCast, CastTransitivelyTo, Unify", "p4_constraints/backend/type_checker.h"]}
{"id": "C15", "title": "The type checker accepts exactly the well-formed constraints", "statement": "InferAndCheckTypes succeeds on an expression (free of casts) exactly when it is derivable by the typing rules of the language specification (known key/parameter/attribute of supported type, existing field, boolean operands of connectives, int operand of minus, comparable operands of comparisons, ordered operands of <,<=,>,>=), and the type it infers is the derived one, which is unique.", "quantifier": "every cast-free expression, every table/action definition", "why_tests_cant": "Completeness and soundness over all syntax trees.", "anchors": ["p4_constraints/backend/type_checker.cc: InferAndCheckTypes, FieldTypeOfCompositeType", "p4_constraints/ast.cc: TypeHasOrdering", "docs/language-specification.md"]}
{"id": "C16", "title": "Type checking is not repeated silently", "statement": "Type checking an already checked expression either leaves it unchanged (when no cast had been inserted) or fails at one of the casts that had been inserted: with InvalidArgument if the text of the cast can be quoted, with Internal if quoting gives an error, and with a crash if quoting crashes (see C48). It never produces a different elaboration.", "quantifier": "every expression accepted once", "why_tests_cant": "All syntax trees.", "anchors": ["p4_constraints/backend/type_checker.cc: InferAndCheckTypes", "p4_constraints/backend/type_checker.h"]}
{"id": "C17", "title": "Implicit conversions have their documented meaning", "statement": "Comparing an integer with a bit<W> value compares modulo 2^W (so -1 is the all-ones value); comparing a bit<W> value b with an exact, ternary, LPM, range or optional key holds exactly if the key is the exact match for b (value b; mask all ones; prefix length W; range [b,b]).", "quantifier": "every integer, every width W, every key value", "why_tests_cant": "Unbounded integers and widths.", "anchors": ["p4_constraints/backend/interpreter.cc: EvalAndCastTo", "docs/language-specification.md"]}
{"id": "C18", "title": "Comparison operators are coherent", "statement": "On operands on which they evaluate, != is the negation of ==, < the negation of >=, > the negation of <=, <= is < or ==, swapping operands swaps < with > and <= with >=, and == is an equivalence.", "quantifier": "every pair of well-typed operand expressions and every context", "why_tests_cant": "All operand pairs.", "anchors": ["p4_constraints/backend/interpreter.cc: EvalBinaryExpression"]}
{"id": "C19", "title": "Lexing is total and properly terminated", "statement": "Tokenizing any string terminates and yields a token sequence whose last token, and only the last, is END_OF_INPUT or UNEXPECTED_CHAR; END_OF_INPUT occurs exactly if the whole input was consumed.", "quantifier": "every input string (any bytes)", "why_tests_cant": "All strings.", "anchors": ["p4_constraints/frontend/lexer.cc: Tokenize, kTokenPattern"]}
{"id": "C20", "title": "Token locations are truthful", "statement": "The line/column interval reported for a token is exactly the position of its lexeme in the input (counting \\n, \\r and \\r\\n as line breaks), intervals are in increasing order and do not overlap, and identifiers and keywords carry the text found there.", "quantifier": "every input string and starting location", "why_tests_cant": "All strings, including multi-line comments and all line break styles.", "anchors": ["p4_constraints/frontend/lexer.cc: Tokenize, SwallowMultiLineComment"]}
{"id": "C21", "title": "White space and comments are insignificant", "statement": "Inserting spaces, tabs, newlines, // comments or /* */ comments between tokens does not change the parsed constraint other than in its source locations.", "quantifier": "every token sequence, every way of separating the tokens", "why_tests_cant": "Infinitely many layouts per constraint.", "anchors": ["p4_constraints/frontend/lexer.cc: Tokenize, SwallowMultiLineComment", "p4_constraints/frontend/parser.cc: ParseConstraint"]}
{"id": "C22", "title": "Lexing inverts printing of tokens", "statement": "Writing out any sequence of valid tokens separated by white space and tokenizing the result gives back the same token kinds and texts.", "quantifier": "every sequence of tokens", "why_tests_cant": "All token sequences.", "anchors": ["p4_constraints/frontend/lexer.cc: Tokenize", "p4_constraints/frontend/token.cc: KindToKeyword"]}
{"id": "C23", "title": "The parser recognises exactly the documented grammar", "statement": "A token sequence is accepted by the parser exactly if it is derivable in the precedence-stratified grammar of the language specification (:: field access, unary ! and -, non-associative comparisons, left-associative &&, left-associative ||, non-associative ->, ; with optional trailing ;), and the tree built is the unique one of that derivation.", "quantifier": "every token sequence", "why_tests_cant": "All token sequences; the precedence-climbing loop must be related to a grammar by induction.", "anchors": ["p4_constraints/frontend/parser.cc: ParseConstraintAbove, TokenPrecedence, TokenAssociativity", "docs/language-specification.md"]}
{"id": "C24", "title": "Parsing inverts pretty-printing", "statement": "Every expressible constraint, printed with the necessary parentheses, is parsed back to the same tree (up to source locations).", "quantifier": "every constraint tree over valid identifiers and numerals", "why_tests_cant": "All trees.", "anchors": ["p4_constraints/frontend/parser.cc: ParseConstraint", "p4_constraints/frontend/lexer.cc: Tokenize", "p4_constraints/frontend/ast_constructors.cc: MakeBinaryExpression, MakeVariable"]}
{"id": "C25", "title": "Semicolon is conjunction of weakest precedence, optionally trailing", "statement": "A constraint 'a; b' means a && b for arbitrary a and b without parentheses, 'a;' means a, and a leading or doubled semicolon is rejected.", "quantifier": "all constraint texts a and b", "why_tests_cant": "All texts.", "anchors": ["p4_constraints/frontend/parser.cc: ParseConstraintAbove", "docs/language-specification.md"]}
{"id": "C26", "title": "Numerals denote their mathematical value in every base", "statement": "A binary, octal, decimal or hexadecimal numeral of any length is converted to exactly its value; two numerals of equal value in different bases, letter case or with leading zeros are interchangeable.", "quantifier": "every digit string in bases 2, 8, 10, 16", "why_tests_cant": "Unbounded digit strings.", "anchors": ["p4_constraints/frontend/ast_constructors.cc: ConvertNumeral, MakeIntegerConstant", "p4_constraints/frontend/lexer.cc: kTokenPattern"]}
{"id": "C27", "title": "Network address literals denote their byte-wise value", "statement": "ipv4('a.b.c.d') denotes a*2^24+b*2^16+c*2^8+d and is accepted exactly for four decimal bytes 0..255 of one to three digits; mac('..') denotes its 48-bit value and is accepted exactly for six groups of one or two hexadecimal digits; anything else is rejected with InvalidArgument.", "quantifier": "every string literal", "why_tests_cant": "All strings.", "anchors": ["p4_constraints/frontend/ast_constructors.cc: Ipv4StringToInteger, MacStringToInteger, Base10StringToByte, Base16StringToByte, MakeNetworkAddressIntegerConstant"]}
{"id": "C28", "title": "Source spans of parsed constraints are well nested", "statement": "Every node of a parsed constraint spans a non-empty interval that contains the spans of its children, in source order, and the span of the root lies within the text.", "quantifier": "every text accepted by the parser", "why_tests_cant": "All parse trees.", "anchors": ["p4_constraints/frontend/parser.cc: ParseConstraintAbove", "p4_constraints/frontend/ast_constructors.cc: LocatedExpression"]}
{"id": "C29", "title": "Quoting a subconstraint shows the right text and never crashes", "statement": "For every node of a constraint parsed from its source, quoting the node succeeds and its first quoted line is the source line on which the node starts, underlined from the node's start.", "quantifier": "every constraint text, every node", "why_tests_cant": "All texts and layouts; the marker arithmetic depends on column and line length.", "anchors": ["p4_constraints/quote.cc: Quote, Explain, QuoteSubConstraint"]}
{"id": "C30", "title": "The annotation string is the concatenation of its string parts", "statement": "For @entry_restriction(\"s1\" \"s2\" ... \"sn\") with parts free of quotes, the constraint parsed is s1..sn joined by newlines; malformed annotations (missing parentheses or stray quotes) are rejected; location annotations before it set the reported file and line.", "quantifier": "every list of annotation strings", "why_tests_cant": "All annotation lists.", "anchors": ["p4_constraints/backend/constraint_info.cc: ExtractConstraint, GetConstraintAnnotation, SetConstraintLocationName"]}
{"id": "C31", "title": "P4ToConstraintInfo succeeds exactly on well-formed programs and loses nothing", "statement": "P4ToConstraintInfo succeeds exactly if table ids and action ids are unique and every table and action is individually well formed (unique key ids and names, constraint parses and type checks); on success the result maps each id to precisely the definition of that table or action, independent of declaration order.", "quantifier": "every P4Info", "why_tests_cant": "Unbounded numbers of tables and actions.", "anchors": ["p4_constraints/backend/constraint_info.cc: P4ToConstraintInfo, ParseTableInfo, ParseActionInfo"]}
{"id": "C32", "title": "Keys by id and keys by name describe the same keys", "statement": "In every table of a successfully parsed program the id-indexed and the name-indexed key maps hold exactly the same keys, one for each match field; likewise for action parameters.", "quantifier": "every P4Info accepted", "why_tests_cant": "All tables.", "anchors": ["p4_constraints/backend/constraint_info.cc: ParseTableInfo, ParseActionInfo"]}
{"id": "C33", "title": "Table id coercion in p4check sets exactly the table prefix", "statement": "CoerceToTableId keeps the low 24 bits, sets the top byte to the table prefix, is idempotent, and identifies two ids exactly if their low 24 bits agree.", "quantifier": "all 32-bit ids", "why_tests_cant": "2^32 ids and pairs of ids.", "anchors": ["p4_constraints/cli/p4check.cc: CoerceToTableId"]}
{"id": "C34", "title": "Symbolic and concrete interpreters agree", "statement": "For an accepted constraint over supported keys and any assignment to the symbolic keys and priority, the formula built by the symbolic interpreter is true under the assignment exactly if the concrete interpreter evaluates the constraint to true on the entry described by the assignment.", "quantifier": "every accepted constraint, every assignment", "why_tests_cant": "Requires relating two interpreters on all expressions and all entries.", "anchors": ["p4_constraints/backend/symbolic_interpreter.cc: EvalSymbolically, EvalBinaryExpression, EvalTypeCast, GetFieldAccess, EnsureSameType", "p4_constraints/backend/interpreter.cc: Eval"]}
{"id": "C35", "title": "Entries produced by the constraint solver satisfy the constraints", "statement": "Every entry returned by ConcretizeEntry of a ConstraintSolver satisfies the table's constraint and all constraints accepted by AddConstraint, according to ReasonEntryViolatesConstraint.", "quantifier": "every table, every history of AddConstraint calls, every model the SMT solver may return", "why_tests_cant": "The SMT solver may return any model; histories are unbounded.", "anchors": ["p4_constraints/backend/symbolic_interpreter.cc: ConstraintSolver::Create, AddConstraint, ConcretizeEntry"]}
{"id": "C36", "title": "Concretized entries are canonical P4Runtime entries", "statement": "Every entry produced by ConcretizeEntry has each match field at most once, exact keys that are not skipped always present, no ternary/optional/LPM key that is a pure wildcard, no value bits outside the mask or prefix, byte strings without redundant leading zeros that fit the key width, and a priority that is positive exactly if the table has ternary or optional keys.", "quantifier": "every table, every model", "why_tests_cant": "All models and all widths.", "anchors": ["p4_constraints/backend/symbolic_interpreter.cc: ConcretizeKey, AddSymbolicKey, AddSymbolicPriority, ConcretizeEntry"]}
{"id": "C37", "title": "AddConstraint is transactional", "statement": "AddConstraint returning false or an error leaves the solver state (and so all later answers) unchanged, returning true adds exactly the constraint, and the solver's state stays satisfiable in every history.", "quantifier": "every history of operations", "why_tests_cant": "Unbounded histories.", "anchors": ["p4_constraints/backend/symbolic_interpreter.cc: AddConstraint, Create"]}
{"id": "C38", "title": "Skipped keys are omitted and unconstrained", "statement": "A key for which the skip function answers true never occurs in a concretized entry, and a constraint mentioning such a key is rejected rather than silently misread.", "quantifier": "every table, every skip function, every model", "why_tests_cant": "All tables and models.", "anchors": ["p4_constraints/backend/symbolic_interpreter.cc: Create, ConcretizeEntry"]}
{"id": "C39", "title": "Byte string encoding is canonical and inverse to decoding", "statement": "The byte string produced for a bit-vector value of any width decodes (as P4Runtime integer) to that value, has no redundant leading zero byte, and is never empty.", "quantifier": "every width and every value", "why_tests_cant": "All widths and values.", "anchors": ["p4_constraints/backend/symbolic_interpreter.cc: BitstringToP4RuntimeBytestring, HexstringToP4RuntimeBytestring, Z3BitvectorValueToP4RuntimeBytestring", "p4_constraints/backend/interpreter.cc: ParseP4RTInteger"]}
{"id": "C40", "title": "The constraint solver is complete", "statement": "If some canonical entry of the table satisfies the table's constraint and the added constraints, creating the solver and adding them succeeds (returns true), provided the SMT solver does not give up.", "quantifier": "every table without skipped keys, every constraint, every canonical entry", "why_tests_cant": "Quantifies over all entries that might satisfy a formula.", "anchors": ["p4_constraints/backend/symbolic_interpreter.cc: Create, AddConstraint, AddSymbolicKey"]}
{"id": "C41", "title": "The verdict depends only on the variables a constraint mentions", "statement": "GetVariables returns exactly the keys and parameters occurring in a constraint, and two entries that agree on them (and on the priority) get the same verdict.", "quantifier": "every constraint and every pair of contexts", "why_tests_cant": "All expressions and pairs of entries.", "anchors": ["p4_constraints/ast.cc: GetVariables, AddVariables", "p4_constraints/backend/interpreter.cc: Eval"]}
{"id": "C42", "title": "Violation messages list exactly the relevant keys, in order", "statement": "The field listing of a violation message contains exactly the keys (parameters) occurring in the explanation, each once with its value in the entry, in lexicographic order. The values can be told from what is written: match kind, and decimal numbers for value, mask, prefix length and bounds.", "quantifier": "every violated constraint and entry", "why_tests_cant": "All expressions; depends on set semantics and ordering.", "anchors": ["p4_constraints/backend/interpreter.cc: ExplainConstraintViolation, EvalResultToString", "p4_constraints/ast.cc: GetVariables"]}
{"id": "C43", "title": "Malformed constraint text is always reported as InvalidArgument", "statement": "For every text, ParseConstraint terminates and returns either a tree or an InvalidArgument status; it never crashes, loops, or reports an internal error.", "quantifier": "every string", "why_tests_cant": "All strings; recursion and error quoting paths.", "anchors": ["p4_constraints/frontend/parser.cc: ParseConstraint, ParseError, Unexpected", "p4_constraints/frontend/lexer.cc: Tokenize", "p4_constraints/frontend/ast_constructors.cc"]}
{"id": "C44", "title": "The connectives are boolean functions: short-circuiting is unobservable", "statement": "For accepted constraints on consistent entries, && , || and -> have the values of the boolean functions regardless of evaluation order: && and || are commutative and associative, && and || distribute over each other, a -> b equals !a || b, and De Morgan's laws and double negation hold. In each case the two constraints are accepted by the type checker together, and the same entries satisfy them.", "quantifier": "all accepted constraints and entries", "why_tests_cant": "All pairs/triples of expressions; short-circuit evaluation skips operands that could fail.", "anchors": ["p4_constraints/backend/interpreter.cc: EvalBinaryExpression"]}
{"id": "C45", "title": "No wrong verdict", "statement": "Whenever ReasonEntryViolatesConstraint returns a non-error answer for an entry that is consistent with its constrained table (or a complete action invocation), the answer is right: an empty reason only if the constraint is true of the entry in the language semantics, a non-empty one only if it is false. Errors are possible, silently wrong verdicts are not.", "quantifier": "every accepted constraint, every consistent entry", "why_tests_cant": "Unlike C01 it has no side condition on the constraint, so it covers the constraints on which evaluation can fail; all expressions and entries.", "anchors": ["p4_constraints/backend/interpreter.cc: ReasonEntryViolatesConstraint, EvalToBool, Eval"]}
{"id": "C46", "title": "From the text of a program to the verdict", "statement": "If P4ToConstraintInfo accepts a program in which a table (action) carries a restriction annotation, then the annotation text is a well-typed constraint of the documented grammar over the declared keys (parameters); if it is boolean, an entry (invocation) that fits the declarations is reported as satisfying exactly if the constraint is true of it in the language semantics, and otherwise every entry is rejected as an invalid argument; without annotation every entry is accepted.", "quantifier": "every accepted program, every table and action in it, every consistent entry", "why_tests_cant": "Composes lexing, parsing, type checking, entry reading and evaluation, for all programs and entries; tests fix both.", "anchors": ["p4_constraints/backend/constraint_info.cc: P4ToConstraintInfo", "p4_constraints/backend/interpreter.cc: ReasonEntryViolatesConstraint"]}
{"id": "C47", "title": "p4check reports on each entry file separately", "statement": "p4check exits with status 1 and reports nothing exactly if the program file is not given, missing, malformed or not accepted; otherwise it exits with status 0 and reports on every entry file, in order, what ReasonEntryViolatesConstraint says of this file alone. Table ids match if their low 24 bits agree; programs with two tables whose ids collide in this sense are rejected.", "quantifier": "every program, every list of entry files", "why_tests_cant": "All programs and lists of files; independence between files is not testable by examples.", "anchors": ["p4_constraints/cli/p4check.cc: main, CoerceToTableId"]}
{"id": "C48", "title": "Faulty programs are reported as invalid arguments", "statement": "P4ToConstraintInfo terminates on every program, and returns either the definitions or an InvalidArgument status; it never crashes nor reports an internal error.", "quantifier": "every P4Info", "why_tests_cant": "All programs, and in particular all constraint texts with all type errors.", "anchors": ["p4_constraints/backend/constraint_info.cc: P4ToConstraintInfo, ParseTableInfo, ParseActionInfo", "p4_constraints/backend/type_checker.cc: InferAndCheckTypes"]}
{"id": "C49", "title": "Texts given to AddConstraint are validated like annotations", "statement": "AddConstraint(text) gives an answer only if the text is a constraint of boolean type over the keys of the table; any other text is rejected with an InvalidArgument error and the solver is left as before.", "quantifier": "every solver history, every text", "why_tests_cant": "Unbounded texts, and all states of the solver.", "anchors": ["p4_constraints/backend/symbolic_interpreter.cc: ConstraintSolver::AddConstraint", "p4_constraints/backend/type_checker.cc: InferAndCheckTypes", "p4_constraints/frontend/parser.cc: ParseConstraint"]}
{"id": "C50", "title": "A created solver always concretizes", "statement": "Once ConstraintSolver::Create has succeeded, ConcretizeEntry returns an entry after any sequence of AddConstraint and ConcretizeEntry calls, whatever their results were.", "quantifier": "every table, every skip function, every history, every sound and decisive Z3", "why_tests_cant": "Histories are unbounded and the models that Z3 may return are arbitrary.", "anchors": ["p4_constraints/backend/symbolic_interpreter.cc: ConstraintSolver::ConcretizeEntry, ConcretizeKey, AddConstraint, Create"]}
{"id": "C51", "title": "Quotations name the place they quote", "statement": "For an interval of the text of a constraint, QuoteSubConstraint returns a first line that names the file, table or action and the interval with lines and columns counted from one, followed by the source line before the interval, the source line on which it starts with its number, and markers below it; nothing else, and it succeeds whenever this is possible. Otherwise it returns an InvalidArgument error, except for exactly characterised crashes.", "quantifier": "every text, every start location and every pair of interval ends not before it", "why_tests_cant": "Texts, line numbers and columns are unbounded; tests compare a few messages.", "anchors": ["p4_constraints/quote.cc: Explain, Quote, QuoteSubConstraint"]}
{"id": "C52", "title": "Syntax errors blame the first token that cannot continue the constraint", "statement": "If ParseConstraint fails, the message quotes (in the sense of C51) the first token of the text that no constraint continues with after the tokens before it, and says why: that it is no token at all, that other tokens, at least one of which could indeed stand there, are expected, or that it is an operator that does not associate, in which case parenthesizing what is to its left would allow it.", "quantifier": "every text, every start location", "why_tests_cant": "Quantifies over all texts and, through 'cannot continue', over all continuations of each prefix; tests compare a few messages.", "anchors": ["p4_constraints/frontend/parser.cc: ParseConstraint, ParseConstraintAbove, ExpectTokenKind, Unexpected, ParseError"]}
{"id": "C53", "title": "The tokens named as expected are the possible ones", "statement": "When ParseConstraint reports an unexpected token, the tokens that the message lists as expected are exactly those that could follow in some constraint; they are named unambiguously, keywords and operators by their spelling.", "quantifier": "every text, every start location", "why_tests_cant": "Which tokens are possible is a statement about all continuations of all prefixes.", "anchors": ["p4_constraints/frontend/parser.cc: Unexpected, ExpectTokenKind, ParseConstraintAbove"]}
{"id": "C54", "title": "Type errors blame the first ill-typed part and say truthfully why", "statement": "If a constraint that parses is rejected by InferAndCheckTypes, the message quotes (in the sense of C51) the first part, from left to right and from the inside out, that has no type although its own parts have types, and describes what is wrong with it: the name is not declared or of an unsupported type, an operand has the named type instead of the required one, the two named types have no common supertype, the named type has no order, or it has no such field. Types are named so that they can be told apart. There is never more than one such description.", "quantifier": "every constraint text, every declaration of keys or action parameters", "why_tests_cant": "Quantifies over all constraints and all declarations; which part is to blame depends on the types of all others.", "anchors": ["p4_constraints/backend/type_checker.cc: InferAndCheckTypes, Unify, StaticTypeError", "p4_constraints/ast.cc: TypeName"]}
{"id": "C55", "title": "A faulty program is reported completely, in order, once per definition", "statement": "If P4ToConstraintInfo fails, its message lists, first for the tables and then for the actions, in the order of the P4Info, exactly one message for each definition that is faulty or whose id is that of an earlier good definition, and none for the others. Each message describes the first fault of its definition: the first bad key or parameter, the form of the annotation, the first malformed address or misplaced token of the constraint, or its first part without a type; it names the table or action.", "quantifier": "every P4Info", "why_tests_cant": "Quantifies over programs with any number and combination of faults; tests have programs with one or two.", "anchors": ["p4_constraints/backend/constraint_info.cc: P4ToConstraintInfo, ParseTableInfo, ParseActionInfo, ExtractConstraint, ParseKeyType"]}
{"id": "C56", "title": "Equality of keys is equality of the packets they match", "statement": "For entries that meet the documented well-formedness conditions, which are assumed but not enforced, an equality between keys, fields and numbers that convert to a common key type holds exactly if the two sides match the same packets, and an inequality exactly if they do not. A match that matches every packet may be omitted without effect on the verdict, and an omitted match matches every packet. Entries produced by the solver are well formed.", "quantifier": "every table, every entry, every well-formed value and width", "why_tests_cant": "Compares two infinite families of sets of packets; tests compare single values.", "anchors": ["p4_constraints/backend/interpreter.cc: Eval, EvalBinaryExpression, EvalAndCastTo, ParseKey", "docs/language-specification.md: Accessing the fields of a key", "p4_constraints/backend/symbolic_interpreter.cc: ConcretizeEntry"]}
{"id": "C57", "title": "Checking an entry takes linear time", "statement": "ReasonEntryViolatesConstraint makes a number of calls of Eval, EvalToBool, EvalToInt, MinimalSubexpressionLeadingToEvalResult, ast::Size and AddVariables that is at most linear in the length of the constraints of the table and of the actions of the entry, whether the entry is satisfied, violated (so that an explanation is searched) or faulty.", "quantifier": "every P4Info, every entry", "why_tests_cant": "Tests run small constraints; superlinear cost only shows for nested ones, and a missing cache insertion never changes results.", "anchors": ["p4_constraints/backend/interpreter.cc: ReasonEntryViolatesConstraint, MinimalSubexpressionLeadingToEvalResult, Eval, EvalToBool", "p4_constraints/ast.cc: Size"]}
{"id": "C58", "title": "The explanation is the smallest subexpression that determines the result", "statement": "The subexpression s of e found by MinimalSubexpressionLeadingToEvalResult is the smallest one among the boolean subexpressions reached via negations and connectives such that in every context in which s has the same value e has the same value too.", "quantifier": "every constraint, every class of contexts, every context of it", "why_tests_cant": "Quantifies over pairs of entries and over all alternative explanations.", "anchors": ["p4_constraints/backend/interpreter.h: MinimalSubexpressionLeadingToEvalResult", "p4_constraints/backend/interpreter.cc: MinimalSubexpressionLeadingToEvalResult"]}
{"id": "C59", "title": "Definitions do not interfere", "statement": "What ReasonEntryViolatesConstraint says about an entry - verdict, explanation or error - depends only on the definitions of the table and of the actions named by the entry: it is the same for any two accepted programs that have the same such definitions, in whatever order and among whatever others. Removing definitions from an accepted program leaves it accepted and the answers about entries that only concern the remaining ones unchanged.", "quantifier": "every pair of accepted P4Infos that agree on the definitions named by an entry, every entry", "why_tests_cant": "Relates runs on two arbitrary programs; tests run one program at a time.", "anchors": ["p4_constraints/backend/constraint_info.cc: P4ToConstraintInfo, GetTableInfoOrNull, GetActionInfoOrNull", "p4_constraints/backend/interpreter.cc: ReasonEntryViolatesConstraint"]}
{"id": "C60", "title": "Names in constraints denote what they spell", "statement": "Every name written in the constraint of an accepted program - a maximal sequence of identifiers separated by dots that is not the name of a field, attribute or kind of address - is, including its dots and regardless of blanks and comments within it, the name of a key of the table or parameter of the action.", "quantifier": "every accepted P4Info, every name written in one of its constraints", "why_tests_cant": "Quantifies over all texts and positions of names in them.", "anchors": ["p4_constraints/frontend/parser.cc: ParseConstraintAbove", "p4_constraints/frontend/ast_constructors.cc: MakeVariable", "p4_constraints/backend/type_checker.cc: InferAndCheckTypes"]}
{"id": "C61", "title": "Errors about entries say what is wrong", "statement": "If ReasonEntryViolatesConstraint returns an error status for an entry of an accepted program, the code and message describe what is wrong: an unknown table, key, action or parameter by its id; a match of another kind, a duplicate or missing match; a constraint that is not boolean; or the first part of the constraint, in the order of evaluation, that has no value, quoted from the source with its location. Conversely there is no verdict if there is such a fault. An entry that violates a constraint is never answered by an error.", "quantifier": "every accepted P4Info, every entry", "why_tests_cant": "Quantifies over all ways in which entries and evaluation can go wrong, and over which of several faults is reported.", "anchors": ["p4_constraints/backend/interpreter.cc: ReasonEntryViolatesConstraint, ParseKey, ParseTableEntry, ParseAction, Eval, P4IDToString", "p4_constraints/backend/errors.cc: RuntimeTypeError"]}
{"id": "C62", "title": "What a message quotes is itself a constraint with the reported value", "statement": "The part of a constraint that a violation message quotes, cut out of the text at the reported locations and used as a constraint by itself, is accepted, is read as exactly that part, and has on the entry the value that the message says. More generally the text between the locations of any expression in the tree built by ParseConstraint is parsed into the same expression again.", "quantifier": "every accepted constraint, every subexpression, every entry or action that violates the constraint", "why_tests_cant": "Quantifies over all constraint texts and all their subexpressions; depends on how locations of tokens are combined by the parser and on whether the lexer reads a cut-out text in the same way.", "anchors": ["p4_constraints/frontend/parser.cc: ParseConstraintAbove, ParseConstraint", "p4_constraints/frontend/ast_constructors.cc: MakeBinaryExpression and other constructors (locations)", "p4_constraints/frontend/lexer.cc: Tokenize", "p4_constraints/backend/interpreter.cc: ExplainConstraintViolation", "p4_constraints/quote.cc: QuoteSubConstraint"]}
{"id": "C63", "title": "The order of the parts of an entry does not matter", "statement": "ReasonEntryViolatesConstraint gives the same answer - verdict and message - for two entries that differ only in the order of their match fields and of the arguments of their actions, and returns an error for one exactly if it does for the other. Whether an entry with an action set is accepted does not depend on the order of the set.", "quantifier": "every accepted P4Info, every pair of entries that are permutations of one another", "why_tests_cant": "Relates runs on two arbitrary entries with arbitrary permutations of their repeated fields.", "anchors": ["p4_constraints/backend/interpreter.cc: ReasonEntryViolatesConstraint, ParseTableEntry, ParseAction, ParseKey"]}
{"id": "C64", "title": "Concretized entries have the priority P4Runtime requires", "statement": "Every entry produced by ConcretizeEntry has a positive priority that fits an int32 if the table has a ternary, range or optional match field, and priority 0 otherwise.", "quantifier": "every table, skip function, history of the solver, and answer of Z3", "why_tests_cant": "Quantifies over tables, histories and over all models Z3 may return.", "anchors": ["p4_constraints/backend/symbolic_interpreter.cc: ConstraintSolver::Create, ConcretizeEntry, AddSymbolicPriority"]}
{"id": "C65", "title": "Exactly which entries are accepted, end to end", "statement": "For every P4 program that is accepted, the answer for an entry is 'no violation' if and only if the entry is for a table of the program, that table has no constraint or a constraint whose text, read as a formula over the declared keys and evaluated on the values the entry gives them, is true, and the action of the entry is absent, or consists of declared actions of which the same holds. Only entries for which some constraint is false are said to violate one. References to action profile members or groups are never accepted.", "quantifier": "all programs, tables, actions, constraint texts and entries, with non-negative bitwidths", "why_tests_cant": "Unit tests compare verdicts for a handful of constraints and entries; that acceptance coincides with a meaning given independently of the code concerns all texts and entries at once.", "anchors": ["p4_constraints/backend/interpreter.cc: ReasonEntryViolatesConstraint, ReasonActionViolatesConstraint, EvalExpr", "p4_constraints/backend/constraint_info.cc: P4ToConstraintInfo"]}
{"id": "C66", "title": "Constraints can be composed as texts", "statement": "Putting the texts of two accepted constraints A and B of a table (or action) between parentheses, with && or || or -> in between, or ! before A, gives a constraint that is accepted exactly if A and B are boolean, and that has the meaning one expects: an entry satisfies (A) && (B) exactly if it satisfies A and B; it satisfies (A) || (B) if it satisfies A, or violates A and satisfies B, and only then; it satisfies (A) -> (B) if it violates A, or satisfies both, and so on. This holds for texts with line comments and final semicolons, if the texts are on lines of their own and every block comment has an end; every accepted text without /* is of this kind.", "quantifier": "all programs, texts, connectives and entries", "why_tests_cant": "It relates the reading of a text to the readings of its parts, for all texts; tests only show particular texts. Comments without an end are accepted, so that the condition is needed.", "anchors": ["p4_constraints/frontend/lexer.cc: Tokenize", "p4_constraints/frontend/parser.cc: ParseConstraint", "p4_constraints/backend/type_checker.cc: InferAndCheckTypes", "p4_constraints/backend/interpreter.cc: ReasonEntryViolatesConstraint"]}
{"id": "C67", "title": "The verdict depends only on what an entry does, not on how it is written", "statement": "Two entries of a table that match the same packets, have the same priority and invoke the same actions with the same arguments get the same result: the same verdict, the same explanation, or the same error. Thus leading zero bytes, keys that are omitted or given as wildcards that match everything, and the order of matches and arguments do not matter. The values of keys must fit the widths of the keys and be canonical (no bits outside of masks and prefixes), as P4Runtime demands; this is not checked, and without it the statement does not hold.", "quantifier": "all programs and pairs of entries", "why_tests_cant": "It compares all the ways to write an entry, by means of all packets; tests compare a few byte strings.", "anchors": ["p4_constraints/backend/interpreter.cc: ParseP4RTInteger, ParseTableEntry, ReasonEntryViolatesConstraint"]}
{"id": "C68", "title": "Whatever can be said of entries can be written, and constraints tell apart entries that do different things", "statement": "Every well-typed boolean constraint whose names are identifiers can be attached as a text to a table (or action) without constraint: the program is still accepted, of the entries of the table exactly those for which the constraint is true remain accepted, and other entries are not affected. Conversely no information is lost: if no constraint text distinguishes two entries of the table, then they match the same packets and have the same priority, and only then.", "quantifier": "all programs, abstract constraints and entries; all texts (the entries being compared are canonical, and the names of keys are identifiers)", "why_tests_cant": "It quantifies over all constraints and all texts, and says that something does not exist.", "anchors": ["p4_constraints/backend/constraint_info.cc: P4ToConstraintInfo", "p4_constraints/frontend/parser.cc: ParseConstraint", "p4_constraints/backend/type_checker.cc: InferAndCheckTypes", "p4_constraints/backend/interpreter.cc: ReasonEntryViolatesConstraint"]}
{"id": "C69", "title": "Exactly what is reported about a violation, end to end", "statement": "For every P4 program that is accepted and every entry, a violation is reported with message m if and only if m is the following text. It concerns the constraint of the table if the entry makes this false, and otherwise that of the first action that is not accepted. It quotes, with its position in the annotation, a part of the constraint whose value decides that of the whole; among these one of smallest size, the leftmost under equally large candidates of a connective. It says whether this part must or must not hold, and lists the name of the table (or action), the priority, and exactly the keys (or parameters) mentioned in the part quoted, in lexicographic order, with the values the entry gives them. In any other situation where the part has the same value, the constraint has the same value.", "quantifier": "all programs, constraint texts and entries, with non-negative bitwidths", "why_tests_cant": "The explanation depends on the structure of the constraint, on caches, on sizes and on all values; tests fix a few golden messages.", "anchors": ["p4_constraints/backend/interpreter.cc: ReasonEntryViolatesConstraint, ExplainConstraintViolation, MinimalSubexpressionLeadingToEvalResult", "p4_constraints/quote.cc: QuoteSubConstraint", "p4_constraints/ast.cc: Size, GetVariables"]}
{"id": "C70", "title": "What p4check prints, end to end", "statement": "p4check exits with status 1, prints nothing to standard output and states the reason on standard error if the program is not given, cannot be opened or parsed, or is faulty (then the reason lists every faulty definition). Otherwise it exits with status 0, whatever the entries are, prints nothing to standard error, and standard output has one section for each entry file, in the order of the arguments, that names the file and says that it was not found or could not be parsed, or 'Constraint satisfied' if and only if the entry is accepted, or the complete report on the violation if there is one, or else the code and message of the error. Which of the three is the case can be told from the first word. Table ids count modulo 2^24. It ends in one of these ways unless the process crashes, which happens exactly if it crashes on the program (C85) or on one of the entries (C84).", "quantifier": "all programs, constraint texts (non-negative bitwidths), entry files and file names", "why_tests_cant": "The golden test of p4check covers one list of files; the claim is about all programs and entries, including all error messages.", "anchors": ["p4_constraints/cli/p4check.cc: main, ToString, CoerceToTableId"]}
{"id": "C71", "title": "Errors of the constraint solver say what is wrong", "statement": "Creating a ConstraintSolver succeeds, or returns the following error and never crashes: what is wrong with the first key in the order of names with which something is wrong (the callback fails, the key has no bitwidth or bitwidth 0, or is a range), or else what is wrong with the constraint (it is not a condition, or reading from left to right the first thing that cannot be expressed is a skipped key, which is named, or a conversion to a range), or else that no entry satisfies the constraint. AddConstraint returns an error exactly if something is wrong with the constraint in this sense, and ConcretizeEntry only if Z3 gives up.", "quantifier": "every table, skip function, history of the solver, constraint, and every sound Z3", "why_tests_cant": "It is about all tables and all constraints, and excludes crashes; tests provoke a few of the errors.", "anchors": ["p4_constraints/backend/symbolic_interpreter.cc: ConstraintSolver::Create, AddConstraint, ConcretizeEntry, EvaluateConstraintSymbolically, AddSymbolicKey"]}
{"id": "C72", "title": "The constraint solver finds an entry exactly if there is one, end to end", "statement": "For a table of a P4 program that is accepted: a ConstraintSolver can be created exactly if all keys that are not skipped are of a supported kind, the constraint of the table mentions no skipped key, and some entry of the table in canonical form, without the skipped keys, is accepted by ReasonEntryViolatesConstraint. After any sequence of calls, AddConstraint of a text returns a verdict exactly if the text is a well-typed condition on keys that are not skipped, and it returns true exactly if some such entry is accepted by the checker and satisfies this text and all texts accepted before. ConcretizeEntry returns such an entry. Skipped keys must be omittable, no key may be called like the mask of another one, and constraints must not order bit strings.", "quantifier": "all programs, tables, sets of skipped keys, sequences of calls and constraint texts; every Z3 that is sound and never gives up", "why_tests_cant": "It is an equivalence with the existence of an entry, over all programs and texts; tests check that some constraints can be solved.", "anchors": ["p4_constraints/backend/symbolic_interpreter.cc: ConstraintSolver::Create, AddConstraint, ConcretizeEntry", "p4_constraints/backend/interpreter.cc: ReasonEntryViolatesConstraint", "p4_constraints/backend/constraint_info.cc: P4ToConstraintInfo"]}
{"id": "C73", "title": "Errors are passed on with their code and everything said about them", "statement": "A StatusBuilder makes from a status that status, enriched: OK remains OK, the code of an error is unchanged, and the message is the original one, followed by \"; \" and everything that was streamed into the builder, in order (without \"; \" if either is empty). RETURN_IF_ERROR and ASSIGN_OR_RETURN return exactly on errors, RET_CHECK exactly if the condition is false, with an internal error that names file, line and condition. StableStatusToString shows the name of the code, a colon and the message, on a line, and determines both. The messages of the functions of the library are put together in this way.", "quantifier": "all statuses, all sequences of texts, copies and conversions", "why_tests_cant": "All errors of the library go through these few functions, with arbitrary texts and combinations of copies, moves and conversions; tests compare some messages.", "anchors": ["gutils/status_builder.cc: StatusBuilder::StatusBuilder, operator=, CreateStatus, JoinMessageToStatus, Annotate", "gutils/status_macros.h: RETURN_IF_ERROR, ASSIGN_OR_RETURN", "gutils/ret_check.cc: RetCheckFailSlowPath", "gutils/status.cc: StableStatusToString"]}
{"id": "C74", "title": "IPv6 literals denote the address of RFC 4291", "statement": "ipv6('text') is accepted exactly if text is an IPv6 address in the notation of RFC 4291 (eight groups of one to four hexadecimal digits separated by colons, where :: may stand once for one or more zero groups, and the last two groups may be in dotted notation); it then denotes the 128-bit number whose 16-bit groups, from the most significant one, are those written. Anything else is rejected with InvalidArgument. Every text has at most one meaning, and every 128-bit number can be written.", "quantifier": "every string literal", "why_tests_cant": "All strings; tests parse a few addresses.", "anchors": ["p4_constraints/frontend/ast_constructors.cc: Ipv6StringToInteger, MakeNetworkAddressIntegerConstant", "p4_constraints/frontend/parser.cc: ParseConstraintAbove", "p4_constraints/frontend/lexer.cc: Tokenize"]}
{"id": "C75", "title": "Growing a program does not change verdicts for existing entries", "statement": "If a P4 program is changed only by reordering declarations, adding tables and actions, adding action parameters, and adding keys that entries may omit (ternary, LPM, range, optional), then for every entry that mentions only tables, keys, actions and parameters of the old program, ReasonEntryViolatesConstraint gives the same verdict as before, with the same message. The changed program is still accepted, provided that ids and names are still different and that added tables and actions are well formed.", "quantifier": "every two accepted programs so related, every entry of the smaller one", "why_tests_cant": "It is about pairs of programs and all entries; tests check one program at a time.", "anchors": ["p4_constraints/backend/interpreter.cc: ReasonEntryViolatesConstraint, ParseTableEntry, ParseAction", "p4_constraints/backend/constraint_info.cc: P4ToConstraintInfo, ParseTableInfo, ParseActionInfo"]}
{"id": "C76", "title": "Names and ids are only labels", "statement": "If the ids of tables, actions, keys and parameters and the names of keys and parameters of an accepted P4 program are replaced one-to-one (also in its constraints, which may otherwise be written differently as long as they have the same syntax tree), and table and action names at will, then the program is still accepted, and ReasonEntryViolatesConstraint accepts an entry if and only if the new program accepts the entry with the new ids.", "quantifier": "every accepted program, every one-to-one renaming, every entry", "why_tests_cant": "It is about all pairs of programs and all entries; tests use a few fixed names and ids.", "anchors": ["p4_constraints/backend/interpreter.cc: ReasonEntryViolatesConstraint, ParseTableEntry, ParseAction", "p4_constraints/backend/constraint_info.cc: P4ToConstraintInfo, ParseTableInfo, ParseActionInfo"]}
{"id": "C77", "title": "Special kinds of matches are special cases of general ones", "statement": "Let two accepted P4 programs differ only in the kinds of some keys, where exact may be replaced by optional, ternary, lpm or range, and optional by ternary. Then ReasonEntryViolatesConstraint accepts an entry of the first if and only if it accepts, for the second, the same entry stated with the wider kinds: an exact or optional match as a ternary match with a mask of ones, an exact match as a prefix of full length or as a range of one value. In particular optional is, as documented, ternary with the restriction mask == 0 || mask == -1: a program stays accepted when optional keys are made ternary, and that formula is always true of optional keys, and true of ternary keys exactly if the mask has only zeros or only ones.", "quantifier": "every pair of such programs, every entry, all bitwidths", "why_tests_cant": "It is about all constraints, widths and entries; tests check a few values of each kind.", "anchors": ["p4_constraints/backend/interpreter.cc: ParseEntry, ParseTableEntry, Eval", "p4_constraints/backend/type_checker.cc: InferAndCheckTypes, Unify", "p4_constraints/backend/constraint_info.cc: ParseKeyType", "docs/language-specification.md: optional match keys"]}
{"id": "C78", "title": "Source locations and sizes do not overflow", "statement": "For every accepted program, the lines and columns of all tokens and syntax tree nodes, counted from zero (as stored) or from one (as shown in messages), and the sizes computed when explaining violations, are within the range of the 32-bit ints in which they are kept. More exactly, line plus column never exceed those of the annotation by more than the number of characters of the constraint.", "quantifier": "every constraint text, every @line annotation", "why_tests_cant": "The range depends on all possible texts and line numbers; tests use small ones.", "anchors": ["p4_constraints/frontend/lexer.cc: Tokenize", "p4_constraints/backend/constraint_info.cc: ExtractConstraint", "p4_constraints/quote.cc: Explain, Quote", "p4_constraints/ast.cc: Size"]}
{"id": "C79", "title": "Adding constraints to a solver obeys the laws of logic", "statement": "For a solver created for a table of an accepted program, the answer of AddConstraint depends only on which constraints were accepted before, not on their order or number, on constraints rejected or in error in between, on calls of ConcretizeEntry, or on the version of Z3. Accepted constraints are accepted again; rejected ones stay rejected when more constraints are added; the negation of an accepted constraint is rejected, the negation of a rejected one is accepted, and a constraint whose negation is rejected changes no later answer. (A) && (B) is accepted exactly if A and then B are; (A) || (B) exactly if A or B is; (A) -> (B) exactly if !(A) or B is.", "quantifier": "every program, table, history of calls, constraint texts, every Z3 that answers soundly and does not give up", "why_tests_cant": "Quantifies over histories of calls and constraint texts; tests add a few constraints in one order.", "anchors": ["p4_constraints/backend/symbolic_interpreter.cc: ConstraintSolver::AddConstraint, ConstraintSolver::Create, ConstraintSolver::ConcretizeEntry"]}
{"id": "C80", "title": "What follows does not change a syntax error", "statement": "If the first lines of a constraint already contain a syntax error, the whole constraint is rejected, and the error message is exactly the one for the first lines alone, quotation included, whatever text follows: later text neither hides the error nor changes its description. The only exceptions are errors about the end of the lines (the constraint, or a block comment, goes on), errors about an opening quotation mark (the string may be closed later), and, as to the description only, errors of code Internal, about a token that cannot be quoted (C43). Hence a constraint is accepted only if each of its beginnings that ends with a line is accepted, or stops within a constraint, a comment or a string.", "quantifier": "every constraint text, every split of it after a line break, every location", "why_tests_cant": "Quantifies over all texts and all continuations; tests parse a few complete texts.", "anchors": ["p4_constraints/frontend/parser.cc: ParseConstraint", "p4_constraints/frontend/lexer.cc: Tokenize", "p4_constraints/quote.cc: QuoteSubConstraint"]}
{"id": "C81", "title": "Equivalent parts can be exchanged", "statement": "In the constraint of a table, a part (a) in parentheses can be exchanged for (b) anywhere in any text, where a and b are expressions over the keys of the table of the same type: the program is accepted before the exchange if and only if it is afterwards. If a and b have the same value for an entry, or both have none, then the entry satisfies the constraint before the exchange if and only if it does afterwards. The same holds for actions. Without the parentheses both can be false.", "quantifier": "every program, every text around the part, every pair of parts of the same type (comments and semicolons included), every entry and action invocation", "why_tests_cant": "Quantifies over all contexts in which a part can stand and over all pairs of equivalent parts.", "anchors": ["p4_constraints/frontend/parser.cc: ParseConstraint", "p4_constraints/backend/type_checker.cc: InferAndCheckTypes", "p4_constraints/backend/interpreter.cc: ReasonEntryViolatesConstraint, Eval"]}
{"id": "C82", "title": "Comparing a key with a constant", "statement": "For a key k of type bit<W> with W >= 1, an entry consistent with its table satisfies the constraint k == c if and only if it matches k on c modulo 2^W and on nothing else: an exact match with this value, a ternary match with this value and a mask of W ones, a longest prefix match with this value and length W, a range from this value to itself, or a present optional match with this value. An entry that omits k does not satisfy it. As documented, for a key of type bool, which is bit<1>, the constants true and false can be written for 1 and 0.", "quantifier": "every program, every table with such a constraint, every key kind and width, every constant, every consistent entry", "why_tests_cant": "Quantifies over all constants, widths and match values; the documented use of true and false is nowhere tested.", "anchors": ["p4_constraints/backend/type_checker.cc: LeastUpperBound", "p4_constraints/backend/interpreter.cc: EvalBinaryExpression, ParseKey, Eval", "docs/language-specification.md: Type System"]}
{"id": "C83", "title": "Fields of keys", "statement": "The fields of a key are those documented: value for exact, value and mask for ternary and optional, value and prefix_length for lpm, low and high for range; no accepted program uses others. For each comparison operator o, an entry consistent with its table satisfies the constraint k::g o c if and only if the number in the field g of its match for k is in relation o to c, where c is taken modulo 2^W, except for prefix_length, and may be negative. The fields of a key that is omitted are those of a match of everything: 0 for value, mask, prefix_length and low, 2^W - 1 for high. The mask of a present optional match is 2^W - 1, so that all entries satisfy k::mask == 0 || k::mask == -1. The further conditions of P4Runtime on matches are assumed and not enforced.", "quantifier": "every program, table, key kind and width, field, operator, constant and consistent entry", "why_tests_cant": "Quantifies over all entries, constants and widths; tests sample a few.", "anchors": ["p4_constraints/backend/type_checker.cc: GetFieldType, InferAndCheckTypes", "p4_constraints/backend/interpreter.cc: ParseKey, EvalFieldAccess, EvalBinaryExpression", "docs/language-specification.md: Accessing the fields of a key"]}
{"id": "C84", "title": "Outcomes of checking an entry", "statement": "If a program is accepted, checking an entry has one of four outcomes, which exclude each other and are determined by the declarations of the program and the entry: the entry is accepted; it violates a constraint and there is a report; there is an error that says what is to blame; or the process crashes. It crashes if and only if a part of a constraint has to be quoted - the explanation of a violation, or a part without value - that starts on one line and ends on another, and the line on which it starts has fewer characters than the margin and the column where it starts together. No entry makes the process crash if each constraint is on one line. Widths are not negative. If what is to be quoted starts on a line that the constraint does not have, because the code that numbers lines counts lone carriage returns and the code that quotes does not, there is an error in place of the report.", "quantifier": "every accepted program and every entry", "why_tests_cant": "That there is no further outcome for any program and entry, and in particular no other crash, is not visible from samples.", "anchors": ["p4_constraints/backend/interpreter.cc: ReasonEntryViolatesConstraint, ReasonActionInvocationViolatesConstraint, ExplainConstraintViolation", "p4_constraints/quote.cc: QuoteSubConstraint"]}
{"id": "C85", "title": "Outcomes of reading a program", "statement": "Reading a program has one of three outcomes, which exclude each other: it is read, because all definitions are well formed and have different ids; it is rejected as invalid, because something is wrong with it that can be told; or the process crashes. It crashes if and only if some table or action has proper keys or parameters and a constraint that is a sentence of the language and has a type error, and what the message would quote of the constraint starts on one line and ends on another, and the line on which it starts has fewer characters than the margin and the column where it starts together. Such a definition crashes whatever else is in the program, in particular if there are other errors before it. No program crashes whose constraints are on one line each. What is said about a rejected program is determined by the definitions, whatever the carriage returns in the constraints are.", "quantifier": "every program", "why_tests_cant": "That there is no other crash, for any program, is not visible from samples.", "anchors": ["p4_constraints/backend/constraint_info.cc: P4ToConstraintInfo, ParseTableInfo, ParseActionInfo", "p4_constraints/backend/type_checker.cc: InferAndCheckTypes", "p4_constraints/quote.cc: QuoteSubConstraint"]}
{"id": "C86", "title": "A constraint means the formula it reads as", "statement": "Every constraint of a table can be read as a formula of arithmetic about the entry. The connectives are those of logic, == and != between conditions are equivalence and its negation. In comparisons, the priority is the priority of the entry, k::g is the number in the field g of the match for k, and numbers without a width (constants, the priority, prefix lengths) that are compared with numbers of width W are taken modulo 2^W. k == x, where x is a number, says that the entry matches k on x and on nothing else (or, if k has no bits, omits it); k == k', where both are keys, that all fields of the two matches agree. An entry is accepted if and only if this formula is true of it, and the formulas which the constraints of its actions read as are true of their arguments. Comparisons with <, <=, > and >= are between numbers, that is fields of keys and not keys themselves; actions do not mention the priority.", "quantifier": "every program that is read, every consistent entry", "why_tests_cant": "The formula quantifies over all constraints, numbers and matches; tests compare single values.", "anchors": ["p4_constraints/backend/interpreter.cc: Eval, EvalBinaryExpression, EvalAndCastTo, ParseTableEntry, ParseAction", "p4_constraints/backend/type_checker.cc: InferAndCheckTypes", "docs/language-specification.md"]}
{"id": "C87", "title": "When a constraint solver stops the process", "statement": "Creating a constraint solver for a table returns (a solver or an error) unless the constraint of the table compares a number to a key of width 0, which then is one that is skipped, with no skipped key mentioned before: then Z3, which has no bit strings of width 0, raises an exception, which nobody handles. Adding a constraint given as text returns (true, false, or an error) unless the text does the same, or the text has a type error that extends over several lines and the constraint of the table, from which the code tries to quote it, is too short on that line and has no file name. So texts without line breaks are safe, and any text is if the constraint of the table has a file name, provided that no key has width 0.", "quantifier": "every program that is read, every table, set of skipped keys, history of the solver, and text", "why_tests_cant": "Which texts crash depends on the text, on the constraint of the table and on the skipped keys; tests try a few.", "anchors": ["p4_constraints/backend/symbolic_interpreter.cc: ConstraintSolver::Create, ConstraintSolver::AddConstraint, EvalAndCastTo", "p4_constraints/quote.cc: QuoteSubConstraint, Quote", "p4_constraints/backend/type_checker.cc: InferAndCheckTypes"]}
{"id": "C88", "title": "Errors about texts given to a constraint solver quote these texts", "statement": "If a text given to ConstraintSolver::AddConstraint is not a constraint by the grammar, or not one on the keys of the table by the type rules, the error is InvalidArgument, says what is wrong, and quotes the part of the text that is wrong.", "quantifier": "every program that is read, every table, history of the solver, and text", "why_tests_cant": "The message depends on the text and on the constraint of the table, independently of each other.", "anchors": ["p4_constraints/backend/symbolic_interpreter.cc: ConstraintSolver::AddConstraint", "p4_constraints/quote.cc: QuoteSubConstraint", "p4_constraints/backend/type_checker.cc: InferAndCheckTypes", "p4_constraints/frontend/parser.cc: ParseConstraint"]}
{"id": "C89", "title": "What it takes to read a constraint", "statement": "Parsing a text, whether it is a constraint or not, takes a number of calls and iterations linear in its length, a recursion at most as deep as its length (and two), and copies of fewer nodes of syntax trees than half the square of its length (and one); of a constraint, it copies each node once for each operator above it. Checking the types of a constraint takes at most one call for each node, a recursion at most as deep as the tree is high, and no copies, and makes the tree at most two higher. These bounds are met up to constants: a conjunction of n constants is accepted, and reading it takes about n squared copies, because operands are passed by value; and a constant with n negations is accepted, and reading it takes a recursion deeper than n, so no stack suffices for all constraints.", "quantifier": "every text, both kinds of constraints, every table and action", "why_tests_cant": "Tests read short constraints; that there is no text that takes longer is a statement on all texts.", "anchors": ["p4_constraints/frontend/parser.cc: ParseConstraintAbove, ParseConstraint", "p4_constraints/frontend/ast_constructors.cc: MakeBinaryExpression, MakeBooleanNegation, MakeFieldAccess", "p4_constraints/backend/type_checker.cc: InferAndCheckTypes, WrapWithCast"]}
{"id": "C90", "title": "Keys and parameters without bits", "statement": "If a key k is declared with width 0, as keys are whose values are strings, then an entry satisfies the constraint k == c if and only if it omits k or matches it on zero bytes only (and on a prefix of length 0), whatever the constant c is. Likewise an invocation of an action satisfies x == c, for a parameter x of width 0, if and only if its argument consists of zero bytes only, whatever c is.", "quantifier": "every program that is read, every consistent entry, every constant", "why_tests_cant": "That the constant does not matter is a statement on all constants and all entries.", "anchors": ["p4_constraints/backend/interpreter.cc: ParseKey, ParseTableEntry, ParseAction, EvalAndCastTo", "p4_constraints/backend/constraint_info.cc: ParseTableInfo, ParseActionInfo", "p4_constraints/backend/type_checker.cc: LeastUpperBound"]}
{"id": "C91", "title": "Weakening a constraint", "statement": "If parts of the constraint of a table are replaced by parts that follow from them for an entry, and parts below a negation or left of an implication by parts from which they follow (the roles change again below a further negation, and so on), and the entry satisfied the constraint before, then it does not violate it afterwards; and it satisfies it, unless the new constraint orders keys themselves, which is an error (C01). The same holds for actions and their arguments, where mentioning ::priority, or an argument that is missing, is the error. Operands of == and != are not such positions.", "quantifier": "every program before and after, every entry, any number of replaced parts", "why_tests_cant": "That loosening a condition never rejects what was accepted is a statement about all pairs of constraints and all entries, including operands that are not evaluated.", "anchors": ["p4_constraints/backend/interpreter.cc: EvalBinaryExpression, EvalExpr, ReasonEntryViolatesConstraint"]}
{"id": "C92", "title": "Keys of a negative width", "statement": "Bit widths are signed numbers, and P4ToConstraintInfo accepts programs with negative ones. If the table of an entry has a constraint, whatever it is, then checking an entry that is otherwise consistent with the table crashes if the entry omits a range key of negative width, or matches on an optional key of negative width. If the constraint is true and the entry has no actions, these are the only crashes, and all other such entries are accepted. Comparing a key of negative width, or a field of it, with a number can crash as well.", "quantifier": "every program, with any widths; every entry whose matches are of the kinds of its keys", "why_tests_cant": "Widths and entries are unbounded, and a test that crashes cannot be part of a test suite.", "anchors": ["p4_constraints/backend/interpreter.cc: MaxValueForBitwidth, ParseKey, ParseTableEntry, EvalAndCastTo", "p4_constraints/backend/constraint_info.cc: ParseKeyType"]}
{"id": "C93", "title": "Recursion while an entry is checked", "statement": "While ReasonEntryViolatesConstraint checks an entry, and explains why it is violated, the recursion of Eval, EvalToBool, EvalToInt, MinimalSubexpressionLeadingToEvalResult, ast::Size and AddVariables is at most twice as deep as the highest syntax tree of a constraint that applies to the entry, and hence at most twice as deep as the longest text (and four), however many actions the entry has. For a table whose constraint consists of n negations it is exactly of depth 2n+2, so that no stack suffices for all constraints.", "quantifier": "every constraint info, every entry, every program", "why_tests_cant": "Constraints are unboundedly deep, and the depth of a stack is not observable in a test.", "anchors": ["p4_constraints/backend/interpreter.cc: Eval, EvalToBool, EvalToInt, MinimalSubexpressionLeadingToEvalResult", "p4_constraints/ast.cc: Size, AddVariables"]}
{"id": "C94", "title": "What a constraint solver asks of Z3", "statement": "AddConstraint(text) asks Z3 nothing and leaves the solver as it was if the text is no constraint on the table, asks exactly two queries if it answers, and at most one otherwise; ConcretizeEntry asks exactly one and does not change what is asserted; Create asks two for a table with a constraint and none for others. Whatever Z3 answers and whatever was added, rejected or concretized so far, the total size of the assertions is linear in the number of keys of the table and in the length of its constraint and of the texts accepted (21 nodes for a key, 6 for the priority, 9 for a character), and their number is at most two for each key, three, and one for each accepted text. Nothing else is asked: two versions of Z3 that give the same answers to these next queries about assertions of at most this size lead to the same result and the same solver.", "quantifier": "every accepted program, every table, every history of the solver, every behaviour of Z3 (sound or not)", "why_tests_cant": "Histories, constraints and answers of Z3 are unbounded; tests see the verdict and not what was asked.", "anchors": ["p4_constraints/backend/symbolic_interpreter.cc: ConstraintSolver::Create, AddConstraint, ConcretizeEntry, EvalSymbolically, AddSymbolicKey, AddSymbolicPriority"]}
{"id": "C95", "title": "Every entry can be obtained from a constraint solver, and no entry twice", "statement": "For every entry of a table in canonical form (byte strings without redundant zeros, values within widths and masks, no wildcards, a valid priority, skipped keys omitted) there are two texts. The first picks the entry: any solver for the table, after any history, accepts it if the entry satisfies the constraint of the table and what the solver has accepted so far, and ConcretizeEntry then returns this entry up to the order of the matches; otherwise AddConstraint answers false. The second excludes it: it is accepted if and only if another entry satisfies what was accepted so far, and afterwards precisely the other ones can be obtained. So a test generator that adds constraints reaches the entries that satisfy the constraints and no others; if ordered comparisons are between integers, these are the entries that the checker accepts.", "quantifier": "every accepted program, table, skip function, canonical entry and history of the solver, every sound Z3 that does not give up", "why_tests_cant": "There are up to 2^w values for each key and unboundedly many histories; a test obtains a few entries.", "anchors": ["p4_constraints/backend/symbolic_interpreter.cc: ConstraintSolver::Create, AddConstraint, ConcretizeEntry, ConcretizeKey, EvalSymbolically", "p4_constraints/backend/interpreter.cc: ReasonEntryViolatesConstraint"]}
{"id": "C96", "title": "Constraints on different keys do not interfere in a constraint solver", "statement": "Call a constraint independent of others if none of them mentions a key that it mentions, and none mentions the priority if it does. AddConstraint(text) accepts a constraint that is independent of the constraint of the table and of everything accepted so far if and only if some entry in canonical form satisfies it, and answers false otherwise; what was accepted about other keys, and the history, do not matter. Afterwards every combination of an entry that satisfies the new constraint (on the keys it mentions) and of an entry that satisfies the others (elsewhere) can be obtained.", "quantifier": "every accepted program, table, skip function, history of the solver and independent text, every sound Z3 that does not give up", "why_tests_cant": "Interference between assertions would show for particular combinations of constraints; all combinations of texts and histories cannot be tried.", "anchors": ["p4_constraints/backend/symbolic_interpreter.cc: ConstraintSolver::AddConstraint, ConcretizeEntry, EvalSymbolically, AddSymbolicKey, AddSymbolicPriority"]}
{"id": "C97", "title": "Enumerating the entries of a table with a constraint solver", "statement": "Repeat: request an entry from a solver (ConcretizeEntry) and add a constraint that excludes this entry (one exists, C95). All entries returned satisfy the constraint of the table and what the solver had accepted at the beginning, and no entry is returned twice, up to the order of the matches. ConcretizeEntry always succeeds, and AddConstraint answers true as long as an entry is missing and false when all have been returned. This ends after at most 2^(31 + 2n) rounds, where n is the number of bits of the keys, with exactly the entries that satisfy the constraints.", "quantifier": "every accepted program, table, skip function and history of the solver, every sound Z3 that does not give up, whatever models it chooses", "why_tests_cant": "The entries are astronomically many and their order depends on Z3; a test stops after a few rounds.", "anchors": ["p4_constraints/backend/symbolic_interpreter.cc: ConstraintSolver::AddConstraint, ConcretizeEntry, ConcretizeKey, Z3BitvectorValueToP4RuntimeBytestring"]}
{"id": "C98", "title": "A constraint solver treats constraints of the table and added constraints alike", "statement": "Take a table with a constraint, and the same table without it. ConstraintSolver::Create succeeds for the former if and only if it succeeds for the latter and AddConstraint with the text of the constraint then answers true. From then on the two solvers give the same answers (true, false) to further constraints, and the same entries can be obtained from them.", "quantifier": "all pairs of accepted programs with such tables, all texts, all histories of the two solvers that accepted the same further constraints, every two sound Z3s that do not give up", "why_tests_cant": "The constraint of the table is parsed, type checked and evaluated when the program is read and the solver is created; an added one is wrapped in a new source and goes through these steps later. That they agree for all texts cannot be enumerated.", "anchors": ["p4_constraints/backend/symbolic_interpreter.cc: ConstraintSolver::Create, AddConstraint(string), AddConstraint(Expression)", "p4_constraints/backend/constraint_info.cc: ParseTableInfo"]}
{"id": "C99", "title": "Skipping a key in the constraint solver is like not declaring it", "statement": "Take a table and a choice of keys to be skipped (skip_key_named) that entries may omit. If ConstraintSolver::Create succeeds, then the program in which the table does not declare these keys is accepted as well. If the table has no ternary or optional keys, or not all of them are skipped, then Create succeeds with the keys skipped if and only if it succeeds for the table that does not declare them; the two solvers give the same answers (true, false) to all constraints, and the same entries can be obtained from them. In the remaining case they differ: ConcretizeEntry returns entries with a positive priority if the keys are skipped, and with priority 0 if they are not declared.", "quantifier": "all pairs of accepted programs with such tables, all choices of keys to skip, all texts, all histories of the two solvers that accepted the same constraints, every two sound Z3s that do not give up", "why_tests_cant": "That no trace of a skipped key is left in the state of the solver, except in whether the table has priorities, concerns every table, choice and history; tests skip one key of one table.", "anchors": ["p4_constraints/backend/symbolic_interpreter.cc: ConstraintSolver::Create, AddConstraint, ConcretizeEntry"]}
{"id": "C100", "title": "Entries from the constraint solver are well-formed P4Runtime entries, and all of these can be obtained", "statement": "The header promises that the entry returned by ConcretizeEntry is well-formed according to the P4Runtime specification and includes no skipped key: it matches declared keys only, each at most once, and all exact keys; byte strings are the shortest ones for numbers that fit the width; ternary masks are not zero and values have no bits outside them; prefix lengths are between 1 and the width and values have no bits beyond them; and the priority is positive if the table has a ternary, range or optional key and 0 otherwise. Conversely, if no key is skipped, every well-formed entry that satisfies the constraint of the table and those added can be obtained.", "quantifier": "all accepted programs, all their tables, all choices of keys to skip, all histories of the solver, all entries, every sound Z3", "why_tests_cant": "Well-formedness is a statement about all models that Z3 may return and about all widths and combinations of kinds of keys; tests look at the entries one version of Z3 happens to return.", "anchors": ["p4_constraints/backend/symbolic_interpreter.cc: ConcretizeEntry, ConcretizeKey, AddSymbolicKey, AddSymbolicPriority", "p4_constraints/backend/symbolic_interpreter.h: ConcretizeEntry"]}
{"id": "C101", "title": "Constraint infos of any origin: malformed constraints give errors", "statement": "ReasonEntryViolatesConstraint takes any constraint info, not just what P4ToConstraintInfo returns. The header says that a malformed syntax tree gives an error. Whatever the constraint info and the entry are, the outcome is a verdict, an InvalidArgument or Internal error, or a crash; it is not a crash if no location extends over several lines or backwards and no width is negative, even if locations are missing. A constraint not marked with type bool is always rejected (InvalidArgument), so constraints that were never type checked are. If there is a verdict, then every part of the constraint that is evaluated in any case is marked with a type that suits it, is an expression, and has a known operator; every value is of the kind of the type its expression is marked with. The claim in full does not hold: the sides of == and != may have different types, right operands of connectives are looked at only when needed, and building the error message can crash.", "quantifier": "all constraint infos, all syntax trees, all entries", "why_tests_cant": "There are infinitely many malformed trees, and tests try a handful of these with locations that are well-formed.", "anchors": ["p4_constraints/backend/interpreter.cc: Eval, Eval_, EvalToBool, EvalToInt, EvalAndCastTo, DynamicTypeCheck, ReasonEntryViolatesConstraint", "p4_constraints/backend/interpreter.h: EvalToBool, Eval", "p4_constraints/backend/errors.cc: RuntimeTypeError"]}
{"id": "C102", "title": "Adding syntax trees of any origin to the constraint solver", "statement": "AddConstraint also takes syntax trees, with a source for error messages; the header says that a malformed tree gives an error, and EvaluateConstraintSymbolically that it gives InvalidArgument or Internal. Whatever the tree and the state are, the outcome is an answer, an error with one of four codes, or a crash. After any history, with a Z3 that does not give up, there is an answer if and only if the tree is marked as boolean and makes sense given the sorts of the keys that are declared and not skipped, the types in casts, and the operators; otherwise nothing is added. The source affects neither answers nor the state, only whether there is an internal error or a crash. A text has the same effect as the tree that is made of it, with any source. The claim in full does not hold: a tree type checked for another table can crash the solver, wrong marks are accepted, and the code can be NotFound.", "quantifier": "all syntax trees, all sources, all accepted programs, all their tables, all choices of keys to skip, all histories of the solver, every sound Z3", "why_tests_cant": "There are infinitely many trees; the tests only use trees produced by the parser and the type checker.", "anchors": ["p4_constraints/backend/symbolic_interpreter.cc: AddConstraint, EvaluateConstraintSymbolically, EvalSymbolically, EvalSymbolicallyTo, EvalBinaryExpression, EvalTypeCast, GetFieldAccess", "p4_constraints/backend/symbolic_interpreter.h: AddConstraint, EvaluateConstraintSymbolically"]}
{"id": "C103", "title": "Builds with assertions", "statement": "In a build without NDEBUG the DCHECKs of the library are active and stop the process if they fail. They do nothing else: reading a program, checking an entry, adding the text of a constraint to a solver, and p4check have the same outcome as in a release build, or the process is stopped. It is not stopped if the annotations (or the text) are in UTF-8 and no key or parameter has the declared width -1. The assertion about precedences in the parser holds for all sequences of tokens, and the one about keywords always. The LOG(ERROR)s of the lexer, the parser and the type checker that report a bug of the library are not reached, whatever the input is. The claim that no assertion can fail does not hold: it fails for a byte that is not in UTF-8 in a block comment (a release build rejects the text), for a key of width -1 that is compared with a number (a release build accepts the program), and for hand-made syntax trees with casts to int or to a width of -1.", "quantifier": "all programs, all texts, all entries, all constraint infos including hand-made ones, all tables, all states of the solver, all entry files", "why_tests_cant": "Tests run in one build mode at a time and on few inputs; that an assertion cannot fail is a claim about all inputs.", "anchors": ["p4_constraints/frontend/token.cc: kind_keyword_map", "p4_constraints/frontend/lexer.cc: SwallowMultiLineComment, Tokenize", "p4_constraints/frontend/parser.cc: TokenPrecedence, ExtendConstraint", "p4_constraints/frontend/type_checker.cc: CastTransitivelyTo, FieldTypeOfCompositeType", "p4_constraints/backend/interpreter.cc: EvalAndCastTo"]}
{"id": "C104", "title": "What it takes to add a constraint to a solver", "statement": "Adding a constraint to a solver takes, apart from reading its text and from Z3, at most two calls for each node of its syntax tree, and a recursion at most twice as deep as the tree is high, whatever the tree, the state of the solver and the answers of Z3 are; so for a text at most six calls for each character, and a recursion at most twice as deep as the text is long, and four, however many constraints were added before; and no call at all if the text is no constraint on the table or if Z3 does not find the state satisfiable. The same bounds hold for making a solver for a table of a program, in the length of the constraint of the table. They are met up to constants: a constant with n negations is added by 2n+2 calls, each in the other, unless Z3 gives up, so no stack suffices for all constraints.", "quantifier": "every syntax tree, every text, every state of a solver, all answers of Z3, every table of every program, every number of negations", "why_tests_cant": "Tests add short constraints; that there is no constraint that takes more is a statement on all constraints.", "anchors": ["p4_constraints/backend/symbolic_interpreter.cc: EvalSymbolically, EvalSymbolicallyTo, EvaluateConstraintSymbolically, ConstraintSolver::AddConstraint, ConstraintSolver::Create"]}
{"id": "C105", "title": "Checker and solver do not contradict each other on syntax trees of any origin", "statement": "Consider a table of a program, a solver for it after any history of added constraints, and syntax trees of any origin, not only those that the type checker made of a text. An entry that the solver returns is never reported to violate a tree that the solver accepted, when this tree is the constraint of the table: if there is a verdict at all, it is that the entry satisfies the tree. Conversely, the solver never refuses a tree if there is an entry in canonical form, without the skipped keys, which, according to the checker, satisfies the tree and all those accepted before, as long as Z3 does not give up. This holds although neither checks the tree, and although they make sense of different trees. Integer constants are in decimal notation. The statement fails, as witnesses show, for ordered comparisons of bit strings with top bits set, which the solver compares as signed numbers; for negated bit strings, which the solver negates modulo a power of two; and for fields of expressions that are not keys, if there is a key with an empty name.", "quantifier": "every program, table and set of skipped keys, every history of a solver, every syntax tree, every entry, all answers of a sound Z3", "why_tests_cant": "Tests compare the two on a few constraints that are read from texts; agreement on all trees, with all entries, is out of reach.", "anchors": ["p4_constraints/backend/symbolic_interpreter.cc: EvalSymbolically, ConstraintSolver::AddConstraint, ConstraintSolver::ConcretizeEntry", "p4_constraints/backend/interpreter.cc: Eval, ReasonEntryViolatesConstraint"]}
{"id": "C106", "title": "Comparing two versions of a constraint with a constraint solver", "statement": "To find out whether a changed constraint still accepts all entries that the old one accepts, one can create a solver for the table with the old constraint and add the negation of the new one. The question is understood if and only if the new constraint is of boolean type and mentions the priority only if entries of the table have one (and Z3 does not give up). If Z3 does not give up, the negation is refused if and only if every well-formed entry that satisfies the texts added before and is accepted by the one program is accepted by the other. If it is accepted, then the entry that the solver returns is well-formed and is accepted by the one program and not by the other. Two constraints accept the same entries if and only if the solvers for either refuse the negation of the other. This fails for constraints that order bit strings: the negation of tern::value >= 128 is refused by a solver for a table without constraint, although there are entries that violate it, and the negation of tern::value >= 0 is accepted and an entry returned that satisfies it.", "quantifier": "every two programs with such tables, every history of the solver, every well-formed entry, all answers of a sound Z3", "why_tests_cant": "That a constraint implies another one is a statement on all entries; tests try a few of them.", "anchors": ["p4_constraints/backend/symbolic_interpreter.cc: ConstraintSolver::Create, ConstraintSolver::AddConstraint, ConstraintSolver::ConcretizeEntry", "p4_constraints/backend/interpreter.cc: ReasonEntryViolatesConstraint"]}
{"id": "C107", "title": "Finding entries that violate a constraint with a constraint solver", "statement": "To test a switch with entries that violate the constraint of a table, one can create a solver for the table without its constraint (or with another one) and add the negation of the constraint, and further constraints as one likes. If Z3 does not give up, the negation is accepted if and only if there is a well-formed entry that satisfies the constraints added before, and that ReasonEntryViolatesConstraint reports to violate the constraint; with no other constraints, it is refused if and only if all well-formed entries are accepted. The entry that the solver returns is such an entry, and the report is about the constraint of the table. This fails for constraints that order bit strings, where the entry may be one that is accepted, and for constraints on several lines, where the checker may crash when given the entry.", "quantifier": "every program and table, every constraint and its negation, every history of the solver, every well-formed entry, all answers of a sound Z3", "why_tests_cant": "Tests see some entries; that a violation is found whenever there is one, and that whatever is found is reported, is about all constraints and entries.", "anchors": ["p4_constraints/backend/symbolic_interpreter.cc: ConstraintSolver::Create, ConstraintSolver::AddConstraint, ConstraintSolver::ConcretizeEntry", "p4_constraints/backend/interpreter.cc: ReasonEntryViolatesConstraint, ExplainConstraintViolation"]}
{"id": "C108", "title": "Fixing keys in a constraint solver with constants", "statement": "To get an entry with a given value for a key from a constraint solver, one adds the constraint `k == c`. It is understood unless the solver was told to skip k, and if Z3 does not give up, it is accepted if and only if some entry that satisfies what was accepted before matches k on c modulo 2^W and on nothing else; from then on, every entry that the solver returns has a match for k, which matches c modulo 2^W and nothing else (all bits of the mask are set, the prefix is W bits long). Likewise, after `k::g == c` or `k::g != c`, and after any comparison of prefix lengths with a constant, the field g of the match for k compares to c like this in all entries returned. After `k::mask == 0` or `k::prefix_length == 0`, the entries returned leave the key out; with `!=`, they do not.", "quantifier": "every program and table, every key and constant (also negative ones and ones that are too wide), every history of the solver, all answers of a sound Z3", "why_tests_cant": "Tests add a few such constraints and look at one entry; that all entries of all solvers, after any other constraints, have this match is about all models that Z3 may return, and that nothing is refused without need is about all entries.", "anchors": ["p4_constraints/backend/symbolic_interpreter.cc: ConstraintSolver::AddConstraint, ConstraintSolver::ConcretizeEntry, EvaluateConstraintSymbolically", "p4_constraints/backend/type_checker.cc: InferAndCheckTypes"]}
{"id": "C109", "title": "The size of syntax trees", "statement": "Size of a syntax tree counts one for each binary expression and each boolean negation in addition to the sizes of their operands, and one for everything else. There is an error, InvalidArgument, if and only if the syntax tree is invalid, i.e. a part of it is not set. A size cache whose entries for the parts of this tree are right makes no difference; afterwards it holds what it held before and, besides, only right sizes of binary expressions and boolean negations, among them that of the argument if it is one, and if it held no size of a part before, then those of all of these parts.", "quantifier": "every syntax tree, every size cache", "why_tests_cant": "Tests compare the sizes of a few syntax trees; the recursion is over all trees, and what a cache may contain depends on all earlier calls.", "anchors": ["p4_constraints/ast.cc: Size", "p4_constraints/ast.h: Size, SizeCache"]}
{"id": "C110", "title": "Equality of source locations, and widths of types", "statement": "Two source locations are equal (operator==) if and only if line, column and source are the same. TypeBitwidth and TypeBitwidthOrStatus return the width exactly for the types of a fixed size (bit, exact, ternary, lpm, range and optional), and otherwise nothing and an InvalidArgument error. SetTypeBitwidth returns true exactly for these types, and then changes the width and nothing else; otherwise it changes nothing. TypeCaseToType returns a type of the given case with neither width nor name set, and a type is determined by its case, its width, and for unsupported types the name.", "quantifier": "all source locations, all types and all widths", "why_tests_cant": "There are infinitely many locations and widths; the test of equality must fail for all that differ in any field, which samples of locations do not show.", "anchors": ["p4_constraints/ast.cc: operator==, TypeBitwidth, TypeBitwidthOrStatus, SetTypeBitwidth, TypeCaseToType", "p4_constraints/ast.proto: SourceLocation, Type"]}
{"id": "C111", "title": "Telling a constraint solver that fields are not negative", "statement": "A ConstraintSolver compares bit strings as signed numbers, so that the entries it returns may violate constraints with <, <=, > and >= (C72, C106, C107). There is a way around this: add `k::g >= 0` for every field of a key that is ordered. The checker takes this to be true of every entry. From then on, if bit strings are compared only with each other and with numbers that are not negative and whose most significant bit in this width is not set, every entry that ConcretizeEntry returns is accepted by ReasonEntryViolatesConstraint and satisfies all texts added. AddConstraint returns true if and only if the text is understood and there is such an entry in which the most significant bits of these fields are not set. Likewise, two versions of a constraint can be compared (up to entries with these bits set), and the entries found that violate a constraint are reported by the checker. With larger numbers this fails: for tern::value >= 200 the solver may still return an entry with the value 16.", "quantifier": "every program, table and constraint, every history of the solver, all answers of a sound Z3", "why_tests_cant": "That no returned entry is wrong concerns all constraints, all widths and all models that Z3 may choose; tests see one model of a few constraints.", "anchors": ["p4_constraints/backend/symbolic_interpreter.cc: EvalBinaryExpression, ConstraintSolver::AddConstraint, ConstraintSolver::ConcretizeEntry", "p4_constraints/backend/interpreter.cc: ReasonEntryViolatesConstraint"]}
{"id": "C112", "title": "Ordering exact keys by way of their values", "statement": "P4ToConstraintInfo accepts constraints such as `k < 5` for a key k of match kind exact, but ReasonEntryViolatesConstraint has no answer for them, only an internal error (C01). There is a way around this: write `k::value < 5`. Replacing every exact key k next to <, <=, > and >= by k::value does not change the type of a constraint, nor its documented meaning for any entry. A table with the rewritten constraint accepts exactly the entries of which the original constraint is true as documented, and (if it is on one line) reports a violation for exactly those of which it is false; so every entry that fits the table gets an answer. Where there is an answer for the original constraint it is the same. Every well-typed boolean constraint can be written as an annotation in this way.", "quantifier": "every program, table, well-typed boolean constraint and entry", "why_tests_cant": "That the meaning is the same concerns all constraints, widths and values; tests compare a few constraints for a few entries.", "anchors": ["p4_constraints/backend/interpreter.cc: EvalBinaryExpression, EvalFieldAccess, ReasonEntryViolatesConstraint", "p4_constraints/backend/type_checker.cc: InferAndCheckTypes", "docs/language-specification.md"]}
{"id": "C113", "title": "Comparing the priority", "statement": "A constraint `::priority o c` with a constant c accepts exactly the entries whose priority compares with c as an integer: nothing is reduced, whether c is large or negative. One would expect the same of comparisons of the priority with a field of a key, e.g. `::priority > k::value`: that the entry is accepted iff its priority is greater than the value. This holds for prefix lengths, and for priorities from 0 to 2^W - 1, where W is the width of the key. Other priorities are silently reduced modulo 2^W before they are compared (on either side of the comparison), so that an entry with priority 19 and value 3 violates `::priority > k::value` for a key of 4 bits, and satisfies `k::value == ::priority`.", "quantifier": "every program, table, comparison operator, constant, key, field and entry", "why_tests_cant": "Tests use small priorities, for which there is no difference; the claim is about all priorities, widths and values.", "anchors": ["p4_constraints/backend/interpreter.cc: Eval_ (type casts, attribute access), EvalBinaryExpression", "p4_constraints/backend/type_checker.cc: CastTransitivelyTo, LeastUpperBound, Unify", "docs/language-specification.md"]}
{"id": "C114", "title": "Comparing arguments of actions", "statement": "For an action constraint `p o c`, with a parameter p of width W and a constant c, one would expect that an invocation is accepted iff its argument compares with c. This holds for c from 0 to 2^W - 1. Any other constant is silently reduced modulo 2^W, so that `p != 260` for 8 bits rejects the argument 4; the argument is not reduced, even if it is too large for the parameter. Two parameters of the same width are compared as the numbers given for them. Comparisons of parameters of different widths, and any mention of a parameter of a named type, are not accepted by P4ToConstraintInfo.", "quantifier": "every program, action, comparison operator, constant, parameter and invocation", "why_tests_cant": "The claim is about all constants, widths and arguments; tests use a few that are in range.", "anchors": ["p4_constraints/backend/interpreter.cc: Eval_ (type casts, action parameters), EvalBinaryExpression, ParseAction", "p4_constraints/backend/type_checker.cc: CastTransitivelyTo, LeastUpperBound, Unify", "docs/language-specification.md"]}
