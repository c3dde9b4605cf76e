import Verif.Golden.Base

namespace P4C.Golden.Invalid

open P4C.Golden

/-- `invalid_constraints.forgot_quotes` (e2e_tests/invalid_constraints.p4). -/
def forgot_quotes : TableDecl where
  preamble := { id := 33554433, name := c!"invalid_constraints.forgot_quotes", annotations := [
      c!"@entry_restriction(forgot)"] }
  matchFields := []

/-- `invalid_constraints.forgot_quotes_with_srcloc` (e2e_tests/invalid_constraints.p4). -/
def forgot_quotes_with_srcloc : TableDecl where
  preamble := { id := 33554434, name := c!"invalid_constraints.forgot_quotes_with_srcloc", annotations := [
      c!"@file(\"e2e_tests/invalid_constraints.p4\")",
      c!"@line(11)",
      c!"@entry_restriction(forgot)"] }
  matchFields := []

/-- `invalid_constraints.empty_restriction` (e2e_tests/invalid_constraints.p4). -/
def empty_restriction : TableDecl where
  preamble := { id := 33554435, name := c!"invalid_constraints.empty_restriction", annotations := [
      c!"@entry_restriction(\"\")"] }
  matchFields := []

/-- `invalid_constraints.empty_restriction_with_src_loc` (e2e_tests/invalid_constraints.p4). -/
def empty_restriction_with_src_loc : TableDecl where
  preamble := { id := 33554436, name := c!"invalid_constraints.empty_restriction_with_src_loc", annotations := [
      c!"@file(\"e2e_tests/invalid_constraints.p4\")",
      c!"@line(19)",
      text [
        c!"@entry_restriction(\"\n",
        c!"  \")"]] }
  matchFields := []

/-- `invalid_constraints.unknown_key` (e2e_tests/invalid_constraints.p4). -/
def unknown_key : TableDecl where
  preamble := { id := 33554437, name := c!"invalid_constraints.unknown_key", annotations := [
      c!"@file(\"e2e_tests/invalid_constraints.p4\")",
      c!"@line(25)",
      text [
        c!"@entry_restriction(\"\n",
        c!"    foo.bar.baz == 2\n",
        c!"  \")"]] }
  matchFields := []

/-- `invalid_constraints.unknown_key_no_srcloc` (e2e_tests/invalid_constraints.p4). -/
def unknown_key_no_srcloc : TableDecl where
  preamble := { id := 33554438, name := c!"invalid_constraints.unknown_key_no_srcloc", annotations := [
      c!"@entry_restriction(\"foo.bar.baz == 2\")"] }
  matchFields := []

/-- `invalid_constraints.bad_binary_numeral` (e2e_tests/invalid_constraints.p4). -/
def bad_binary_numeral : TableDecl where
  preamble := { id := 33554439, name := c!"invalid_constraints.bad_binary_numeral", annotations := [
      c!"@file(\"e2e_tests/invalid_constraints.p4\")",
      c!"@line(36)",
      text [
        c!"@entry_restriction(\"\n",
        c!"    foo.bar.baz == 0b2\n",
        c!"  \")"]] }
  matchFields := []

/-- `invalid_constraints.bad_binary_numeral_no_srcloc` (e2e_tests/invalid_constraints.p4). -/
def bad_binary_numeral_no_srcloc : TableDecl where
  preamble := { id := 33554440, name := c!"invalid_constraints.bad_binary_numeral_no_srcloc", annotations := [
      c!"@entry_restriction(\"foo.bar.baz == 0b2\")"] }
  matchFields := []

/-- `invalid_constraints.multiline_comment` (e2e_tests/invalid_constraints.p4). -/
def multiline_comment : TableDecl where
  preamble := { id := 33554441, name := c!"invalid_constraints.multiline_comment", annotations := [
      c!"@file(\"e2e_tests/invalid_constraints.p4\")",
      c!"@line(47)",
      text [
        c!"@entry_restriction(\"\n",
        c!"    /* This is to demonstrate that the lexer correctly updates the source\n",
        c!"       location when scanning through multi-line comments such as this one */\n",
        c!"    /**************************************************************************/\n",
        c!"    error here\n",
        c!"  \")"]] }
  matchFields := []

/-- `invalid_constraints.unknown_field` (e2e_tests/invalid_constraints.p4). -/
def unknown_field : TableDecl where
  preamble := { id := 33554442, name := c!"invalid_constraints.unknown_field", annotations := [
      c!"@file(\"e2e_tests/invalid_constraints.p4\")",
      c!"@line(58)",
      text [
        c!"@entry_restriction(\"\n",
        c!"    ternary_key::prefix_length\n",
        c!"  \")"]] }
  matchFields := [⟨1, c!"ternary_key", 32, .matchType .ternary⟩]

/-- `invalid_constraints.scalar_has_no_field` (e2e_tests/invalid_constraints.p4). -/
def scalar_has_no_field : TableDecl where
  preamble := { id := 33554443, name := c!"invalid_constraints.scalar_has_no_field", annotations := [
      c!"@file(\"e2e_tests/invalid_constraints.p4\")",
      c!"@line(68)",
      text [
        c!"@entry_restriction(\"\n",
        c!"    0x0F0F :: value\n",
        c!"  \")"]] }
  matchFields := []

/-- `invalid_constraints.arithmetic_negation_of_boolean` (e2e_tests/invalid_constraints.p4). -/
def arithmetic_negation_of_boolean : TableDecl where
  preamble := { id := 33554444, name := c!"invalid_constraints.arithmetic_negation_of_boolean", annotations := [
      c!"@file(\"e2e_tests/invalid_constraints.p4\")",
      c!"@line(75)",
      text [
        c!"@entry_restriction(\"\n",
        c!"    -0x0F0F == -0o01234567 -> !false && -false\n",
        c!"  \")"]] }
  matchFields := []

/-- `invalid_constraints.boolean_negation_of_integer` (e2e_tests/invalid_constraints.p4). -/
def boolean_negation_of_integer : TableDecl where
  preamble := { id := 33554445, name := c!"invalid_constraints.boolean_negation_of_integer", annotations := [
      c!"@file(\"e2e_tests/invalid_constraints.p4\")",
      c!"@line(82)",
      text [
        c!"@entry_restriction(\"\n",
        c!"    !false -> -8 == -0b1000 || !1\n",
        c!"  \")"]] }
  matchFields := []

/-- `invalid_constraints.optional_does_not_support_ordered_comparison` (e2e_tests/invalid_constraints.p4). -/
def optional_does_not_support_ordered_comparison : TableDecl where
  preamble := { id := 33554446, name := c!"invalid_constraints.optional_does_not_support_ordered_comparison", annotations := [
      c!"@file(\"e2e_tests/invalid_constraints.p4\")",
      c!"@line(90)",
      text [
        c!"@entry_restriction(\"\n",
        c!"    optional_key > 10;\n",
        c!"  \")"]] }
  matchFields := [⟨1, c!"optional_key", 32, .matchType .optional⟩]

/-- `invalid_constraints.unknown_metadata` (e2e_tests/invalid_constraints.p4). -/
def unknown_metadata : TableDecl where
  preamble := { id := 33554447, name := c!"invalid_constraints.unknown_metadata", annotations := [
      c!"@file(\"e2e_tests/invalid_constraints.p4\")",
      c!"@line(100)",
      text [
        c!"@entry_restriction(\"\n",
        c!"    ::unknown > 10;\n",
        c!"  \")"]] }
  matchFields := []

/-- `invalid_constraints.invalid_vrf_classifier_table_with_multiline_strings` (e2e_tests/invalid_constraints.p4). -/
def invalid_vrf_classifier_table_with_multiline_strings : TableDecl where
  preamble := { id := 33554448, name := c!"invalid_constraints.invalid_vrf_classifier_table_with_multiline_strings", annotations := [
      c!"@file(\"e2e_tests/invalid_constraints.p4\")",
      c!"@line(107)",
      text [
        c!"@entry_restriction(\"headers.ipv4.dst_addr::mask == 0 || headers.ipv4.dst_addr::mask == -1;\" \"headers.ipv4.dst_addr::mask != 0 ->     \" \"  headers.ethernet.ether_type == 0x0800;\" \"headers.ipv6.dst_addr::mask != 0 ->\n",
        c!"      headers.ethernet.ether_type == 0x86DD;\" \"::unknown > 10;\" \"local_metadata.dscp::mask != 0 -> (\n",
        c!"      headers.ethernet.ether_type == 0x0800 ||\n",
        c!"      headers.ethernet.ether_type == 0x86DD ||\n",
        c!"      local_metadata.is_ip_packet == 1\n",
        c!"    );\n",
        c!"  \")"]] }
  matchFields := [⟨1, c!"headers.ethernet.ether_type", 16, .matchType .ternary⟩,
      ⟨2, c!"headers.ipv4.dst_addr", 32, .matchType .ternary⟩,
      ⟨3, c!"headers.ipv6.dst_addr", 128, .matchType .ternary⟩,
      ⟨4, c!"local_metadata.dscp", 6, .matchType .ternary⟩,
      ⟨5, c!"local_metadata.is_ip_packet", 1, .matchType .ternary⟩]

/-- `invalid_constraints.invalid_vrf_classifier_table_without_multiline_strings` (e2e_tests/invalid_constraints.p4). -/
def invalid_vrf_classifier_table_without_multiline_strings : TableDecl where
  preamble := { id := 33554449, name := c!"invalid_constraints.invalid_vrf_classifier_table_without_multiline_strings", annotations := [
      c!"@file(\"e2e_tests/invalid_constraints.p4\")",
      c!"@line(143)",
      text [
        c!"@entry_restriction(\"\n",
        c!"    // Either wildcard or exact match (i.e., 'optional' match).\n",
        c!"    headers.ipv4.dst_addr::mask == 0 || headers.ipv4.dst_addr::mask == -1;\n",
        c!"\n",
        c!"    // Only match on IPv4 addresses of IPv4 packets.\n",
        c!"    headers.ipv4.dst_addr::mask != 0 ->\n",
        c!"      headers.ethernet.ether_type == 0x0800;\n",
        c!"\n",
        c!"    // Only match on IPv6 addresses of IPv6 packets.\n",
        c!"    headers.ipv6.dst_addr::mask != 0 ->\n",
        c!"      headers.ethernet.ether_type == 0x86DD;\n",
        c!"\n",
        c!"    // An invalid constraint to ensure error messages are sensible.\n",
        c!"    ::unknown > 10;\n",
        c!"\n",
        c!"    // More valid stuff.\n",
        c!"    local_metadata.dscp::mask != 0 -> (\n",
        c!"      headers.ethernet.ether_type == 0x0800 ||\n",
        c!"      headers.ethernet.ether_type == 0x86DD ||\n",
        c!"      local_metadata.is_ip_packet == 1\n",
        c!"    );\n",
        c!"  \")"]] }
  matchFields := [⟨1, c!"headers.ethernet.ether_type", 16, .matchType .ternary⟩,
      ⟨2, c!"headers.ipv4.dst_addr", 32, .matchType .ternary⟩,
      ⟨3, c!"headers.ipv6.dst_addr", 128, .matchType .ternary⟩,
      ⟨4, c!"local_metadata.dscp", 6, .matchType .ternary⟩,
      ⟨5, c!"local_metadata.is_ip_packet", 1, .matchType .ternary⟩]

/-- The program `e2e_tests/invalid_constraints.p4`. -/
def program : P4Info where
  tables := [forgot_quotes, forgot_quotes_with_srcloc, empty_restriction, empty_restriction_with_src_loc, unknown_key, unknown_key_no_srcloc, bad_binary_numeral, bad_binary_numeral_no_srcloc, multiline_comment, unknown_field, scalar_has_no_field, arithmetic_negation_of_boolean, boolean_negation_of_integer, optional_does_not_support_ordered_comparison, unknown_metadata, invalid_vrf_classifier_table_with_multiline_strings, invalid_vrf_classifier_table_without_multiline_strings]
  actions := []

/-- `e2e_tests/invalid_constraints.expected.output`. -/
def expected : Str := text [
  c!"P4Info to constraint info translation failed with the following errors:\n",
  c!"- In table invalid_constraints.forgot_quotes:\n",
  c!"Syntax error: @entry_restriction must be enclosed in '(\"' and '\")'\n",
  c!"\n",
  c!"- In table invalid_constraints.forgot_quotes_with_srcloc:\n",
  c!"Syntax error: @entry_restriction must be enclosed in '(\"' and '\")'\n",
  c!"\n",
  c!"- In @entry_restriction of table 'invalid_constraints.empty_restriction'; at offset line 1, column 1:\n",
  c!"Parse error: unexpected token: <END_OF_INPUT>. Expected true, false, <BINARY>, <OCTARY>, <DECIMAL>, <HEXADEC>, <ID>, ::, !, -, or (.\n",
  c!"\n",
  c!"- e2e_tests/invalid_constraints.p4:21:3:\n",
  c!"Parse error: unexpected token: <END_OF_INPUT>. Expected true, false, <BINARY>, <OCTARY>, <DECIMAL>, <HEXADEC>, <ID>, ::, !, -, or (.\n",
  c!"\n",
  c!"- e2e_tests/invalid_constraints.p4:27:5-15:\n",
  c!"   | \n",
  c!"27 |     foo.bar.baz == 2\n",
  c!"   |     ^^^^^^^^^^^\n",
  c!"Type error: unknown key foo.bar.baz\n",
  c!"\n",
  c!"- In @entry_restriction of table 'invalid_constraints.unknown_key_no_srcloc'; at offset line 1, columns 1 to 11:\n",
  c!"1 | foo.bar.baz == 2\n",
  c!"  | ^^^^^^^^^^^\n",
  c!"Type error: unknown key foo.bar.baz\n",
  c!"\n",
  c!"- e2e_tests/invalid_constraints.p4:38:21-22:\n",
  c!"   | \n",
  c!"38 |     foo.bar.baz == 0b2\n",
  c!"   |                     ^^\n",
  c!"Parse error: unexpected token: <ID>. Expected <END_OF_INPUT>, ), ::, &&, ;, ||, ->, ==, !=, >, >=, <, or <=.\n",
  c!"\n",
  c!"- In @entry_restriction of table 'invalid_constraints.bad_binary_numeral_no_srcloc'; at offset line 1, columns 17 to 18:\n",
  c!"1 | foo.bar.baz == 0b2\n",
  c!"  |                 ^^\n",
  c!"Parse error: unexpected token: <ID>. Expected <END_OF_INPUT>, ), ::, &&, ;, ||, ->, ==, !=, >, >=, <, or <=.\n",
  c!"\n",
  c!"- e2e_tests/invalid_constraints.p4:52:11-14:\n",
  c!"   |     /**************************************************************************/\n",
  c!"52 |     error here\n",
  c!"   |           ^^^^\n",
  c!"Parse error: unexpected token: <ID>. Expected <END_OF_INPUT>, ), ::, &&, ;, ||, ->, ==, !=, >, >=, <, or <=.\n",
  c!"\n",
  c!"- e2e_tests/invalid_constraints.p4:60:5-30:\n",
  c!"   | \n",
  c!"60 |     ternary_key::prefix_length\n",
  c!"   |     ^^^^^^^^^^^^^^^^^^^^^^^^^^\n",
  c!"Type error: expression of type ternary<32> has no field 'prefix_length'\n",
  c!"\n",
  c!"- e2e_tests/invalid_constraints.p4:70:5-19:\n",
  c!"   | \n",
  c!"70 |     0x0F0F :: value\n",
  c!"   |     ^^^^^^^^^^^^^^^\n",
  c!"Type error: expression of type int has no field 'value'\n",
  c!"\n",
  c!"- e2e_tests/invalid_constraints.p4:77:42-46:\n",
  c!"   | \n",
  c!"77 |     -0x0F0F == -0o01234567 -> !false && -false\n",
  c!"   |                                          ^^^^^\n",
  c!"Type error: expected type int, got bool\n",
  c!"\n",
  c!"- e2e_tests/invalid_constraints.p4:84:33:\n",
  c!"   | \n",
  c!"84 |     !false -> -8 == -0b1000 || !1\n",
  c!"   |                                 ^\n",
  c!"Type error: expected type bool, got int\n",
  c!"\n",
  c!"- e2e_tests/invalid_constraints.p4:92:5-21:\n",
  c!"   | \n",
  c!"92 |     optional_key > 10;\n",
  c!"   |     ^^^^^^^^^^^^^^^^^\n",
  c!"Type error: operand type optional<32> does not support ordered comparison\n",
  c!"\n",
  c!"- e2e_tests/invalid_constraints.p4:102:5-13:\n",
  c!"    | \n",
  c!"102 |     ::unknown > 10;\n",
  c!"    |     ^^^^^^^^^\n",
  c!"Type error: unknown attribute 'unknown'\n",
  c!"\n",
  c!"- e2e_tests/invalid_constraints.p4:113:1-9:\n",
  c!"    |       headers.ethernet.ether_type == 0x86DD;\n",
  c!"113 | ::unknown > 10;\n",
  c!"    | ^^^^^^^^^\n",
  c!"Type error: unknown attribute 'unknown'\n",
  c!"\n",
  c!"- e2e_tests/invalid_constraints.p4:157:5-13:\n",
  c!"    |     // An invalid constraint to ensure error messages are sensible.\n",
  c!"157 |     ::unknown > 10;\n",
  c!"    |     ^^^^^^^^^\n",
  c!"Type error: unknown attribute 'unknown'\n"]

/-- `invalid_constraints_test` (e2e_tests/BUILD.bazel:7-12). -/
example : p4checkText texts entryTexts sys c!"e2e_tests/invalid_constraints.p4info.txt" (.parsed program) [] =
    .ok ⟨1, [], expected⟩ := by decide +kernel

end P4C.Golden.Invalid
