import Verif.Golden.Base

namespace P4C.Golden.Valid

open P4C.Golden

/-- `valid_constraints.accept_all_entries` (e2e_tests/valid_constraints.p4). -/
def accept_all_entries : TableDecl where
  preamble := { id := 33554433, name := c!"valid_constraints.accept_all_entries", annotations := [
      c!"@file(\"e2e_tests/valid_constraints.p4\")",
      c!"@line(7)",
      c!"@entry_restriction(\"true\")"] }
  matchFields := []

/-- `valid_constraints.reject_all_entries` (e2e_tests/valid_constraints.p4). -/
def reject_all_entries : TableDecl where
  preamble := { id := 33554434, name := c!"valid_constraints.reject_all_entries", annotations := [
      c!"@file(\"e2e_tests/valid_constraints.p4\")",
      c!"@line(13)",
      c!"@entry_restriction(\"false\")"] }
  matchFields := []

/-- `valid_constraints.vrf_classifier_table` (e2e_tests/valid_constraints.p4). -/
def vrf_classifier_table : TableDecl where
  preamble := { id := 33554435, name := c!"valid_constraints.vrf_classifier_table", annotations := [
      c!"@file(\"e2e_tests/valid_constraints.p4\")",
      c!"@line(19)",
      text [
        c!"@entry_restriction(\"\n",
        c!"    // Either wildcard or exact match (i.e., 'optional' match).\n",
        c!"    hdr.ipv4.dst_addr::mask == 0 || hdr.ipv4.dst_addr::mask == -1;\n",
        c!"\n",
        c!"    // Only match on IPv4 addresses of IPv4 packets.\n",
        c!"    hdr.ipv4.dst_addr::mask != 0 ->\n",
        c!"      hdr.ethernet.ether_type == 0x0800;\n",
        c!"\n",
        c!"    // Only match on IPv6 addresses of IPv6 packets.\n",
        c!"    hdr.ipv6.dst_addr::mask != 0 ->\n",
        c!"      hdr.ethernet.ether_type == 0x86DD;\n",
        c!"\n",
        c!"    local_metadata.dscp::mask != 0 -> (\n",
        c!"      hdr.ethernet.ether_type == 0x0800 ||\n",
        c!"      hdr.ethernet.ether_type == 0x86DD ||\n",
        c!"      local_metadata.is_ip_packet == 1\n",
        c!"    );\n",
        c!"  \")"]] }
  matchFields := [⟨1, c!"hdr.ethernet.ether_type", 16, .matchType .ternary⟩,
      ⟨2, c!"hdr.ethernet.src_addr", 48, .matchType .ternary⟩,
      ⟨3, c!"hdr.ipv4.dst_addr", 32, .matchType .ternary⟩,
      ⟨4, c!"standard_metadata.ingress_port", 9, .matchType .ternary⟩,
      ⟨5, c!"hdr.ipv6.dst_addr", 128, .matchType .ternary⟩,
      ⟨6, c!"hdr.ipv4.src_addr", 32, .matchType .optional⟩,
      ⟨7, c!"local_metadata.dscp", 6, .matchType .ternary⟩,
      ⟨8, c!"local_metadata.is_ip_packet", 1, .matchType .ternary⟩]

/-- `valid_constraints.vrf_classifier_table_with_multiline_strings` (e2e_tests/valid_constraints.p4). -/
def vrf_classifier_table_with_multiline_strings : TableDecl where
  preamble := { id := 33554438, name := c!"valid_constraints.vrf_classifier_table_with_multiline_strings", annotations := [
      c!"@file(\"e2e_tests/valid_constraints.p4\")",
      c!"@line(55)",
      text [
        c!"@entry_restriction(\"hdr.ipv4.dst_addr::mask == 0 || hdr.ipv4.dst_addr::mask == -1;\" \"hdr.ipv4.dst_addr::mask != 0 ->     \" \"  hdr.ethernet.ether_type == 0x0800;\" \"hdr.ipv6.dst_addr::mask != 0 ->\n",
        c!"      hdr.ethernet.ether_type == 0x86DD;\n",
        c!"\n",
        c!"    local_metadata.dscp::mask != 0 -> (\n",
        c!"      hdr.ethernet.ether_type == 0x0800 ||\n",
        c!"      hdr.ethernet.ether_type == 0x86DD ||\n",
        c!"      local_metadata.is_ip_packet == 1\n",
        c!"    );\n",
        c!"  \")"]] }
  matchFields := [⟨1, c!"hdr.ethernet.ether_type", 16, .matchType .ternary⟩,
      ⟨2, c!"hdr.ethernet.src_addr", 48, .matchType .ternary⟩,
      ⟨3, c!"hdr.ipv4.dst_addr", 32, .matchType .ternary⟩,
      ⟨4, c!"standard_metadata.ingress_port", 9, .matchType .ternary⟩,
      ⟨5, c!"hdr.ipv6.dst_addr", 128, .matchType .ternary⟩,
      ⟨6, c!"hdr.ipv4.src_addr", 32, .matchType .optional⟩,
      ⟨7, c!"local_metadata.dscp", 6, .matchType .ternary⟩,
      ⟨8, c!"local_metadata.is_ip_packet", 1, .matchType .ternary⟩]

/-- `valid_constraints.optional_match_table` (e2e_tests/valid_constraints.p4). -/
def optional_match_table : TableDecl where
  preamble := { id := 33554436, name := c!"valid_constraints.optional_match_table", annotations := [
      c!"@file(\"e2e_tests/valid_constraints.p4\")",
      c!"@line(92)",
      text [
        c!"@entry_restriction(\"\n",
        c!"    // Vacuously true, just to test syntax and implicit conversions.\n",
        c!"    hdr.ipv4.dst_addr::mask == 0 || hdr.ipv4.dst_addr::mask == -1;\n",
        c!"    hdr.ipv4.dst_addr::value == 10 || hdr.ipv4.dst_addr::value != 10;\n",
        c!"    // Same as above, but using implicit conversion.\n",
        c!"    hdr.ipv4.dst_addr == 10 || hdr.ipv4.dst_addr != 10;\n",
        c!"    // A real constraint: only wildcard match is okay.\n",
        c!"    hdr.ipv4.dst_addr::mask == 0;\n",
        c!"    // A constraint on metadata.\n",
        c!"    ::priority < 0x7fffffff;\n",
        c!"  \")"]] }
  matchFields := [⟨1, c!"hdr.ipv4.dst_addr", 32, .matchType .optional⟩]

/-- `valid_constraints.network_address_table` (e2e_tests/valid_constraints.p4). -/
def network_address_table : TableDecl where
  preamble := { id := 33554437, name := c!"valid_constraints.network_address_table", annotations := [
      text [
        c!"@entry_restriction(\"\n",
        c!"    hdr.ethernet.dst_addr::value < mac('00:00:00:00:00:05');\n",
        c!"    hdr.ipv4.dst_addr == ipv4('0.0.0.255');\n",
        c!"    hdr.ipv6.dst_addr::value > ipv6('::');\n",
        c!"  \")"]] }
  matchFields := [⟨1, c!"hdr.ethernet.dst_addr", 48, .matchType .exact⟩,
      ⟨2, c!"hdr.ipv4.dst_addr", 32, .matchType .exact⟩,
      ⟨3, c!"hdr.ipv6.dst_addr", 128, .matchType .exact⟩]

/-- The program `e2e_tests/valid_constraints.p4`. -/
def program : P4Info where
  tables := [accept_all_entries, reject_all_entries, vrf_classifier_table, vrf_classifier_table_with_multiline_strings, optional_match_table, network_address_table]
  actions := []

/-- What p4check prints about a file with an entry. -/
def printed (name : Str) (entry : RtEntry) : Res CliText :=
  p4checkText texts entryTexts sys c!"e2e_tests/valid_constraints.p4info.txt" (.parsed program) [(name, .parsed entry)]

/-! `valid_constraints_test` (e2e_tests/BUILD.bazel:14-19): the parts of `e2e_tests/valid_constraints.expected.output`. -/

example : printed c!"e2e_tests/table_entries/accept_all_entries_1.pb.txt"
    { tableId := 1, matches_ := [] } =
  .ok ⟨0, text [
    c!"### P4Constraints Table Entry Test #######################\n",
    c!"=== Input Table Entry File ===\n",
    c!"e2e_tests/table_entries/accept_all_entries_1.pb.txt\n",
    c!"=== Output ===\n",
    c!"Constraint satisfied\n",
    c!"\n"], []⟩ := by decide +kernel

example : printed c!"e2e_tests/table_entries/acl_table_1.pb.txt"
    { tableId := 3, matches_ := [⟨3, .ternary [49, 50, 51] [49, 50, 51]⟩] } =
  .ok ⟨0, text [
    c!"### P4Constraints Table Entry Test #######################\n",
    c!"=== Input Table Entry File ===\n",
    c!"e2e_tests/table_entries/acl_table_1.pb.txt\n",
    c!"=== Output ===\n",
    c!"All entries must satisfy:\n",
    c!"\n",
    c!"e2e_tests/valid_constraints.p4:22:5-65:\n",
    c!"   |     // Either wildcard or exact match (i.e., 'optional' match).\n",
    c!"22 |     hdr.ipv4.dst_addr::mask == 0 || hdr.ipv4.dst_addr::mask == -1;\n",
    c!"   |     ^^^^^^^^^^^^^^^^^^^^^^^^^^^^^^^^^^^^^^^^^^^^^^^^^^^^^^^^^^^^^\n",
    c!"\n",
    c!"But your entry does not.\n",
    c!">>>Relevant Entry Info<<<\n",
    c!"Table Name: \"valid_constraints.vrf_classifier_table\"\n",
    c!"Priority:0\n",
    c!"Field: \"hdr.ipv4.dst_addr\" -> Value: Ternary{.value = 3224115, .mask = 3224115}\n",
    c!"\n"], []⟩ := by decide +kernel

example : printed c!"e2e_tests/table_entries/network_address_table_invalid_ipv4.pb.txt"
    { tableId := 5, matches_ := [⟨1, .exact [4]⟩, ⟨2, .exact [254]⟩, ⟨3, .exact [1]⟩] } =
  .ok ⟨0, text [
    c!"### P4Constraints Table Entry Test #######################\n",
    c!"=== Input Table Entry File ===\n",
    c!"e2e_tests/table_entries/network_address_table_invalid_ipv4.pb.txt\n",
    c!"=== Output ===\n",
    c!"All entries must satisfy:\n",
    c!"\n",
    c!"In @entry_restriction of table 'valid_constraints.network_address_table'; at offset line 3, columns 5 to 42:\n",
    c!"  |     hdr.ethernet.dst_addr::value < mac('00:00:00:00:00:05');\n",
    c!"3 |     hdr.ipv4.dst_addr == ipv4('0.0.0.255');\n",
    c!"  |     ^^^^^^^^^^^^^^^^^^^^^^^^^^^^^^^^^^^^^^\n",
    c!"\n",
    c!"But your entry does not.\n",
    c!">>>Relevant Entry Info<<<\n",
    c!"Table Name: \"valid_constraints.network_address_table\"\n",
    c!"Priority:0\n",
    c!"Field: \"hdr.ipv4.dst_addr\" -> Value: Exact{.value = 254}\n",
    c!"\n"], []⟩ := by decide +kernel

example : printed c!"e2e_tests/table_entries/network_address_table_invalid_ipv6.pb.txt"
    { tableId := 5, matches_ := [⟨1, .exact [4]⟩, ⟨2, .exact [255]⟩, ⟨3, .exact [0]⟩] } =
  .ok ⟨0, text [
    c!"### P4Constraints Table Entry Test #######################\n",
    c!"=== Input Table Entry File ===\n",
    c!"e2e_tests/table_entries/network_address_table_invalid_ipv6.pb.txt\n",
    c!"=== Output ===\n",
    c!"All entries must satisfy:\n",
    c!"\n",
    c!"In @entry_restriction of table 'valid_constraints.network_address_table'; at offset line 4, columns 5 to 41:\n",
    c!"  |     hdr.ipv4.dst_addr == ipv4('0.0.0.255');\n",
    c!"4 |     hdr.ipv6.dst_addr::value > ipv6('::');\n",
    c!"  |     ^^^^^^^^^^^^^^^^^^^^^^^^^^^^^^^^^^^^^\n",
    c!"\n",
    c!"But your entry does not.\n",
    c!">>>Relevant Entry Info<<<\n",
    c!"Table Name: \"valid_constraints.network_address_table\"\n",
    c!"Priority:0\n",
    c!"Field: \"hdr.ipv6.dst_addr\" -> Value: Exact{.value = 0}\n",
    c!"\n"], []⟩ := by decide +kernel

example : printed c!"e2e_tests/table_entries/network_address_table_invalid_mac.pb.txt"
    { tableId := 5, matches_ := [⟨1, .exact [6]⟩, ⟨2, .exact [255]⟩, ⟨3, .exact [1]⟩] } =
  .ok ⟨0, text [
    c!"### P4Constraints Table Entry Test #######################\n",
    c!"=== Input Table Entry File ===\n",
    c!"e2e_tests/table_entries/network_address_table_invalid_mac.pb.txt\n",
    c!"=== Output ===\n",
    c!"All entries must satisfy:\n",
    c!"\n",
    c!"In @entry_restriction of table 'valid_constraints.network_address_table'; at offset line 2, columns 5 to 59:\n",
    c!"  | \n",
    c!"2 |     hdr.ethernet.dst_addr::value < mac('00:00:00:00:00:05');\n",
    c!"  |     ^^^^^^^^^^^^^^^^^^^^^^^^^^^^^^^^^^^^^^^^^^^^^^^^^^^^^^^\n",
    c!"\n",
    c!"But your entry does not.\n",
    c!">>>Relevant Entry Info<<<\n",
    c!"Table Name: \"valid_constraints.network_address_table\"\n",
    c!"Priority:0\n",
    c!"Field: \"hdr.ethernet.dst_addr\" -> Value: Exact{.value = 6}\n",
    c!"\n"], []⟩ := by decide +kernel

example : printed c!"e2e_tests/table_entries/network_address_table_valid.pb.txt"
    { tableId := 5, matches_ := [⟨1, .exact [4]⟩, ⟨2, .exact [255]⟩, ⟨3, .exact [1]⟩] } =
  .ok ⟨0, text [
    c!"### P4Constraints Table Entry Test #######################\n",
    c!"=== Input Table Entry File ===\n",
    c!"e2e_tests/table_entries/network_address_table_valid.pb.txt\n",
    c!"=== Output ===\n",
    c!"Constraint satisfied\n",
    c!"\n"], []⟩ := by decide +kernel

example : printed c!"e2e_tests/table_entries/optional_match_table_invalid_1.pb.txt"
    { tableId := 4, matches_ := [⟨1, .optional [49, 50, 51]⟩] } =
  .ok ⟨0, text [
    c!"### P4Constraints Table Entry Test #######################\n",
    c!"=== Input Table Entry File ===\n",
    c!"e2e_tests/table_entries/optional_match_table_invalid_1.pb.txt\n",
    c!"=== Output ===\n",
    c!"All entries must satisfy:\n",
    c!"\n",
    c!"e2e_tests/valid_constraints.p4:100:5-32:\n",
    c!"    |     // A real constraint: only wildcard match is okay.\n",
    c!"100 |     hdr.ipv4.dst_addr::mask == 0;\n",
    c!"    |     ^^^^^^^^^^^^^^^^^^^^^^^^^^^^\n",
    c!"\n",
    c!"But your entry does not.\n",
    c!">>>Relevant Entry Info<<<\n",
    c!"Table Name: \"valid_constraints.optional_match_table\"\n",
    c!"Priority:0\n",
    c!"Field: \"hdr.ipv4.dst_addr\" -> Value: Ternary{.value = 3224115, .mask = 4294967295}\n",
    c!"\n"], []⟩ := by decide +kernel

example : printed c!"e2e_tests/table_entries/optional_match_table_valid_1.pb.txt"
    { tableId := 4, matches_ := [] } =
  .ok ⟨0, text [
    c!"### P4Constraints Table Entry Test #######################\n",
    c!"=== Input Table Entry File ===\n",
    c!"e2e_tests/table_entries/optional_match_table_valid_1.pb.txt\n",
    c!"=== Output ===\n",
    c!"Constraint satisfied\n",
    c!"\n"], []⟩ := by decide +kernel

example : printed c!"e2e_tests/table_entries/optional_match_table_valid_max_priority.pb.txt"
    { tableId := 4, matches_ := [], priority := 2147483647 } =
  .ok ⟨0, text [
    c!"### P4Constraints Table Entry Test #######################\n",
    c!"=== Input Table Entry File ===\n",
    c!"e2e_tests/table_entries/optional_match_table_valid_max_priority.pb.txt\n",
    c!"=== Output ===\n",
    c!"All entries must satisfy:\n",
    c!"\n",
    c!"e2e_tests/valid_constraints.p4:102:5-27:\n",
    c!"    |     // A constraint on metadata.\n",
    c!"102 |     ::priority < 0x7fffffff;\n",
    c!"    |     ^^^^^^^^^^^^^^^^^^^^^^^\n",
    c!"\n",
    c!"But your entry does not.\n",
    c!">>>Relevant Entry Info<<<\n",
    c!"Table Name: \"valid_constraints.optional_match_table\"\n",
    c!"Priority:2147483647\n",
    c!"\n"], []⟩ := by decide +kernel

example : printed c!"e2e_tests/table_entries/reject_all_entries_1.pb.txt"
    { tableId := 2, matches_ := [] } =
  .ok ⟨0, text [
    c!"### P4Constraints Table Entry Test #######################\n",
    c!"=== Input Table Entry File ===\n",
    c!"e2e_tests/table_entries/reject_all_entries_1.pb.txt\n",
    c!"=== Output ===\n",
    c!"All entries must satisfy:\n",
    c!"\n",
    c!"e2e_tests/valid_constraints.p4:14:1-5:\n",
    c!"14 | false\n",
    c!"   | ^^^^^\n",
    c!"\n",
    c!"But your entry does not.\n",
    c!">>>Relevant Entry Info<<<\n",
    c!"Table Name: \"valid_constraints.reject_all_entries\"\n",
    c!"Priority:0\n",
    c!"\n"], []⟩ := by decide +kernel

example : printed c!"e2e_tests/table_entries/unknown_table_entry.pb.txt"
    { tableId := 0, matches_ := [] } =
  .ok ⟨0, text [
    c!"### P4Constraints Table Entry Test #######################\n",
    c!"=== Input Table Entry File ===\n",
    c!"e2e_tests/table_entries/unknown_table_entry.pb.txt\n",
    c!"=== Output ===\n",
    c!"Error: INVALID_ARGUMENT: table entry with unknown table ID 0 (full ID: 33554432 (0x02000000))\n",
    c!"\n"], []⟩ := by decide +kernel

end P4C.Golden.Valid
