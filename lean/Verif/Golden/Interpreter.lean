import Verif.Golden.Base

/-
`p4_constraints/backend/interpreter_golden_test_runner.cc`, run on the model.
-/

namespace P4C.Golden.Interpreter

open P4C.Golden

def keysById : List (Nat × VarInfo) :=
  [(1, ⟨1, c!"exact32", .exact 32⟩), (2, ⟨2, c!"ternary32", .ternary 32⟩)]

def keysByName : List (Str × VarInfo) :=
  [(c!"exact32", ⟨1, c!"exact32", .exact 32⟩), (c!"ternary32", ⟨2, c!"ternary32", .ternary 32⟩),
   (c!"lpm32", ⟨3, c!"lpm32", .lpm 32⟩), (c!"range32", ⟨4, c!"range32", .range 32⟩),
   (c!"optional32", ⟨5, c!"optional32", .optionalMatch 32⟩)]

/-- The table, with its constraint (interpreter_golden_test_runner.cc:74-120). -/
def tableWith (constraint : Str) (loc : Loc) : Res TableInfo :=
  if constraint = [] then .ok ⟨1, c!"golden_table", none, {}, keysById, keysByName⟩
  else do
    let e ← parseConstraint sys .table ⟨constraint, loc⟩
    let e ← inferAndCheck ⟨constraint, loc⟩ (.table keysByName) e
    .ok ⟨1, c!"golden_table", some e, ⟨constraint, loc⟩, keysById, keysByName⟩

/-- Name and parameters of an action (interpreter_golden_test_runner.cc:88-109). -/
def actionParams (id : Nat) : Str × List VarInfo :=
  if id = 1 then (c!"multicast_group_id",
    [⟨1, c!"multicast_group_id", .fixedUnsigned 32⟩, ⟨2, c!"dummy_var", .fixedUnsigned 32⟩])
  else (c!"vlan_id", [⟨1, c!"vlan_id", .fixedUnsigned 32⟩])

/-- An action, with its constraint (interpreter_golden_test_runner.cc:122-137). -/
def actionWith (loc : Loc) (c : Nat × Str) : Res (Nat × ActionInfo) := do
  let (name, ps) := actionParams c.1
  let byName := ps.map fun p => (p.name, p)
  let e ← parseConstraint sys .action ⟨c.2, loc⟩
  let e ← inferAndCheck ⟨c.2, loc⟩ (.action byName) e
  .ok (c.1, ⟨c.1, name, some e, ⟨c.2, loc⟩, ps.map fun p => (p.id, p), byName⟩)

/-- The actions, with their constraints. -/
def actionsWith (loc : Loc) : List (Nat × Str) → Res (List (Nat × ActionInfo))
  | [] => .ok []
  | c :: cs => do
    let a ← actionWith loc c
    let as ← actionsWith loc cs
    .ok (a :: as)

/-- What is printed under `=== OUTPUT ===` (interpreter_golden_test_runner.cc:545-551). -/
def output (constraint : Str) (constraints : List (Nat × Str)) (loc : Loc) (entry : RtEntry) : Res Str := do
  let t ← tableWith constraint loc
  let as ← actionsWith loc constraints
  let r ← (reasonEntryViolatesConstraintM entryTexts entry ⟨as, [(1, t)]⟩).erase
  .ok ((if r = [] then c!"<empty>\n" else r) ++ c!"\n")

/-- What is printed about the entry under `--- Table Entry Info ---` (interpreter_golden_test_runner.cc:390-415). -/
def entryInfo (constraint : Str) (loc : Loc) (entry : RtEntry) : Res (List (Str × Str)) := do
  let t ← tableWith constraint loc
  let c ← parseTableEntry entry t
  match c.vals with
  | .table v => .ok ((ordered v.keys).map fun k => (k.1, evalResultToString k.2))
  | .action _ => .crash

example : output c!"true;" [(1, c!"multicast_group_id != 0")]
    { src := .filePath c!"golden_test.p4" }
    { tableId := 1, matches_ := [⟨1, .exact [10]⟩], action := some (.action ⟨1, [(1, [0])]⟩) } =
  .ok (text [
    c!"All actions must satisfy:\n",
    c!"\n",
    c!"golden_test.p4:1:1-23:\n",
    c!"1 | multicast_group_id != 0\n",
    c!"  | ^^^^^^^^^^^^^^^^^^^^^^^\n",
    c!"\n",
    c!"But your entry does not.\n",
    c!">>>Relevant Action Info<<<\n",
    c!"Action Name: \"multicast_group_id\"\n",
    c!"Param name: \"multicast_group_id\" -> Value: 0\n",
    c!"\n"]) := by decide +kernel

example : entryInfo c!"true;"
    { src := .filePath c!"golden_test.p4" }
    { tableId := 1, matches_ := [⟨1, .exact [10]⟩], action := some (.action ⟨1, [(1, [0])]⟩) } =
  .ok [(c!"exact32", c!"Exact{.value = 10}"),
    (c!"lpm32", c!"Lpm{.value = 0, .prefix_length = 0}"),
    (c!"optional32", c!"Ternary{.value = 0, .mask = 0}"),
    (c!"range32", c!"Range{.low = 0, .high = 4294967295}"),
    (c!"ternary32", c!"Ternary{.value = 0, .mask = 0}")] := by decide +kernel

example : output c!"" [(1, c!"multicast_group_id != 0")]
    { src := .actionName c!"golden_action" }
    { tableId := 1, matches_ := [], action := some (.action ⟨1, [(1, [0])]⟩) } =
  .ok (text [
    c!"All actions must satisfy:\n",
    c!"\n",
    c!"In @action_restriction of action 'golden_action'; at offset line 1, columns 1 to 23:\n",
    c!"1 | multicast_group_id != 0\n",
    c!"  | ^^^^^^^^^^^^^^^^^^^^^^^\n",
    c!"\n",
    c!"But your entry does not.\n",
    c!">>>Relevant Action Info<<<\n",
    c!"Action Name: \"multicast_group_id\"\n",
    c!"Param name: \"multicast_group_id\" -> Value: 0\n",
    c!"\n"]) := by decide +kernel

example : output c!"" [(1, c!"multicast_group_id != 0")]
    { src := .actionName c!"golden_action" }
    { tableId := 1, matches_ := [], action := some (.action ⟨1, [(1, [6])]⟩) } =
  .ok (text [
    c!"<empty>\n",
    c!"\n"]) := by decide +kernel

example : output c!"" [(1, c!"multicast_group_id != dummy_var")]
    { src := .actionName c!"golden_action" }
    { tableId := 1, matches_ := [], action := some (.action ⟨1, [(1, [6]), (2, [0])]⟩) } =
  .ok (text [
    c!"<empty>\n",
    c!"\n"]) := by decide +kernel

example : output c!"" [(1, c!"multicast_group_id != 0"), (2, c!"vlan_id != 0")]
    { src := .actionName c!"golden_action" }
    { tableId := 1, matches_ := [], action := some (.actionSet [⟨1, [(1, [6])]⟩, ⟨2, [(1, [6])]⟩]) } =
  .ok (text [
    c!"<empty>\n",
    c!"\n"]) := by decide +kernel

example : output c!"" [(1, c!"multicast_group_id != 0"), (2, c!"vlan_id != 0")]
    { src := .actionName c!"golden_action" }
    { tableId := 1, matches_ := [], action := some (.actionSet [⟨1, [(1, [6])]⟩, ⟨2, [(1, [0])]⟩]) } =
  .ok (text [
    c!"All actions must satisfy:\n",
    c!"\n",
    c!"In @action_restriction of action 'golden_action'; at offset line 1, columns 1 to 12:\n",
    c!"1 | vlan_id != 0\n",
    c!"  | ^^^^^^^^^^^^\n",
    c!"\n",
    c!"But your entry does not.\n",
    c!">>>Relevant Action Info<<<\n",
    c!"Action Name: \"vlan_id\"\n",
    c!"Param name: \"vlan_id\" -> Value: 0\n",
    c!"\n"]) := by decide +kernel

example : output c!"true;" []
    { src := .tableName c!"golden_table" }
    { tableId := 1, matches_ := [⟨1, .exact [10]⟩] } =
  .ok (text [
    c!"<empty>\n",
    c!"\n"]) := by decide +kernel

example : entryInfo c!"true;"
    { src := .tableName c!"golden_table" }
    { tableId := 1, matches_ := [⟨1, .exact [10]⟩] } =
  .ok [(c!"exact32", c!"Exact{.value = 10}"),
    (c!"lpm32", c!"Lpm{.value = 0, .prefix_length = 0}"),
    (c!"optional32", c!"Ternary{.value = 0, .mask = 0}"),
    (c!"range32", c!"Range{.low = 0, .high = 4294967295}"),
    (c!"ternary32", c!"Ternary{.value = 0, .mask = 0}")] := by decide +kernel

example : output c!"exact32::value != 10 || exact32::value == 10;" []
    { src := .tableName c!"golden_table" }
    { tableId := 1, matches_ := [⟨1, .exact [10]⟩] } =
  .ok (text [
    c!"<empty>\n",
    c!"\n"]) := by decide +kernel

example : entryInfo c!"exact32::value != 10 || exact32::value == 10;"
    { src := .tableName c!"golden_table" }
    { tableId := 1, matches_ := [⟨1, .exact [10]⟩] } =
  .ok [(c!"exact32", c!"Exact{.value = 10}"),
    (c!"lpm32", c!"Lpm{.value = 0, .prefix_length = 0}"),
    (c!"optional32", c!"Ternary{.value = 0, .mask = 0}"),
    (c!"range32", c!"Range{.low = 0, .high = 4294967295}"),
    (c!"ternary32", c!"Ternary{.value = 0, .mask = 0}")] := by decide +kernel

example : output c!"exact32::value > 6 && exact32::value < 5;" []
    { src := .tableName c!"golden_table" }
    { tableId := 1, matches_ := [⟨1, .exact [10]⟩, ⟨2, .ternary [10] [64]⟩] } =
  .ok (text [
    c!"All entries must satisfy:\n",
    c!"\n",
    c!"In @entry_restriction of table 'golden_table'; at offset line 1, columns 23 to 40:\n",
    c!"1 | exact32::value > 6 && exact32::value < 5;\n",
    c!"  |                       ^^^^^^^^^^^^^^^^^^\n",
    c!"\n",
    c!"But your entry does not.\n",
    c!">>>Relevant Entry Info<<<\n",
    c!"Table Name: \"golden_table\"\n",
    c!"Priority:0\n",
    c!"Field: \"exact32\" -> Value: Exact{.value = 10}\n",
    c!"\n"]) := by decide +kernel

example : entryInfo c!"exact32::value > 6 && exact32::value < 5;"
    { src := .tableName c!"golden_table" }
    { tableId := 1, matches_ := [⟨1, .exact [10]⟩, ⟨2, .ternary [10] [64]⟩] } =
  .ok [(c!"exact32", c!"Exact{.value = 10}"),
    (c!"lpm32", c!"Lpm{.value = 0, .prefix_length = 0}"),
    (c!"optional32", c!"Ternary{.value = 0, .mask = 0}"),
    (c!"range32", c!"Range{.low = 0, .high = 4294967295}"),
    (c!"ternary32", c!"Ternary{.value = 10, .mask = 64}")] := by decide +kernel

example : output (text [
      c!"exact32::value > 5;\n",
      c!"exact32::value < 20;\n",
      c!"exact32::value == 14;"]) []
    { src := .tableName c!"golden_table" }
    { tableId := 1, matches_ := [⟨1, .exact [10]⟩] } =
  .ok (text [
    c!"All entries must satisfy:\n",
    c!"\n",
    c!"In @entry_restriction of table 'golden_table'; at offset line 3, columns 1 to 20:\n",
    c!"  | exact32::value < 20;\n",
    c!"3 | exact32::value == 14;\n",
    c!"  | ^^^^^^^^^^^^^^^^^^^^\n",
    c!"\n",
    c!"But your entry does not.\n",
    c!">>>Relevant Entry Info<<<\n",
    c!"Table Name: \"golden_table\"\n",
    c!"Priority:0\n",
    c!"Field: \"exact32\" -> Value: Exact{.value = 10}\n",
    c!"\n"]) := by decide +kernel

example : entryInfo (text [
      c!"exact32::value > 5;\n",
      c!"exact32::value < 20;\n",
      c!"exact32::value == 14;"])
    { src := .tableName c!"golden_table" }
    { tableId := 1, matches_ := [⟨1, .exact [10]⟩] } =
  .ok [(c!"exact32", c!"Exact{.value = 10}"),
    (c!"lpm32", c!"Lpm{.value = 0, .prefix_length = 0}"),
    (c!"optional32", c!"Ternary{.value = 0, .mask = 0}"),
    (c!"range32", c!"Range{.low = 0, .high = 4294967295}"),
    (c!"ternary32", c!"Ternary{.value = 0, .mask = 0}")] := by decide +kernel

example : output (text [
      c!"exact32::value > 0;\n",
      c!"exact32::value > 7 || exact32::value == 5;\n",
      c!"exact32::value == 9;"]) []
    { src := .filePath c!"golden_test.p4" }
    { tableId := 1, matches_ := [⟨1, .exact [10]⟩] } =
  .ok (text [
    c!"All entries must satisfy:\n",
    c!"\n",
    c!"golden_test.p4:3:1-19:\n",
    c!"  | exact32::value > 7 || exact32::value == 5;\n",
    c!"3 | exact32::value == 9;\n",
    c!"  | ^^^^^^^^^^^^^^^^^^^\n",
    c!"\n",
    c!"But your entry does not.\n",
    c!">>>Relevant Entry Info<<<\n",
    c!"Table Name: \"golden_table\"\n",
    c!"Priority:0\n",
    c!"Field: \"exact32\" -> Value: Exact{.value = 10}\n",
    c!"\n"]) := by decide +kernel

example : entryInfo (text [
      c!"exact32::value > 0;\n",
      c!"exact32::value > 7 || exact32::value == 5;\n",
      c!"exact32::value == 9;"])
    { src := .filePath c!"golden_test.p4" }
    { tableId := 1, matches_ := [⟨1, .exact [10]⟩] } =
  .ok [(c!"exact32", c!"Exact{.value = 10}"),
    (c!"lpm32", c!"Lpm{.value = 0, .prefix_length = 0}"),
    (c!"optional32", c!"Ternary{.value = 0, .mask = 0}"),
    (c!"range32", c!"Range{.low = 0, .high = 4294967295}"),
    (c!"ternary32", c!"Ternary{.value = 0, .mask = 0}")] := by decide +kernel

example : output (text [
      c!"exact32::value > 0;\n",
      c!"exact32::value < 42;\n",
      c!"exact32::value < 20 -> exact32::value == 14;"]) []
    { src := .filePath c!"golden_test.p4" }
    { tableId := 1, matches_ := [⟨1, .exact [10]⟩] } =
  .ok (text [
    c!"All entries must satisfy:\n",
    c!"\n",
    c!"golden_test.p4:3:1-43:\n",
    c!"  | exact32::value < 42;\n",
    c!"3 | exact32::value < 20 -> exact32::value == 14;\n",
    c!"  | ^^^^^^^^^^^^^^^^^^^^^^^^^^^^^^^^^^^^^^^^^^^\n",
    c!"\n",
    c!"But your entry does not.\n",
    c!">>>Relevant Entry Info<<<\n",
    c!"Table Name: \"golden_table\"\n",
    c!"Priority:0\n",
    c!"Field: \"exact32\" -> Value: Exact{.value = 10}\n",
    c!"\n"]) := by decide +kernel

example : entryInfo (text [
      c!"exact32::value > 0;\n",
      c!"exact32::value < 42;\n",
      c!"exact32::value < 20 -> exact32::value == 14;"])
    { src := .filePath c!"golden_test.p4" }
    { tableId := 1, matches_ := [⟨1, .exact [10]⟩] } =
  .ok [(c!"exact32", c!"Exact{.value = 10}"),
    (c!"lpm32", c!"Lpm{.value = 0, .prefix_length = 0}"),
    (c!"optional32", c!"Ternary{.value = 0, .mask = 0}"),
    (c!"range32", c!"Range{.low = 0, .high = 4294967295}"),
    (c!"ternary32", c!"Ternary{.value = 0, .mask = 0}")] := by decide +kernel

example : output (text [
      c!"exact32::value == 1 || exact32::value == 2;\n",
      c!"!(exact32::value == 10 -> exact32::value == 10);\n",
      c!"exact32::value == 3 || exact32::value == 4;"]) []
    { src := .filePath c!"golden_test.p4" }
    { tableId := 1, matches_ := [⟨1, .exact [10]⟩] } =
  .ok (text [
    c!"All entries must not satisfy:\n",
    c!"\n",
    c!"golden_test.p4:2:27-46:\n",
    c!"  | exact32::value == 1 || exact32::value == 2;\n",
    c!"2 | !(exact32::value == 10 -> exact32::value == 10);\n",
    c!"  |                           ^^^^^^^^^^^^^^^^^^^^\n",
    c!"\n",
    c!"But your entry does.\n",
    c!">>>Relevant Entry Info<<<\n",
    c!"Table Name: \"golden_table\"\n",
    c!"Priority:0\n",
    c!"Field: \"exact32\" -> Value: Exact{.value = 10}\n",
    c!"\n"]) := by decide +kernel

example : entryInfo (text [
      c!"exact32::value == 1 || exact32::value == 2;\n",
      c!"!(exact32::value == 10 -> exact32::value == 10);\n",
      c!"exact32::value == 3 || exact32::value == 4;"])
    { src := .filePath c!"golden_test.p4" }
    { tableId := 1, matches_ := [⟨1, .exact [10]⟩] } =
  .ok [(c!"exact32", c!"Exact{.value = 10}"),
    (c!"lpm32", c!"Lpm{.value = 0, .prefix_length = 0}"),
    (c!"optional32", c!"Ternary{.value = 0, .mask = 0}"),
    (c!"range32", c!"Range{.low = 0, .high = 4294967295}"),
    (c!"ternary32", c!"Ternary{.value = 0, .mask = 0}")] := by decide +kernel

example : output (text [
      c!"exact32::value == 80 || ternary32::value == 3096;\n",
      c!"ternary32::mask == 255 && exact32::value == 3;"]) []
    { src := .tableName c!"golden_table" }
    { tableId := 1, matches_ := [⟨1, .exact [10]⟩, ⟨2, .ternary [42] [64]⟩] } =
  .ok (text [
    c!"All entries must satisfy:\n",
    c!"\n",
    c!"In @entry_restriction of table 'golden_table'; at offset line 2, columns 1 to 22:\n",
    c!"  | exact32::value == 80 || ternary32::value == 3096;\n",
    c!"2 | ternary32::mask == 255 && exact32::value == 3;\n",
    c!"  | ^^^^^^^^^^^^^^^^^^^^^^\n",
    c!"\n",
    c!"But your entry does not.\n",
    c!">>>Relevant Entry Info<<<\n",
    c!"Table Name: \"golden_table\"\n",
    c!"Priority:0\n",
    c!"Field: \"ternary32\" -> Value: Ternary{.value = 42, .mask = 64}\n",
    c!"\n"]) := by decide +kernel

example : entryInfo (text [
      c!"exact32::value == 80 || ternary32::value == 3096;\n",
      c!"ternary32::mask == 255 && exact32::value == 3;"])
    { src := .tableName c!"golden_table" }
    { tableId := 1, matches_ := [⟨1, .exact [10]⟩, ⟨2, .ternary [42] [64]⟩] } =
  .ok [(c!"exact32", c!"Exact{.value = 10}"),
    (c!"lpm32", c!"Lpm{.value = 0, .prefix_length = 0}"),
    (c!"optional32", c!"Ternary{.value = 0, .mask = 0}"),
    (c!"range32", c!"Range{.low = 0, .high = 4294967295}"),
    (c!"ternary32", c!"Ternary{.value = 42, .mask = 64}")] := by decide +kernel

example : output c!"(false || false) && (!(true -> true) && (false || false));" []
    { src := .filePath c!"golden_test.p4" }
    { tableId := 1, matches_ := [⟨1, .exact [10]⟩] } =
  .ok (text [
    c!"All entries must not satisfy:\n",
    c!"\n",
    c!"golden_test.p4:1:32-35:\n",
    c!"1 | (false || false) && (!(true -> true) && (false || false));\n",
    c!"  |                                ^^^^\n",
    c!"\n",
    c!"But your entry does.\n",
    c!">>>Relevant Entry Info<<<\n",
    c!"Table Name: \"golden_table\"\n",
    c!"Priority:0\n",
    c!"\n"]) := by decide +kernel

example : entryInfo c!"(false || false) && (!(true -> true) && (false || false));"
    { src := .filePath c!"golden_test.p4" }
    { tableId := 1, matches_ := [⟨1, .exact [10]⟩] } =
  .ok [(c!"exact32", c!"Exact{.value = 10}"),
    (c!"lpm32", c!"Lpm{.value = 0, .prefix_length = 0}"),
    (c!"optional32", c!"Ternary{.value = 0, .mask = 0}"),
    (c!"range32", c!"Range{.low = 0, .high = 4294967295}"),
    (c!"ternary32", c!"Ternary{.value = 0, .mask = 0}")] := by decide +kernel

end P4C.Golden.Interpreter
