import Verif.Proofs.CliText

/-!
# C70: what p4check prints
-/

namespace P4C

open Spec

/-- C70: whenever p4check ends, it either exits with status 1, with nothing on standard output and the reason on standard
error; or it exits with status 0, having found no fault in the program, and standard output consists of a section for each
entry file, in order, with the name of the file and the verdict on it. Both are described in terms of the declarations of the
program. For bitwidths that are not negative. -/
theorem C70_prints {xp : Texts} {xe : EntryTexts} {sys : Sys} {name : Str} {program : FileRead P4Info}
    {files : List (Str × FileRead RtEntry)} (hp : ∀ p, program = .parsed p → NonNegProgram p) {r : CliText}
    (h : p4checkText xp xe sys name program files = .ok r) :
    (∃ m, NoProgram xp sys.inetPton6 name program m ∧ r = ⟨1, [], m⟩) ∨
    ∃ p ts, name ≠ [] ∧ program = .parsed p ∧ ProgramReports xp sys.inetPton6 (fullIds p) [] ∧
      Each (fun f t => ∃ v, Verdict xe sys.inetPton6 (fullIds p) f.2 v ∧ t = fileSection f.1 v) files ts ∧
      r = ⟨0, ts.flatten, []⟩ :=
  p4checkText_prints hp h

/-- C70: the verdict tells which of the three cases it is: that the entry is accepted, that it violates a constraint, or
that there is an error. -/
theorem C70_read {x : EntryTexts} {sys : Sys} {p : P4Info} (h : ∃ ci, p4ToConstraintInfo sys p = .ok ci)
    (hw : NonNegProgram p) {e : RtEntry} {v : Str} (hv : Verdict x sys.inetPton6 p (.parsed e) v) :
    (v = c!"Constraint satisfied\n" ↔ Accepted sys.inetPton6 p (fullEntry e)) ∧
    (c!"All " <+: v ↔ ∃ m, ReportsViolation sys.inetPton6 p (fullEntry e) m) ∧
    (∀ m, ReportsViolation sys.inetPton6 p (fullEntry e) m → v = m) ∧
    (c!"Error: " <+: v ↔ ¬ Accepted sys.inetPton6 p (fullEntry e) ∧ ∀ m, ¬ ReportsViolation sys.inetPton6 p (fullEntry e) m) := by
  obtain ⟨ci, h⟩ := h
  have hex : ∀ {m}, Accepted sys.inetPton6 p (fullEntry e) → ¬ ReportsViolation sys.inetPton6 p (fullEntry e) m := by
    intro m ha hr
    obtain ⟨h1, h2⟩ := (reason_reports h hw).2 hr
    rw [(C65_accepted h hw _).2 ha] at h1
    cases h1
    exact h2 rfl
  cases hv with
  | satisfied ha =>
    refine ⟨⟨fun _ => ha, fun _ => rfl⟩, ⟨fun hpre => ?_, fun ⟨m, hm⟩ => (hex ha hm).elim⟩,
      fun m hm => (hex ha hm).elim, ⟨fun hpre => ?_, fun hn => (hn.1 ha).elim⟩⟩
    · exact absurd hpre (by decide)
    · exact absurd hpre (by decide)
  | violated hr =>
    have hp := report_prefix hr
    refine ⟨⟨fun he => ?_, fun ha => (hex ha hr).elim⟩, ⟨fun _ => ⟨_, hr⟩, fun _ => hp⟩, fun m hm => ?_,
      ⟨fun hpre => ?_, fun hn => (hn.2 _ hr).elim⟩⟩
    · rw [he] at hp
      exact absurd hp (by decide)
    · have h1 := ((reason_reports h hw).2 hr).1
      rw [((reason_reports h hw).2 hm).1] at h1
      cases h1
      rfl
    · obtain ⟨a, rfl⟩ := hp
      obtain ⟨b, hb⟩ := hpre
      injection hb with hb _
      exact absurd hb (by decide)
  | error he ha hr hc =>
    refine ⟨⟨fun h => ?_, fun h => (ha h).elim⟩, ⟨fun ⟨b, hb⟩ => ?_, fun ⟨m, hm⟩ => (hr m hm).elim⟩,
      fun m hm => (hr m hm).elim, ⟨fun _ => ⟨ha, hr⟩, fun _ => ?_⟩⟩
    · simp only [List.append_assoc] at h
      injection h with h _
      exact absurd h (by decide)
    · simp only [List.append_assoc] at hb
      injection hb with hb _
      exact absurd hb (by decide)
    · simp only [List.append_assoc]
      exact List.prefix_append ..

/-- C70: the exit status depends only on the program: it is 0 exactly if all definitions are good and have different ids, where
of the ids of tables only the lower 24 bits count. -/
theorem C70_status {xp : Texts} {xe : EntryTexts} {sys : Sys} {name : Str} {program : FileRead P4Info}
    {files : List (Str × FileRead RtEntry)} (hp : ∀ p, program = .parsed p → NonNegProgram p) {r : CliText}
    (h : p4checkText xp xe sys name program files = .ok r) :
    r.status = 0 ↔ name ≠ [] ∧ ∃ p, program = .parsed p ∧ (p.tables.map fun t => t.preamble.id % 2 ^ 24).Nodup ∧
      (p.actions.map fun a => a.preamble.id).Nodup ∧ (∀ d ∈ p.tables, GoodTable sys.inetPton6 d) ∧
      ∀ d ∈ p.actions, GoodAction sys.inetPton6 d := by
  have key : ∀ p, ((p.tables.map fun t => t.preamble.id % 2 ^ 24).Nodup ∧ (p.actions.map fun a => a.preamble.id).Nodup ∧
        (∀ d ∈ p.tables, GoodTable sys.inetPton6 d) ∧ ∀ d ∈ p.actions, GoodAction sys.inetPton6 d) ↔
      (((fullIds p).tables.map fun t => t.preamble.id).Nodup ∧ ((fullIds p).actions.map fun a => a.preamble.id).Nodup ∧
        (∀ d ∈ (fullIds p).tables, GoodTable sys.inetPton6 d) ∧ ∀ d ∈ (fullIds p).actions, GoodAction sys.inetPton6 d) := by
    intro p
    rw [fullIds_ids, fullIds_good]
    rfl
  rcases C70_prints hp h with ⟨m, hm, rfl⟩ | ⟨p, ts, h1, h2, h3, h4, rfl⟩
  · refine ⟨(fun h => by cases h), fun ⟨h1, p, h2, h3⟩ => ?_⟩
    cases hm with
    | missing hn => exact (h1 hn).elim
    | unopened => cases h2
    | unreadable => cases h2
    | faulty _ hne hr =>
      cases h2
      exact (hne ((C55_determined hr).2.2 ((key _).1 h3))).elim
  · exact ⟨fun _ => ⟨h1, p, h2, (key p).2 ((C55_determined h3).2.1 rfl)⟩, fun _ => rfl⟩

/-- C70: the outcome is the one of the model that produces reports instead of text, which is the subject of C47. -/
theorem C70_same (xp : Texts) (xe : EntryTexts) (sys : Sys) (name : Str) (program : FileRead P4Info)
    (files : List (Str × FileRead RtEntry)) :
    (p4checkText xp xe sys name program files >>= fun r => Res.ok r.status) =
      p4check sys name program files >>= fun r => Res.ok r.status :=
  p4checkText_same xp xe sys name program files

/-- A run on four entry files. The table has the id 1 in the program and in the entries. The exit status is 0 although one of
the entries violates the constraint. -/
example : p4checkText Ex.texts Ex.entryTexts Ex.sys c!"p.txt" (.parsed (Ex.p4info c!"ex == 2" c!"true"))
    [(c!"a.txt", .parsed (Ex.entry 2)), (c!"b.txt", .missing), (c!"c.txt", .parsed (Ex.entry 3)),
      (c!"d.txt", .parsed { tableId := 1, matches_ := [] })] = .ok ⟨0,
    c!"### P4Constraints Table Entry Test #######################\n=== Input Table Entry File ===\na.txt\n=== Output ===\n" ++
    c!"Constraint satisfied\n\n" ++
    c!"### P4Constraints Table Entry Test #######################\n=== Input Table Entry File ===\nb.txt\n=== Output ===\n" ++
    c!"not found\n\n" ++
    c!"### P4Constraints Table Entry Test #######################\n=== Input Table Entry File ===\nc.txt\n=== Output ===\n" ++
    c!"All entries must satisfy:\n\nIn @entry_restriction of table 'tbl'; at offset line 1, columns 1 to 7:\n1 | ex == 2\n" ++
    c!"  | ^^^^^^^\n\nBut your entry does not.\n>>>Relevant Entry Info<<<\nTable Name: \"tbl\"\nPriority:10\n" ++
    c!"Field: \"ex\" -> Value: Exact{.value = 3}\n\n" ++
    c!"### P4Constraints Table Entry Test #######################\n=== Input Table Entry File ===\nd.txt\n=== Output ===\n" ++
    c!"Error: INVALID_ARGUMENT: missing exact match key 'ex';  while parsing P4RT table entry for table 'tbl':\n\n", []⟩ := by
  decide +kernel

/-- Runs without a program, with one that cannot be opened, and with a faulty one. -/
example : p4checkText Ex.texts Ex.entryTexts Ex.sys [] .missing [] = .ok ⟨1, [], c!"Missing argument: --p4info=<file>\n"⟩ ∧
    p4checkText Ex.texts Ex.entryTexts Ex.sys c!"p.txt" .missing [(c!"a.txt", .parsed (Ex.entry 2))] =
      .ok ⟨1, [], c!"Unable to open p4info file: p.txt\n"⟩ ∧
    p4checkText Ex.texts Ex.entryTexts Ex.sys c!"p.txt" (.parsed ⟨[Ex.tableDecl c!"ex == ip4('1.2.3.4')"], []⟩) [] =
      .ok ⟨1, [], bulletList [c!"Invalid network identifier"]⟩ := by
  decide +kernel

end P4C
