import Verif.Props.Cli
import Verif.Props.CrashProgram
import Verif.Spec.CrashCli

/-
When p4check crashes: property C70.
-/

namespace P4C

open Spec

theorem fullIds_crash {pton : Str → Option Bytes} (p : P4Info) : ProgramCrash pton (fullIds p) ↔ ProgramCrash pton p := by
  have hg : ∀ (d : TableDecl) (n : Nat), CrashingTable pton d →
      CrashingTable pton { d with preamble := { d.preamble with id := n } } := by
    rintro d n ⟨vs, h1, h2, src, ts, e, y, a, b, text, h3, h4⟩
    exact ⟨vs, h1, h2, src, ts, e, y, a, b, text,
      attached_id (pr := { d.preamble with id := n }) (n := d.preamble.id) h3, h4⟩
  unfold ProgramCrash
  simp only [fullIds, List.mem_map]
  constructor
  · rintro (⟨_, ⟨d, hd, rfl⟩, h⟩ | h)
    · exact .inl ⟨d, hd, hg { d with preamble := { d.preamble with id := fullId d.preamble.id } } d.preamble.id h⟩
    · exact .inr h
  · rintro (⟨d, hd, h⟩ | h)
    · exact .inl ⟨_, ⟨d, hd, rfl⟩, hg d _ h⟩
    · exact .inr h

theorem fullEntry_eq (e : RtEntry) : { e with tableId := coerceId e.tableId } = fullEntry e := by
  rw [coerceId_eq]
  rfl

section
variable {x : EntryTexts} {sys : Sys} {p : P4Info} {ci : ConstraintInfo} (h : p4ToConstraintInfo sys p = .ok ci)
  (hw : NonNegProgram p)

include h hw in
theorem printFile_cases (f : FileRead RtEntry) :
    (∃ t, printFile x ci f = .ok t) ∧ (∀ e, f = .parsed e → ¬ EntryCrash sys.inetPton6 p (fullEntry e)) ∨
    printFile x ci f = .crash ∧ ∃ e, f = .parsed e ∧ EntryCrash sys.inetPton6 p (fullEntry e) := by
  cases f with
  | missing => exact .inl ⟨⟨_, rfl⟩, nofun⟩
  | malformed => exact .inl ⟨⟨_, rfl⟩, nofun⟩
  | parsed e =>
    have hiff := C84_crash h hw (fullEntry e)
    rw [← erase_reason x] at hiff
    have ho := reasonM_cases (x := x) h hw (fullEntry e)
    unfold printFile
    dsimp only
    rw [fullEntry_eq]
    cases hr : reasonEntryViolatesConstraintM x (fullEntry e) ci with
    | ok m =>
      rw [hr] at hiff
      exact .inl ⟨⟨_, rfl⟩, fun e' he hc => by cases he; cases hiff.2 hc⟩
    | err c m =>
      rw [hr] at hiff
      exact .inl ⟨⟨_, rfl⟩, fun e' he hc => by cases he; cases hiff.2 hc⟩
    | crash =>
      rw [hr] at hiff
      exact .inr ⟨rfl, e, rfl, hiff.1 rfl⟩
    | oof =>
      rw [hr] at ho
      rcases ho with (⟨_, ho⟩ | ⟨_, _, ho⟩) | ⟨ho, _⟩ <;> cases ho

include h hw in
theorem printFiles_cases (files : List (Str × FileRead RtEntry)) :
    (∃ t, printFiles x ci files = .ok t) ∧
      (∀ f e, (f, FileRead.parsed e) ∈ files → ¬ EntryCrash sys.inetPton6 p (fullEntry e)) ∨
    printFiles x ci files = .crash ∧
      ∃ f e, (f, FileRead.parsed e) ∈ files ∧ EntryCrash sys.inetPton6 p (fullEntry e) := by
  induction files with
  | nil => exact .inl ⟨⟨_, rfl⟩, nofun⟩
  | cons f fs ih =>
    unfold printFiles
    rcases printFile_cases (x := x) h hw f.2 with ⟨⟨t, h1⟩, h2⟩ | ⟨h1, e, h2, h3⟩
    · rw [h1, Res.ok_bind]
      rcases ih with ⟨⟨ts, h3⟩, h4⟩ | ⟨h3, f', e, h4, h5⟩
      · rw [h3]
        refine .inl ⟨⟨_, rfl⟩, fun g e hm => ?_⟩
        rcases List.mem_cons.1 hm with rfl | hm
        · exact h2 e rfl
        · exact h4 g e hm
      · rw [h3]
        exact .inr ⟨rfl, f', e, List.mem_cons_of_mem _ h4, h5⟩
    · rw [h1]
      refine .inr ⟨rfl, f.1, e, ?_, h3⟩
      rw [← h2]
      exact List.mem_cons_self

end

/-- C70: p4check ends, with what the other theorems say, or crashes: exactly if the process crashes on the program, or it is
read and the process crashes on one of the entries. -/
theorem C70_crash {xp : Texts} {xe : EntryTexts} {sys : Sys} {name : Str} {program : FileRead P4Info}
    {files : List (Str × FileRead RtEntry)} (hp : ∀ p, program = .parsed p → NonNegProgram p) :
    ((∃ r, p4checkText xp xe sys name program files = .ok r) ↔ ¬ CliCrash sys.inetPton6 name program files) ∧
    (p4checkText xp xe sys name program files = .crash ↔ CliCrash sys.inetPton6 name program files) := by
  have key : (∃ r, p4checkText xp xe sys name program files = .ok r) ∧ ¬ CliCrash sys.inetPton6 name program files ∨
      p4checkText xp xe sys name program files = .crash ∧ CliCrash sys.inetPton6 name program files := by
    unfold p4checkText
    split
    · rename_i hn
      exact .inl ⟨⟨_, rfl⟩, fun hc => hc.1 hn⟩
    · rename_i hn
      cases program with
      | missing => exact .inl ⟨⟨_, rfl⟩, fun ⟨_, p, h, _⟩ => by cases h⟩
      | malformed => exact .inl ⟨⟨_, rfl⟩, fun ⟨_, p, h, _⟩ => by cases h⟩
      | parsed p =>
        have hw := hp p rfl
        have hiff := program_crash_iff (x := xp) (sys := sys) (p := fullIds p)
        rw [fullIds_crash] at hiff
        dsimp only
        rw [coerceTables_eq]
        cases hm : p4ToConstraintInfoM xp sys (fullIds p) with
        | err c m =>
          refine .inl ⟨⟨_, rfl⟩, ?_⟩
          rintro ⟨_, q, hq, hc⟩
          cases hq
          rcases hc with hc | ⟨hg, _⟩
          · rw [hiff.2 hc] at hm; cases hm
          · obtain ⟨ci, hci⟩ := C31_succeeds.2 hg
            rw [← erase_p4ToConstraintInfo xp, hm] at hci
            cases hci
        | ok ci =>
          have hci : p4ToConstraintInfo sys (fullIds p) = .ok ci := by rw [← erase_p4ToConstraintInfo xp, hm]; rfl
          dsimp only
          rcases printFiles_cases (x := xe) hci (fullIds_nonNeg hw) files with ⟨⟨t, h1⟩, h2⟩ | ⟨h1, f, e, h2, h3⟩
          · rw [h1]
            refine .inl ⟨⟨_, rfl⟩, ?_⟩
            rintro ⟨_, q, hq, hc⟩
            cases hq
            rcases hc with hc | ⟨_, f, e, hf, he⟩
            · rw [hiff.2 hc] at hm; cases hm
            · exact h2 f e hf he
          · rw [h1]
            exact .inr ⟨rfl, hn, p, rfl, .inr ⟨C31_succeeds.1 ⟨ci, hci⟩, f, e, h2, h3⟩⟩
        | crash => exact .inr ⟨rfl, hn, p, rfl, .inl (hiff.1 hm)⟩
        | oof =>
          exfalso
          have h := erase_p4ToConstraintInfo xp sys (fullIds p)
          rw [hm] at h
          rcases p4ToConstraintInfo_outcome (sys := sys) (p := fullIds p) with ⟨_, h'⟩ | h' | ⟨h', _⟩ <;> rw [h'] at h <;> cases h
  rcases key with ⟨⟨r, h1⟩, h2⟩ | ⟨h1, h2⟩
  · exact ⟨⟨fun _ => h2, fun _ => ⟨r, h1⟩⟩, ⟨fun h => (by rw [h1] at h; cases h), fun h => (h2 h).elim⟩⟩
  · exact ⟨⟨fun ⟨r, h⟩ => (by rw [h1] at h; cases h), fun h => (h h2).elim⟩, ⟨fun _ => h2, fun _ => h1⟩⟩

/-- A run that crashes on the last of its entries, although the others are fine or cannot be read; without this entry the
run ends. A run that crashes on its program. -/
example : CliCrash Ex.sys.inetPton6 c!"p.txt" (.parsed (Ex.p4info c!"ex\n== 6" c!"true"))
      [(c!"a.txt", .parsed (Ex.entry 6)), (c!"b.txt", .missing), (c!"c.txt", .parsed (Ex.entry 5))] ∧
    ¬ CliCrash Ex.sys.inetPton6 c!"p.txt" (.parsed (Ex.p4info c!"ex\n== 6" c!"true"))
      [(c!"a.txt", .parsed (Ex.entry 6)), (c!"b.txt", .missing)] ∧
    CliCrash Ex.sys.inetPton6 c!"p.txt" (.parsed (Ex.p4info c!"-(ex\n== 1)" c!"true")) [] := by
  have k : ∀ {c : Str} (p : P4Info), FileRead.parsed (Ex.p4info c c!"true") = .parsed p → NonNegProgram p :=
    fun p hp => by cases hp; exact Ex.nonNeg _ _
  rw [← (C70_crash (xp := Ex.texts) (xe := Ex.entryTexts) k).2, ← (C70_crash (xp := Ex.texts) (xe := Ex.entryTexts) k).2,
    ← (C70_crash (xp := Ex.texts) (xe := Ex.entryTexts) k).2]
  refine ⟨?_, ?_, ?_⟩ <;> decide +kernel

end P4C
