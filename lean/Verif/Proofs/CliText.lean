import Verif.Spec.Cli
import Verif.Proofs.Violation2
import Verif.Props.Accept
import Verif.Props.Report

/-
What p4check prints.
-/

namespace P4C

open Spec

theorem coerceTables_eq (p : P4Info) : coerceTables p = fullIds p := by
  unfold coerceTables fullIds
  simp only [coerceId_eq, fullId]

theorem attached_id {k : ConstraintKind} {pr : Preamble} {n : Nat} {o : Option ConstraintSource}
    (h : Attached k { pr with id := n } o) : Attached k pr o := by
  cases h with
  | absent h => exact .absent h
  | bare h1 h2 h3 => exact .bare h1 h2 h3
  | text h1 h2 h3 h4 h5 h6 => exact .text h1 h2 h3 h4 h5 h6

theorem read_id {pton : Str → Option Bytes} {k : ConstraintKind} {Γ : Sig} {pr : Preamble} {n : Nat}
    {o : Option (ConstraintSource × Expr × SExpr × Ty)} (h : ReadConstraint pton k Γ { pr with id := n } o) :
    ReadConstraint pton k Γ pr o := by
  cases h with
  | none h => exact .none (attached_id h)
  | some h h1 h2 h3 h4 => exact .some (attached_id h) h1 h2 h3 h4

theorem fullIds_nonNeg {p : P4Info} (h : NonNegProgram p) : NonNegProgram (fullIds p) := by
  refine ⟨?_, h.2⟩
  intro d hd
  simp only [fullIds, List.mem_map] at hd
  obtain ⟨d', hd', rfl⟩ := hd
  exact h.1 d' hd'

theorem fullIds_ids (p : P4Info) : ((fullIds p).tables.map fun t => t.preamble.id).Nodup ↔
    (p.tables.map fun t => t.preamble.id % 2 ^ 24).Nodup := by
  have h : (fullIds p).tables.map (fun t => t.preamble.id) =
      (p.tables.map fun t => t.preamble.id % 2 ^ 24).map fun n => 2 * 2 ^ 24 + n := by
    simp [fullIds, fullId, Function.comp_def]
  rw [h]
  unfold List.Nodup
  rw [List.pairwise_map]
  refine Iff.of_eq (congrArg (fun R => List.Pairwise R _) ?_)
  funext a b
  simp

theorem fullIds_good {pton : Str → Option Bytes} (p : P4Info) :
    (∀ d ∈ (fullIds p).tables, GoodTable pton d) ↔ ∀ d ∈ p.tables, GoodTable pton d := by
  have hg : ∀ (d : TableDecl) (n : Nat), GoodTable pton { d with preamble := { d.preamble with id := n } } ↔
      GoodTable pton d := by
    intro d n
    constructor
    · rintro ⟨vs, r, h1, h2, h3⟩
      exact ⟨vs, r, h1, h2, read_id h3⟩
    · rintro ⟨vs, r, h1, h2, h3⟩
      exact ⟨vs, r, h1, h2, read_id (pr := { d.preamble with id := n }) (n := d.preamble.id) h3⟩
  simp only [fullIds, List.mem_map]
  constructor
  · intro h d hd
    exact (hg d _).1 (h _ ⟨d, hd, rfl⟩)
  · rintro h _ ⟨d, hd, rfl⟩
    exact (hg d _).2 (h d hd)

theorem codeName_iff {c : Code} {n : Str} : CodeName c n ↔ n = statusCodeToString c := by
  constructor
  · intro h; cases h <;> rfl
  · rintro rfl; cases c <;> constructor

/-- Reports on violations begin with these words. -/
theorem report_prefix {pton : Str → Option Bytes} {p : P4Info} {entry : RtEntry} {m : Str}
    (h : ReportsViolation pton p entry m) : c!"All " <+: m := by
  obtain ⟨d, _, _, h | ⟨_, pre, a, post, _, _, da, _, _, h⟩⟩ := h
  · obtain ⟨_, _, _, _, _, _, _, _, _, _, _, _, _, _, _, _, _, _, _, _, _, _, rfl⟩ := h
    simp only [violation, List.append_assoc]
    exact List.prefix_append ..
  · obtain ⟨_, _, _, _, _, _, _, _, _, _, _, _, _, _, _, _, _, _, _, _, rfl⟩ := h
    simp only [violation, List.append_assoc]
    exact List.prefix_append ..

theorem reason_erase {x : EntryTexts} {entry : RtEntry} {ci : ConstraintInfo} {r : Str} :
    reasonEntryViolatesConstraintM x entry ci = .ok r ↔ reasonEntryViolatesConstraint entry ci = .ok r := by
  rw [← erase_reason x entry ci]
  cases reasonEntryViolatesConstraintM x entry ci <;> simp

theorem printFile_verdict {x : EntryTexts} {sys : Sys} {p : P4Info} {ci : ConstraintInfo}
    (h : p4ToConstraintInfo sys p = .ok ci) (hw : NonNegProgram p) {f : FileRead RtEntry} {t : Str}
    (ht : printFile x ci f = .ok t) : ∃ v, Verdict x sys.inetPton6 p f v ∧ t = v ++ c!"\n" := by
  cases f with
  | missing => cases ht; exact ⟨_, .missing, rfl⟩
  | malformed => cases ht; exact ⟨_, .malformed, rfl⟩
  | parsed e =>
    unfold printFile at ht
    dsimp only at ht
    rw [coerceId_eq] at ht
    change (match reasonEntryViolatesConstraintM x (fullEntry e) ci with
      | .err c m => _ | .ok r => _ | .crash => _ | .oof => _) = _ at ht
    cases hr : reasonEntryViolatesConstraintM x (fullEntry e) ci with
    | ok r =>
      rw [hr] at ht
      have hr' := reason_erase.1 hr
      by_cases hn : r = []
      · subst hn
        cases ht
        exact ⟨_, .satisfied ((C65_accepted h hw _).1 hr'), rfl⟩
      · dsimp only at ht
        rw [if_neg hn] at ht
        cases ht
        exact ⟨_, .violated ((reason_reports h hw).1 ⟨hr', hn⟩), rfl⟩
    | err c m =>
      rw [hr] at ht
      cases ht
      have hne : ∀ r, reasonEntryViolatesConstraint (fullEntry e) ci ≠ .ok r := by
        intro r h'
        rw [reason_erase.2 h'] at hr
        cases hr
      refine ⟨_, .error (reasonM_err h hw hr) (fun ha => hne _ ((C65_accepted h hw _).2 ha))
        (fun r hv => hne _ ((reason_reports h hw).2 hv).1) (codeName_iff.2 rfl), ?_⟩
      simp [statusToString]
    | crash => rw [hr] at ht; cases ht
    | oof => rw [hr] at ht; cases ht

/-- The converse, for entries that are accepted or violate a constraint. -/
theorem verdict_printFile {x : EntryTexts} {sys : Sys} {p : P4Info} {ci : ConstraintInfo}
    (h : p4ToConstraintInfo sys p = .ok ci) (hw : NonNegProgram p) (e : RtEntry) :
    (Accepted sys.inetPton6 p (fullEntry e) → printFile x ci (.parsed e) = .ok c!"Constraint satisfied\n\n") ∧
    ∀ m, ReportsViolation sys.inetPton6 p (fullEntry e) m → printFile x ci (.parsed e) = .ok (m ++ c!"\n") := by
  constructor
  · intro ha
    unfold printFile
    dsimp only
    rw [coerceId_eq]
    have := reason_erase (x := x).2 ((C65_accepted h hw _).2 ha)
    unfold fullEntry fullId at this
    rw [this]
    rfl
  · intro m hv
    unfold printFile
    dsimp only
    rw [coerceId_eq]
    obtain ⟨h1, h2⟩ := (reason_reports h hw).2 hv
    have := reason_erase (x := x).2 h1
    unfold fullEntry fullId at this
    rw [this]
    dsimp only
    rw [if_neg h2]

theorem fileHeader_section (n v : Str) : fileHeader n ++ (v ++ c!"\n") = fileSection n v := by
  simp [fileHeader, fileSection]

theorem printFiles_sections {x : EntryTexts} {sys : Sys} {p : P4Info} {ci : ConstraintInfo}
    (h : p4ToConstraintInfo sys p = .ok ci) (hw : NonNegProgram p)
    {fs : List (Str × FileRead RtEntry)} {out : Str} (ho : printFiles x ci fs = .ok out) :
    ∃ ts, Each (fun f t => ∃ v, Verdict x sys.inetPton6 p f.2 v ∧ t = fileSection f.1 v) fs ts ∧ out = ts.flatten := by
  induction fs generalizing out with
  | nil => cases ho; exact ⟨[], .nil, rfl⟩
  | cons f fs ih =>
    rw [printFiles] at ho
    simp only [Res.bind_eq_ok] at ho
    obtain ⟨t, h1, ts, h2, h3⟩ := ho
    cases h3
    obtain ⟨v, hv, rfl⟩ := printFile_verdict h hw h1
    obtain ⟨ts', h4, rfl⟩ := ih h2
    exact ⟨_ :: ts', .cons ⟨v, hv, rfl⟩ h4, by rw [fileHeader_section]; rfl⟩

/-! ### Agreement with the reports -/

/-- What is printed about a report, given the text of errors. -/
theorem printFile_same (x : EntryTexts) (ci : ConstraintInfo) (f : FileRead RtEntry) :
    (printFile x ci f >>= fun _ => Res.ok ()) = checkFile ci f >>= fun _ => Res.ok () := by
  cases f with
  | missing => rfl
  | malformed => rfl
  | parsed e =>
    unfold printFile checkFile
    dsimp only
    rw [← erase_reason x]
    cases reasonEntryViolatesConstraintM x { e with tableId := coerceId e.tableId } ci with
    | ok r => cases r <;> rfl
    | err c m => rfl
    | crash => rfl
    | oof => rfl

theorem printFiles_same (x : EntryTexts) (ci : ConstraintInfo) (fs : List (Str × FileRead RtEntry)) :
    (printFiles x ci fs >>= fun _ => Res.ok ()) = checkFiles ci fs >>= fun _ => Res.ok () := by
  induction fs with
  | nil => rfl
  | cons f fs ih =>
    have h := printFile_same x ci f.2
    unfold printFiles checkFiles
    generalize printFile x ci f.2 = a at h ⊢
    generalize checkFile ci f.2 = b at h ⊢
    cases a <;> cases b <;> simp at h ⊢ <;> try assumption

theorem p4checkText_same (xp : Texts) (xe : EntryTexts) (sys : Sys) (name : Str) (program : FileRead P4Info)
    (files : List (Str × FileRead RtEntry)) :
    (p4checkText xp xe sys name program files >>= fun r => Res.ok r.status) =
      p4check sys name program files >>= fun r => Res.ok r.status := by
  unfold p4checkText p4check
  split
  · rfl
  · cases program with
    | missing => rfl
    | malformed => rfl
    | parsed p =>
      dsimp only
      rw [← erase_p4ToConstraintInfo xp]
      cases p4ToConstraintInfoM xp sys (coerceTables p) with
      | ok ci =>
        have h := printFiles_same xe ci files
        cases ha : printFiles xe ci files <;> cases hb : checkFiles ci files <;> rw [ha, hb] at h <;>
          simp [ha, hb] at h ⊢
        assumption
      | err c m => rfl
      | crash => rfl
      | oof => rfl

theorem p4checkText_prints {xp : Texts} {xe : EntryTexts} {sys : Sys} {name : Str} {program : FileRead P4Info}
    {files : List (Str × FileRead RtEntry)} (hp : ∀ p, program = .parsed p → NonNegProgram p) {r : CliText}
    (h : p4checkText xp xe sys name program files = .ok r) :
    (∃ m, NoProgram xp sys.inetPton6 name program m ∧ r = ⟨1, [], m⟩) ∨
    ∃ p ts, name ≠ [] ∧ program = .parsed p ∧ ProgramReports xp sys.inetPton6 (fullIds p) [] ∧
      Each (fun f t => ∃ v, Verdict xe sys.inetPton6 (fullIds p) f.2 v ∧ t = fileSection f.1 v) files ts ∧
      r = ⟨0, ts.flatten, []⟩ := by
  unfold p4checkText at h
  split at h
  · rename_i hn
    cases h
    exact .inl ⟨_, .missing hn, rfl⟩
  · rename_i hn
    cases program with
    | missing => cases h; exact .inl ⟨_, .unopened hn, rfl⟩
    | malformed => cases h; exact .inl ⟨_, .unreadable hn, rfl⟩
    | parsed p =>
      have hw := hp p rfl
      dsimp only at h
      rw [coerceTables_eq] at h
      have hr := C55_reports_partial (x := xp) (sys := sys) (p := fullIds p)
      cases hm : p4ToConstraintInfoM xp sys (fullIds p) with
      | err c m =>
        rw [hm] at h
        cases h
        obtain ⟨_, ms, h1, h2, rfl⟩ := hr.2 c m hm
        exact .inl ⟨_, .faulty hn h1 h2, rfl⟩
      | ok ci =>
        rw [hm] at h
        simp only [Res.bind_eq_ok] at h
        obtain ⟨out, ho, h⟩ := h
        cases h
        have hci : p4ToConstraintInfo sys (fullIds p) = .ok ci := by rw [← erase_p4ToConstraintInfo xp, hm]; rfl
        obtain ⟨ts, h1, rfl⟩ := printFiles_sections hci (fullIds_nonNeg hw) ho
        exact .inr ⟨p, ts, hn, rfl, hr.1 ci hm, h1, rfl⟩
      | crash => rw [hm] at h; cases h
      | oof => rw [hm] at h; cases h

end P4C
