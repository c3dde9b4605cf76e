import Verif.Proofs.Valued
import Verif.Props.Express
import Verif.Props.Weaken

/-!
# C112: constraints that order exact keys can be rewritten

The checker has no answer for `k < 5` if `k` is a key of match kind `exact` (`C01_verdict_fails`), although this is accepted as a
constraint. `k::value < 5` means the same, and for this there is an answer.
-/

namespace P4C

open Spec

/-- C112: the rewritten constraint has the same type, and orders no exact keys. -/
theorem C112_typed {vs : List VarInfo} {s : SExpr} {t : Ty} (h : HasTy (keySig vs) s t) :
    HasTy (keySig vs) (valued (keySig vs) s) t ∧ NoOrderedExact (keySig vs) (valued (keySig vs) s) := valued_typed h

/-- C112: it means the same, for every entry that fits the table. -/
theorem C112_meaning {sys : Sys} {p : P4Info} {ci : ConstraintInfo} (h : p4ToConstraintInfo sys p = .ok ci) {d : TableDecl}
    (hd : d ∈ p.tables) {vs : List VarInfo} (hk : Each KeyDecl d.matchFields vs) {s : SExpr} (ht : HasTy (keySig vs) s .boolean)
    (entry : RtEntry) (b : Bool) : Documented vs entry (valued (keySig vs) s) b ↔ Documented vs entry s b :=
  and_congr_right fun hf => exists_congr fun _ => and_congr_right fun hρ => valued_iff h hd hk hf hρ ht b

section
variable {sys : Sys} {ts : List TableDecl} {as : List ActionDecl} {d : TableDecl} {ci : ConstraintInfo}
  (h : p4ToConstraintInfo sys ⟨d :: ts, as⟩ = .ok ci) (hw : NonNegProgram ⟨d :: ts, as⟩) {vs : List VarInfo}
  (hk : Each KeyDecl d.matchFields vs) {s : SExpr} (ht : HasTy (keySig vs) s .boolean)

include h hw hk ht in
/-- C112: a table with the rewritten constraint accepts the entries of which the constraint is true as documented (and whose actions
are accepted). -/
theorem C112_verdict (hs : TableSays sys.inetPton6 d (valued (keySig vs) s)) {entry : RtEntry} (hid : entry.tableId = d.preamble.id) :
    reasonEntryViolatesConstraint entry ci = .ok [] ↔
      Documented vs entry s true ∧ ActionsAccepted sys.inetPton6 ⟨[], as⟩ entry.action := by
  obtain ⟨_, _, _, _, hr⟩ := id hs
  rw [(verdict_here h hw (says_of_read hr) hid).1, valued_value h hk ht hs]

include h hw hk ht in
/-- C112: if it is on one line, violations are reported for the entries of which the constraint is false as documented, and there is
an answer for every entry that fits. -/
theorem C112_violation (hs : TableSays sys.inetPton6 d (valued (keySig vs) s)) {text : Str} (hb : Says .table d.preamble text)
    (hl : '\n' ∉ text ∧ '\r' ∉ text) {entry : RtEntry} (hid : entry.tableId = d.preamble.id) (ha : entry.action = none) :
    ((∃ m, m ≠ [] ∧ reasonEntryViolatesConstraint entry ci = .ok m) ↔ Documented vs entry s false) ∧
      (EntryFits vs entry → ∃ m, reasonEntryViolatesConstraint entry ci = .ok m) := by
  have hv := valued_value h hk ht hs entry
  have back : Documented vs entry s false → ∃ m, m ≠ [] ∧ reasonEntryViolatesConstraint entry ci = .ok m := by
    intro hd
    obtain ⟨m, h1, h2, _⟩ := violation_explained h hw (by simp) hid hb hl (fun se hse vs' hk' => by
      cases keys_same hk hk'
      cases tableSays_same hse hs
      exact (valued_typed ht).2) ((hv false).2 hd)
    exact ⟨m, h1, h2⟩
  refine ⟨⟨?_, back⟩, fun hf => ?_⟩
  · rintro ⟨m, h1, h2⟩
    obtain ⟨_, _, _, _, hr⟩ := id hs
    exact (hv false).1 ((verdict_here h hw (says_of_read hr) hid).2.2 m ha h2 h1)
  · obtain ⟨ρ, hρ⟩ := means_exists h (by simp) hk hf
    obtain ⟨b, hb'⟩ := typed_means h (by simp) hk hf hρ ht
    cases b with
    | true => exact ⟨[], (C112_verdict h hw hk ht hs hid).2 ⟨⟨hf, ρ, hρ, hb'⟩, by rw [ha]; exact .none⟩⟩
    | false =>
      obtain ⟨m, _, h2⟩ := back ⟨hf, ρ, hρ, hb'⟩
      exact ⟨m, h2⟩

include h hw hk ht in
/-- C112: where the checker has an answer for the constraint itself, it has the same answer for the rewritten one. -/
theorem C112_agrees {d₀ : TableDecl} {ci₀ : ConstraintInfo} (h₀ : p4ToConstraintInfo sys ⟨d₀ :: ts, as⟩ = .ok ci₀)
    (hi : d₀.preamble.id = d.preamble.id) (hf : d₀.matchFields = d.matchFields) (hs₀ : TableSays sys.inetPton6 d₀ s)
    (hs : TableSays sys.inetPton6 d (valued (keySig vs) s)) {entry : RtEntry} (hid : entry.tableId = d.preamble.id) :
    (reasonEntryViolatesConstraint entry ci₀ = .ok [] → reasonEntryViolatesConstraint entry ci = .ok []) ∧
      ∀ m, m ≠ [] → reasonEntryViolatesConstraint entry ci₀ = .ok m → reasonEntryViolatesConstraint entry ci ≠ .ok [] := by
  have hw₀ : NonNegProgram ⟨d₀ :: ts, as⟩ :=
    ⟨List.forall_mem_cons.2 ⟨hf ▸ hw.1 d (by simp), fun x hx => hw.1 x (List.mem_cons_of_mem _ hx)⟩, hw.2⟩
  have hk₀ : Each KeyDecl d₀.matchFields vs := hf ▸ hk
  have hid₀ : entry.tableId = d₀.preamble.id := hid.trans hi.symm
  have key : ∀ b, TableValue sys.inetPton6 d₀ entry b → Documented vs entry s b := by
    intro b hv
    obtain ⟨vs', src, e, hk', hr⟩ := id hs₀
    cases keys_same hk₀ hk'
    obtain ⟨_, h1, ρ, h2, h3⟩ := (tableValue_iff hk₀ hr b).1 hv
    obtain ⟨b', hb'⟩ := typed_means h₀ (by simp) hk₀ h1 h2 ht
    cases (evaluates_means h3 hb').2
    exact ⟨h1, ρ, h2, hb'⟩
  obtain ⟨_, _, _, _, hr⟩ := id hs₀
  have hv := verdict_here h₀ hw₀ (says_of_read hr) hid₀
  refine ⟨fun h1 => ?_, fun m hne h1 h2 => ?_⟩
  · have := hv.1.1 h1
    exact (C112_verdict h hw hk ht hs hid).2 ⟨key true this.1, this.2⟩
  · obtain ⟨⟨hf1, ρ, h3, h4⟩, h5⟩ := (C112_verdict h hw hk ht hs hid).1 h2
    rcases hv.2.1 m h1 with h6 | h6
    · have := hv.1.2 ⟨h6, h5⟩
      rw [h1] at this
      exact hne (by injection this)
    · obtain ⟨_, ρ', h7, h8⟩ := key false h6
      cases entryMeans_unique h3 h7
      cases (means_unique h4 h8).2

end

/-- C112: so for every well-typed boolean constraint there is a text such that a table with this text as constraint accepts the entries
of which the constraint is true as documented. (C68 without the exception of ordered exact keys.) -/
theorem C112_written {sys : Sys} {ts : List TableDecl} {as : List ActionDecl} {num : Nat → Str} (hnum : ∀ n, NumVal 10 (num n) n)
    {d : TableDecl} {ci : ConstraintInfo} (h : p4ToConstraintInfo sys ⟨d :: ts, as⟩ = .ok ci) (hw : NonNegProgram ⟨d :: ts, as⟩)
    (hb : Bare .table d.preamble) {vs : List VarInfo} (hk : Each KeyDecl d.matchFields vs) {s : SExpr} (hs : Writable .table s)
    (ht : HasTy (keySig vs) s .boolean) :
    ∃ text ci', p4ToConstraintInfo sys ⟨tableWith d text :: ts, as⟩ = .ok ci' ∧
      (∀ entry, entry.tableId = d.preamble.id → (reasonEntryViolatesConstraint entry ci' = .ok [] ↔
        reasonEntryViolatesConstraint entry ci = .ok [] ∧ Documented vs entry s true)) ∧
      ∀ entry, entry.tableId ≠ d.preamble.id →
        (reasonEntryViolatesConstraint entry ci' = .ok [] ↔ reasonEntryViolatesConstraint entry ci = .ok []) := by
  obtain ⟨ci', h1, h2, _, h3⟩ := C68_table hnum h hw hb hk (valued_writable (Γ := keySig vs) ident_value hs) (valued_typed ht).1
  refine ⟨_, ci', h1, fun entry hid => ?_, h3⟩
  rw [h2 entry hid]
  exact and_congr_right fun _ => and_congr_right fun hf => exists_congr fun _ => and_congr_right fun hρ =>
    valued_evaluates h (by simp) hk hf hρ ht true

/-! ### Examples: `opt == 4 || ex < 9` and `opt == 4 || ex::value < 9` -/

def Ex.ordering : SExpr := .conn .or (.cmp .eq (.key c!"opt") (.int 4)) (.cmp .lt (.key c!"ex") (.int 9))

theorem Ex.ordering_typed : HasTy (keySig Ex.keys) Ex.ordering .boolean :=
  .conn (Ex.optTy 4) (.cmp (.key (by rfl) ⟨by nofun, by nofun⟩) (.int 9) ((lub_iff (t := .exact 32)).1 (by decide +kernel)) fun _ => .exact 32)

theorem Ex.ordering_says : TableSays Ex.sys.inetPton6 (Ex.tableDecl c!"opt == 4 || ex < 9") Ex.ordering := by
  obtain ⟨src, ts, e, h1, h2, h3, h4⟩ := Ex.spelled (text := c!"opt == 4 || ex < 9") (loc := { src := .tableName c!"tbl" })
    (x := Ex.ordering) (by decide +kernel) (by decide +kernel) (by decide +kernel)
  exact ⟨Ex.keys, src, e, Ex.keysDeclared _, .some h1 h2 h3 h4 Ex.ordering_typed⟩

theorem Ex.valued_says : TableSays Ex.sys.inetPton6 (Ex.tableDecl c!"opt == 4 || ex::value < 9") (valued (keySig Ex.keys) Ex.ordering) := by
  obtain ⟨src, ts, e, h1, h2, h3, h4⟩ := Ex.spelled (text := c!"opt == 4 || ex::value < 9") (loc := { src := .tableName c!"tbl" })
    (x := valued (keySig Ex.keys) Ex.ordering) (by decide +kernel) (by decide +kernel) (by decide +kernel)
  exact ⟨Ex.keys, src, e, Ex.keysDeclared _, .some h1 h2 h3 h4 (C112_typed Ex.ordering_typed).1⟩

theorem Ex.valued_ok : p4ToConstraintInfo Ex.sys (Ex.p4info c!"opt == 4 || ex::value < 9" c!"true") =
    .ok (Ex.ci c!"opt == 4 || ex::value < 9" c!"true") := Ex.get_of_isOk (by decide +kernel)

/-- For `opt == 4 || ex < 9` there is no answer. The other constraint is true of 2, and false of 11. -/
example : reasonEntryViolatesConstraint (Ex.entry 2) (Ex.ci c!"opt == 4 || ex < 9" c!"true") = .err .internal ∧
    Documented Ex.keys (Ex.entry 2) Ex.ordering true ∧ Documented Ex.keys (Ex.entry 11) Ex.ordering false := by
  refine ⟨by decide +kernel, ?_, ?_⟩
  · exact ((C112_verdict (d := Ex.tableDecl c!"opt == 4 || ex::value < 9") Ex.valued_ok (Ex.nonNeg _ _) (Ex.keysDeclared _)
      Ex.ordering_typed Ex.valued_says (entry := Ex.entry 2) rfl).1 (by decide +kernel)).1
  · exact (C112_violation (d := Ex.tableDecl c!"opt == 4 || ex::value < 9") Ex.valued_ok (Ex.nonNeg _ _) (Ex.keysDeclared _)
      Ex.ordering_typed Ex.valued_says ⟨_, attached_iff.1 (by rfl), rfl⟩ (by decide) (entry := Ex.entry 11) rfl rfl).1.1
      ⟨Ex.get [] (reasonEntryViolatesConstraint (Ex.entry 11) (Ex.ci c!"opt == 4 || ex::value < 9" c!"true")), by decide +kernel, Ex.get_of_isOk (by decide +kernel)⟩

example : Documented Ex.keys (Ex.entry 2) (valued (keySig Ex.keys) Ex.ordering) true ↔ Documented Ex.keys (Ex.entry 2) Ex.ordering true :=
  C112_meaning (d := Ex.tableDecl c!"opt == 4 || ex::value < 9") Ex.valued_ok List.mem_cons_self (Ex.keysDeclared _) Ex.ordering_typed _ _

/-- `opt` of these entries is 3. In the order `opt == 3 || ex < 9` there is an answer also without `::value`. -/
def Ex.ordering3 : SExpr := .conn .or (.cmp .eq (.key c!"opt") (.int 3)) (.cmp .lt (.key c!"ex") (.int 9))

theorem Ex.ordering3_typed : HasTy (keySig Ex.keys) Ex.ordering3 .boolean :=
  .conn (Ex.optTy 3) (.cmp (.key (by rfl) ⟨by nofun, by nofun⟩) (.int 9) ((lub_iff (t := .exact 32)).1 (by decide +kernel)) fun _ => .exact 32)

example : reasonEntryViolatesConstraint (Ex.entry 11) (Ex.ci c!"opt == 3 || ex::value < 9" c!"true") = .ok [] := by
  refine (C112_agrees (d := Ex.tableDecl c!"opt == 3 || ex::value < 9") (d₀ := Ex.tableDecl c!"opt == 3 || ex < 9")
    (sys := Ex.sys) (ts := [Ex.freeTable]) (as := [Ex.actionDecl c!"true", Ex.freeAction]) (vs := Ex.keys) (s := Ex.ordering3)
    (Ex.get_of_isOk (by decide +kernel)) (Ex.nonNeg _ _) (Ex.keysDeclared _) Ex.ordering3_typed
    (ci₀ := Ex.ci c!"opt == 3 || ex < 9" c!"true") (Ex.get_of_isOk (by decide +kernel)) rfl rfl ?_ ?_ rfl).1 (by decide +kernel)
  · obtain ⟨src, ts, e, h1, h2, h3, h4⟩ := Ex.spelled (text := c!"opt == 3 || ex < 9") (loc := { src := .tableName c!"tbl" })
      (x := Ex.ordering3) (by decide +kernel) (by decide +kernel) (by decide +kernel)
    exact ⟨Ex.keys, src, e, Ex.keysDeclared _, .some h1 h2 h3 h4 Ex.ordering3_typed⟩
  · obtain ⟨src, ts, e, h1, h2, h3, h4⟩ := Ex.spelled (text := c!"opt == 3 || ex::value < 9") (loc := { src := .tableName c!"tbl" })
      (x := valued (keySig Ex.keys) Ex.ordering3) (by decide +kernel) (by decide +kernel) (by decide +kernel)
    exact ⟨Ex.keys, src, e, Ex.keysDeclared _, .some h1 h2 h3 h4 (C112_typed Ex.ordering3_typed).1⟩

/-- What is written for `ex < 9`. -/
example : (∃ text ci', p4ToConstraintInfo Ex.sys ⟨[tableWith Ex.bareDecl text], [Ex.actionDecl c!"p < q"]⟩ = .ok ci' ∧
      ∀ entry, entry.tableId = 1 → (reasonEntryViolatesConstraint entry ci' = .ok [] ↔
        reasonEntryViolatesConstraint entry Ex.bareCi = .ok [] ∧ Documented Ex.keyInfos entry (.cmp .lt (.key c!"ex") (.int 9)) true)) ∧
    toText (print natDec (valued (keySig Ex.keyInfos) (.cmp .lt (.key c!"ex") (.int 9))) 0) = c!"ex :: value < 9 " := by
  refine ⟨?_, by decide +kernel⟩
  obtain ⟨text, ci', h1, h2, _⟩ := C112_written natDec_val Ex.bare_ok Ex.bare_nonNeg Ex.bare_bare Ex.bare_keys
    (s := .cmp .lt (.key c!"ex") (.int 9))
    ⟨⟨rfl, by
      simp only [splitDots, Char.reduceEq, ↓reduceIte, List.mem_singleton, forall_eq]
      exact ⟨⟨_, _, rfl, by simp [Letter], by simp [Letter, Digit]⟩, by decide, by decide⟩⟩, by simp [Writable]⟩
    (.cmp (.key (t := .exact 32) (by decide) ⟨nofun, nofun⟩) (.int 9) (lub_iff.1 (by decide : _ = some (.exact 32))) fun _ => .exact _)
  exact ⟨text, ci', h1, h2⟩

end P4C
