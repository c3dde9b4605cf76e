import Verif.Proofs.Fix
import Verif.Props.Found

/-
C108: keys are given a value in a constraint solver by adding comparisons with constants.
-/

namespace P4C

open Spec

section
variable {sys : Sys} {p : P4Info} {ci : ConstraintInfo} (h : p4ToConstraintInfo sys p = .ok ci) {d : TableDecl}
  (hd : d ∈ p.tables) {ti : TableInfo} (hti : lookup d.preamble.id ci.tables = some ti) {skip : Str → Bool} (hs : Solvable d skip)
  {z : Z3Oracle} (hz : z.Sound) {s : Solver} {texts : List Str} (hr : SolverRun z sys ti skip s texts) {f : MatchField}
  (hf : f ∈ d.matchFields) {e : SExpr} {c : Int} (he : IsInteger e c) {text : Str}

include h hd hti hs hz hr hf he in
/-- C108: once `k == c` has been accepted, the entries returned match `k` on `c` modulo 2^W and nothing else. -/
theorem C108_key (hpos : 0 < f.bitwidth) (ht : TextSays sys.inetPton6 d text (.cmp .eq (.key f.name) e)) (hmem : text ∈ texts)
    {s' : Solver} {entry : RtEntry} (hc : s.concretize z = (.ok entry, s')) :
    ∃ m ∈ entry.matches_, m.fieldId = f.id ∧ MatchesOnly f m.val (c % 2 ^ f.bitwidth.toNat) := by
  obtain ⟨h1, h2⟩ := returned_true h hd hti hs hr hz ht hmem hc
  obtain ⟨vs, hv, hfit⟩ := run_fits h hd hti hs hr h1
  exact (key_true h hd hf he ht hpos hv hfit).1 h2

include h hd hti hs hz hr hf he in
/-- C108: `k == c` is understood iff the solver does not skip `k`, and then accepted iff some entry that satisfies what was
accepted before matches `k` like this. -/
theorem C108_key_accepted (hdec : Z3Oracle.Decides z) (hpos : 0 < f.bitwidth)
    (ht : TextSays sys.inetPton6 d text (.cmp .eq (.key f.name) e)) :
    ((∃ b, (s.addConstraintStr z sys text).1 = .ok b) ↔ skip f.name = false) ∧
    ((s.addConstraintStr z sys text).1 = .ok true ↔ skip f.name = false ∧
      ∃ entry, SignedSolution sys.inetPton6 d skip texts entry ∧
        ∃ m ∈ entry.matches_, m.fieldId = f.id ∧ MatchesOnly f m.val (c % 2 ^ f.bitwidth.toNat)) := by
  have hmen : (∃ se, TextSays sys.inetPton6 d text se ∧ Mentionable d skip se) ↔ skip f.name = false := by
    rw [← cmp_mentionable h hd hf he (skip := skip) (o := .eq) (x := .key f.name) (fun _ _ => Iff.rfl)]
    constructor
    · rintro ⟨se, h1, h2⟩
      cases textSays_unique h hd hti ht h1
      exact h2
    · exact fun h1 => ⟨_, ht, h1⟩
  obtain ⟨h1, h2⟩ := signed_add_solves h hd hti hs hz hdec (text := text) hr
  rw [hmen] at h1 h2
  refine ⟨h1, h2.trans (and_congr_right fun _ => exists_congr fun entry => ?_)⟩
  rw [solution_cons h hd hti ht]
  refine and_congr_right fun h3 => ?_
  obtain ⟨vs, hv, hfit⟩ := run_fits h hd hti hs hr h3.canonical
  exact key_true h hd hf he ht hpos hv hfit

include h hd hti hs hz hr hf he in
/-- C108, fields: once `k::g == c` or `k::g != c` has been accepted, the number in this field of the match for `k` of the entries
returned is, or is not, `c`. The same for other comparisons of prefix lengths. -/
theorem C108_field {o : Cmp} {g : Str} (ho : o.isOrder = false ∨ g = c!"prefix_length")
    (ht : TextSays sys.inetPton6 d text (.cmp o (.field (.key f.name) g) e)) (hmem : text ∈ texts)
    {s' : Solver} {entry : RtEntry} (hc : s.concretize z = (.ok entry, s')) :
    ∃ n, FieldNumber f g entry n ∧ o.ofInts n (written f g c) := by
  obtain ⟨h1, h2⟩ := returned_true h hd hti hs hr hz ht hmem hc
  obtain ⟨vs, hv, hfit⟩ := run_fits h hd hti hs hr h1
  exact (field_true h hd hf he ho ht hv hfit).1 h2

include h hd hti hs hz hr hf he in
/-- C108, fields: when such comparisons are understood and accepted. -/
theorem C108_field_accepted (hdec : Z3Oracle.Decides z) {o : Cmp} {g : Str} (ho : o.isOrder = false ∨ g = c!"prefix_length")
    (ht : TextSays sys.inetPton6 d text (.cmp o (.field (.key f.name) g) e)) :
    ((∃ b, (s.addConstraintStr z sys text).1 = .ok b) ↔ skip f.name = false) ∧
    ((s.addConstraintStr z sys text).1 = .ok true ↔ skip f.name = false ∧
      ∃ entry, SignedSolution sys.inetPton6 d skip texts entry ∧ ∃ n, FieldNumber f g entry n ∧ o.ofInts n (written f g c)) := by
  have hmen : (∃ se, TextSays sys.inetPton6 d text se ∧ Mentionable d skip se) ↔ skip f.name = false := by
    rw [← cmp_mentionable h hd hf he (skip := skip) (o := o) (x := .field (.key f.name) g) (fun _ _ => Iff.rfl)]
    constructor
    · rintro ⟨se, h1, h2⟩
      cases textSays_unique h hd hti ht h1
      exact h2
    · exact fun h1 => ⟨_, ht, h1⟩
  obtain ⟨h1, h2⟩ := signed_add_solves h hd hti hs hz hdec (text := text) hr
  rw [hmen] at h1 h2
  refine ⟨h1, h2.trans (and_congr_right fun _ => exists_congr fun entry => ?_)⟩
  rw [solution_cons h hd hti ht]
  refine and_congr_right fun h3 => ?_
  obtain ⟨vs, hv, hfit⟩ := run_fits h hd hti hs hr h3.canonical
  exact field_true h hd hf he ho ht hv hfit

include h hd hti hs hz hr hf in
/-- C108, wildcards: once `k::mask == 0` or `k::prefix_length == 0` has been accepted, the entries returned have no match for `k`;
with `!=` they have one. -/
theorem C108_omitted (hpos : 0 < f.bitwidth) {o : Cmp} {g : Str} (hg : g = c!"mask" ∨ g = c!"prefix_length")
    (ht : TextSays sys.inetPton6 d text (.cmp o (.field (.key f.name) g) (.int 0))) (hmem : text ∈ texts)
    {s' : Solver} {entry : RtEntry} (hc : s.concretize z = (.ok entry, s')) :
    (o = .eq → ∀ m ∈ entry.matches_, m.fieldId ≠ f.id) ∧ (o = .ne → ∃ m ∈ entry.matches_, m.fieldId = f.id) := by
  have hw : written f g 0 = 0 := by simp [written]
  obtain ⟨hcan, _⟩ := returned_true h hd hti hs hr hz ht hmem hc
  obtain ⟨vs, hv, hfit⟩ := run_fits h hd hti hs hr hcan
  have hx : HasField f.kind g := by
    refine field_exists (declared_distinct h hd hv) hv hf (textSays_typed ht vs hv) (.cmpL .here)
  have hzero := zero_omitted h hd hcan hf hpos hg hx
  refine ⟨?_, ?_⟩
  · rintro rfl
    obtain ⟨n, h1, h2⟩ := C108_field h hd hti hs hz hr hf (.int 0) (.inl rfl) ht hmem hc
    rw [hw] at h2
    cases h2
    exact hzero.1 h1
  · rintro rfl
    obtain ⟨n, h1, h2⟩ := C108_field h hd hti hs hz hr hf (.int 0) (.inl rfl) ht hmem hc
    rw [hw] at h2
    refine Classical.byContradiction fun h3 => h2 ?_
    obtain ⟨y, hy⟩ := fieldNumber_exists (declared_distinct h hd hv) hv hfit hf hx
    rw [(hy n).1 h1, (hy 0).1 (hzero.2 fun m hm he => h3 ⟨m, hm, he⟩)]

end

/-! ### Examples -/

/-- The text is accepted by the parser and the type checker as a constraint on the keys of the table, and says `s`. -/
def Ex.textOk (d : TableDecl) (text : Str) (s : SExpr) : Bool :=
  match parseConstraint Ex.sys .table ⟨text, { src := .tableName (Ex.symTi d).name }⟩ with
  | .ok e =>
    match inferAndCheck (Ex.symTi d).source (.table (Ex.symTi d).keysByName) e with
    | .ok c => c.ty == .boolean && abs e == some s
    | _ => false
  | _ => false

theorem Ex.text_says {d : TableDecl} {text : Str} {s : SExpr} (hci : p4ToConstraintInfo Ex.sys (Ex.symInfo d) = .ok (Ex.symCi d))
    (hti : lookup d.preamble.id (Ex.symCi d).tables = some (Ex.symTi d)) (hok : Ex.textOk d text s = true) :
    TextSays Ex.sys.inetPton6 d text s := by
  have hpi := declared_parse hci (List.mem_singleton.2 rfl) hti
  obtain ⟨vs, hk, _, hmaps, _⟩ := parseTableInfo_parts hpi
  unfold Ex.textOk at hok
  split at hok
  · rename_i e h1
    split at hok
    · rename_i c h2
      simp only [Bool.and_eq_true, beq_iff_eq] at hok
      exact (textSays_iff hpi hk hmaps).2 ⟨e, c, h1, h2, hok⟩
    · cases hok
  · cases hok

theorem Ex.fix_says : TextSays Ex.sys.inetPton6 (Ex.symDecl []) c!"tern == -253" (.cmp .eq (.key c!"tern") (.neg (.int 253))) :=
  Ex.text_says Ex.moved_ci Ex.moved_ti (by decide +kernel)

theorem Ex.wild_says : TextSays Ex.sys.inetPton6 (Ex.symDecl []) c!"tern::mask == 0"
    (.cmp .eq (.field (.key c!"tern") c!"mask") (.int 0)) := Ex.text_says Ex.moved_ci Ex.moved_ti (by decide +kernel)

/-- A solver that has accepted `tern == -253`: the entry matches 3, and nothing else. -/
example : ∃ z s s' s'' entry, z.Sound ∧ SolverRun z Ex.sys (Ex.symTi (Ex.symDecl [])) (fun _ => false) s [] ∧
    s.addConstraintStr z Ex.sys c!"tern == -253" = (.ok true, s') ∧ s'.concretize z = (.ok entry, s'') ∧
    (∃ m ∈ entry.matches_, m.fieldId = 2 ∧ MatchesOnly ⟨2, c!"tern", 8, .matchType .ternary⟩ m.val 3) := by
  have hc : Solver.create (constOracle Ex.m1Three) (Ex.symTi (Ex.symDecl [])) (fun _ => .ok false) = .ok Ex.solverThree :=
    Ex.get_of_isOk (by decide +kernel)
  have hr : SolverRun (constOracle Ex.m1Three) Ex.sys (Ex.symTi (Ex.symDecl [])) (fun _ => false) Ex.solverThree [] := .create hc
  have ha : Ex.solverThree.addConstraintStr (constOracle Ex.m1Three) Ex.sys c!"tern == -253" =
      (.ok true, (Ex.solverThree.addConstraintStr (constOracle Ex.m1Three) Ex.sys c!"tern == -253").2) := Ex.pair_of (by decide +kernel)
  have hok : Ex.isOk ((Ex.solverThree.addConstraintStr (constOracle Ex.m1Three) Ex.sys c!"tern == -253").2.concretize
      (constOracle Ex.m1Three)).1 = true := by decide +kernel
  generalize (Ex.solverThree.addConstraintStr (constOracle Ex.m1Three) Ex.sys c!"tern == -253").2 = s' at ha hok
  generalize hx : s'.concretize (constOracle Ex.m1Three) = x at hok
  obtain ⟨r, s''⟩ := x
  cases r with
  | ok entry =>
    exact ⟨_, _, _, _, _, constOracle_sound _, hr, ha, hx, C108_key Ex.moved_ci (List.mem_singleton.2 rfl) Ex.moved_ti
      (Ex.sym_solvable _) (constOracle_sound _) (.accepted hr ha) (f := ⟨2, c!"tern", 8, .matchType .ternary⟩) (.tail _ (.head _))
      (.neg (.int 253)) (by decide) Ex.fix_says (.head _) hx⟩
  | _ => cases hok

/-- Solvers that decide accept `tern == -253`, since there is such an entry, and also `tern::mask == 0`. -/
example {z : Z3Oracle} (hz : z.Sound) (hdec : Z3Oracle.Decides z) : ∃ s,
    Solver.create z (Ex.symTi (Ex.symDecl [])) (fun _ => .ok false) = .ok s ∧
      (s.addConstraintStr z Ex.sys c!"tern == -253").1 = .ok true ∧ (s.addConstraintStr z Ex.sys c!"tern::mask == 0").1 = .ok true := by
  obtain ⟨s, hs⟩ := Ex.none_create hz hdec
  have hr : SolverRun z Ex.sys (Ex.symTi (Ex.symDecl [])) (fun _ => false) s [] := .create hs
  have hd : Ex.symDecl [] ∈ (Ex.symInfo (Ex.symDecl [])).tables := List.mem_singleton.2 rfl
  have hcan := canonical_wellFormed Ex.moved_ci hd Ex.moved_ti hr
  refine ⟨s, hs, ?_, ?_⟩
  · exact (C108_key_accepted Ex.moved_ci hd Ex.moved_ti (Ex.sym_solvable _) hz hr (f := ⟨2, c!"tern", 8, .matchType .ternary⟩)
      (.tail _ (.head _)) (.neg (.int 253)) hdec (by decide) Ex.fix_says).2.2 ⟨rfl, Ex.eThree,
        ⟨(hcan _).2 (Ex.eThree_runtime _), .inl Ex.moved1.free, nofun⟩, ⟨2, .ternary [3] [255]⟩, .tail _ (.head _), rfl,
        .ternary (by decide) (by decide)⟩
  · exact (C108_field_accepted Ex.moved_ci hd Ex.moved_ti (Ex.sym_solvable _) hz hr (f := ⟨2, c!"tern", 8, .matchType .ternary⟩)
      (.tail _ (.head _)) (.int 0) hdec (.inl rfl) Ex.wild_says).2.2 ⟨rfl, Ex.eWild,
        ⟨(hcan _).2 (Ex.eWild_runtime _), .inl Ex.moved1.free, nofun⟩, 0, .inr ⟨by decide, .ternaryMask⟩, by simp [Cmp.ofInts, written]⟩

/-- A prefix length: `pre::prefix_length > 15` leaves only matches of 16 bits, and `!= 0` a match. -/
example {z : Z3Oracle} (hz : z.Sound) {s s' : Solver} {texts : List Str} {entry : RtEntry}
    (hr : SolverRun z Ex.sys (Ex.symTi (Ex.symDecl [])) (fun _ => false) s texts) (hc : s.concretize z = (.ok entry, s')) :
    (c!"pre::prefix_length > 15" ∈ texts → ∃ n, FieldNumber ⟨3, c!"pre", 16, .matchType .lpm⟩ c!"prefix_length" entry n ∧ n > 15) ∧
    (c!"pre::prefix_length != 0" ∈ texts → ∃ m ∈ entry.matches_, m.fieldId = 3) ∧
    (c!"tern::mask == 0" ∈ texts → ∀ m ∈ entry.matches_, m.fieldId ≠ 2) := by
  have hd : Ex.symDecl [] ∈ (Ex.symInfo (Ex.symDecl [])).tables := List.mem_singleton.2 rfl
  have h1 : TextSays Ex.sys.inetPton6 (Ex.symDecl []) c!"pre::prefix_length > 15"
      (.cmp .gt (.field (.key c!"pre") c!"prefix_length") (.int 15)) := Ex.text_says Ex.moved_ci Ex.moved_ti (by decide +kernel)
  have h2 : TextSays Ex.sys.inetPton6 (Ex.symDecl []) c!"pre::prefix_length != 0"
      (.cmp .ne (.field (.key c!"pre") c!"prefix_length") (.int 0)) := Ex.text_says Ex.moved_ci Ex.moved_ti (by decide +kernel)
  exact ⟨fun hm => C108_field Ex.moved_ci hd Ex.moved_ti (Ex.sym_solvable _) hz hr (f := ⟨3, c!"pre", 16, .matchType .lpm⟩)
      (.tail _ (.tail _ (.head _))) (.int 15) (.inr rfl) h1 hm hc,
    fun hm => (C108_omitted Ex.moved_ci hd Ex.moved_ti (Ex.sym_solvable _) hz hr (f := ⟨3, c!"pre", 16, .matchType .lpm⟩)
      (.tail _ (.tail _ (.head _))) (by decide) (.inr rfl) h2 hm hc).2 rfl,
    fun hm => (C108_omitted Ex.moved_ci hd Ex.moved_ti (Ex.sym_solvable _) hz hr (f := ⟨2, c!"tern", 8, .matchType .ternary⟩)
      (.tail _ (.head _)) (by decide) (.inl rfl) Ex.wild_says hm hc).1 rfl⟩

end P4C
