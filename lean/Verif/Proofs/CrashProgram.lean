import Verif.Proofs.Crash
import Verif.Proofs.Report
import Verif.Spec.CrashProgram
/-!
# When reading a program crashes
-/
namespace P4C
open Spec MRes

theorem parseAndCheckM_crash_iff {x : Texts} {sys : Sys} {k : ConstraintKind} {p : Preamble} {sc : Scope} {Γ : Sig}
    (hΓ : sigOf sc = Γ) (hk : sc.isAction = decide (k = .action)) :
    parseAndCheckM x sys k p sc = .crash ↔ UnquotableFault sys.inetPton6 k Γ p := by
  subst hΓ
  constructor
  · intro h
    unfold parseAndCheckM at h
    rcases mbind_crash.1 h with h | ⟨o, ho, h⟩
    · exfalso
      have h' := erase_extractConstraint k p
      rw [h] at h'
      rcases extract_total k p with ⟨o, h1⟩ | h1 <;> rw [h1] at h' <;> cases h'
    · cases o with
      | none => cases h
      | some src =>
        have ha := attachedM.1 ho
        obtain ⟨hset, hline, hcol⟩ := attached_named ha
        have hl : Lexed src.loc src.str (tokenize src) := (C19_lexical_structure src _).1 rfl
        rcases mbind_crash.1 h with h | ⟨e, he, h⟩
        · exfalso
          have h' := erase_parseConstraint x sys k src
          rw [h] at h'
          rcases C43_no_crash (sys := sys) (k := k) hcol with ⟨o, h1⟩ | h1 | h1 <;> rw [h1] at h' <;> cases h'
        · rcases mbind_crash.1 h with h | ⟨e', he', h⟩
          · have hp : parseConstraint sys k src = .ok e := by rw [← erase_parseConstraint x, he]; rfl
            obtain ⟨s, hs⟩ := parsed_abs hp
            rcases blame (x := x) (src := src) (sc := sc) hs with ⟨e', h', _⟩ | ⟨y, a, b, text, hf, hy, hr⟩
            · rw [h'] at h; cases h
            · have hu := fault_unquotable hp hset hline hcol hf hy
              have hq : quoteSub src a b = .crash := by
                rcases quoteSub_total src a b with ⟨q, hok⟩ | hok | hc
                · rw [hr, typeErrorM, quotingErrorM, hok] at h; cases h
                · rw [hr, typeErrorM, quotingErrorM, hok] at h; cases h
                · exact hc
              rw [hk] at hy
              exact ⟨src, _, e, y, a, b, text, ha, hl, (C23_grammar_text ..).1 hp, hf, hy, hu.1 hq⟩
          · cases h
  · rintro ⟨src, ts, e, y, a, b, text, ha, hl, hc, hf, hy, hu⟩
    obtain ⟨hset, hline, hcol⟩ := attached_named ha
    obtain rfl := (C19_lexical_structure src _).2 hl
    have hp : parseConstraint sys k src = .ok e := (C23_grammar_text ..).2 hc
    obtain ⟨s, hs⟩ := parsed_abs hp
    have hpM : parseConstraintM x sys k src = .ok e := by
      have h' := erase_parseConstraint x sys k src
      rw [hp] at h'
      cases hm : parseConstraintM x sys k src <;> rw [hm] at h' <;> cases h'
      rfl
    rw [← hk] at hy
    have hq := (fault_unquotable hp hset hline hcol hf hy).2 hu
    have hi : inferAndCheckM x src sc e = .crash := by
      rw [blame_fault hs hf hy, typeErrorM, quotingErrorM, hq]
    unfold parseAndCheckM
    rw [attachedM.2 ha]
    change (parseConstraintM x sys k src >>= _) = _
    rw [hpM]
    change (inferAndCheckM x src sc e >>= _) = _
    rw [hi]
    rfl

theorem parseTableInfoM_crash_iff {x : Texts} {sys : Sys} {d : TableDecl} :
    parseTableInfoM x sys d = .crash ↔ CrashingTable sys.inetPton6 d := by
  constructor
  · intro h
    unfold parseTableInfoM at h
    rcases mbind_crash.1 h with h | ⟨⟨byId, byName⟩, hk, h⟩
    · exact absurd h parseKeysM_crash
    · dsimp only at h
      rcases mbind_crash.1 h with he | ⟨_, _, he⟩
      · have hk' : parseKeys ([], []) d.matchFields = .ok (byId, byName) := by
          rw [← erase_parseKeys x d.preamble.name, hk]; rfl
        obtain ⟨vs, h3, h4⟩ := parseKeys_ok.1 hk'
        obtain ⟨h5, h6⟩ := insertVars_nil.1 h4
        cases h6
        exact ⟨vs, (each_map_ok fun _ _ => keyDecl_iff).1 h3, h5,
          (parseAndCheckM_crash_iff (sig_keys (maps_of h5)) rfl).1 he⟩
      · cases he
  · rintro ⟨vs, h1, h2, h3⟩
    have hk' : parseKeys ([], []) d.matchFields = .ok _ :=
      parseKeys_ok.2 ⟨vs, (each_map_ok fun _ _ => keyDecl_iff).2 h1, insertVars_nil.2 ⟨h2, rfl⟩⟩
    have hkM : parseKeysM x d.preamble.name ([], []) d.matchFields =
        .ok (vs.reverse.map fun v => (v.id, v), vs.reverse.map fun v => (v.name, v)) := by
      have h' := erase_parseKeys x d.preamble.name (m := ([], [])) (fs := d.matchFields)
      rw [hk'] at h'
      cases hm : parseKeysM x d.preamble.name ([], []) d.matchFields <;> rw [hm] at h' <;> cases h'
      rfl
    unfold parseTableInfoM
    rw [hkM]
    change (parseAndCheckM x sys .table d.preamble _ >>= _) = _
    rw [(parseAndCheckM_crash_iff (sig_keys (maps_of h2)) rfl).2 h3]
    rfl

theorem parseActionInfoM_crash_iff {x : Texts} {sys : Sys} {d : ActionDecl} :
    parseActionInfoM x sys d = .crash ↔ CrashingAction sys.inetPton6 d := by
  constructor
  · intro h
    unfold parseActionInfoM at h
    rcases mbind_crash.1 h with h | ⟨⟨byId, byName⟩, hk, h⟩
    · exact absurd h parseParamsM_crash
    · dsimp only at h
      rcases mbind_crash.1 h with he | ⟨_, _, he⟩
      · have hk' : parseParamDecls ([], []) d.params = .ok (byId, byName) := by
          rw [← erase_parseParamDecls x d.preamble.name, hk]; rfl
        rw [parseParamDecls_eq] at hk'
        obtain ⟨h5, h6⟩ := insertVars_nil.1 hk'
        cases h6
        exact ⟨_, each_param.1 rfl, h5, (parseAndCheckM_crash_iff (sig_params (maps_of h5)) rfl).1 he⟩
      · cases he
  · rintro ⟨vs, h1, h2, h3⟩
    obtain rfl := each_param.2 h1
    have hk' : parseParamDecls ([], []) d.params =
        .ok ((d.params.map paramOf).reverse.map fun v => (v.id, v), (d.params.map paramOf).reverse.map fun v => (v.name, v)) := by
      rw [parseParamDecls_eq]
      exact insertVars_nil.2 ⟨h2, rfl⟩
    have hkM : parseParamDeclsM x d.preamble.name ([], []) d.params =
        .ok ((d.params.map paramOf).reverse.map fun v => (v.id, v), (d.params.map paramOf).reverse.map fun v => (v.name, v)) := by
      have h' := erase_parseParamDecls x d.preamble.name (m := ([], [])) (ps := d.params)
      rw [hk'] at h'
      cases hm : parseParamDeclsM x d.preamble.name ([], []) d.params <;> rw [hm] at h' <;> cases h'
      rfl
    unfold parseActionInfoM
    rw [hkM]
    change (parseAndCheckM x sys .action d.preamble _ >>= _) = _
    rw [(parseAndCheckM_crash_iff (sig_params (maps_of h2)) rfl).2 h3]
    rfl

theorem collectM_crash_iff {δ ι : Type} {parse : δ → MRes ι} {id : δ → Nat} {dup : δ → Str} (hp : ∀ d, parse d ≠ .oof)
    {ds : List δ} {m : List (Nat × ι)} : collectM parse id dup m ds = .crash ↔ ∃ d ∈ ds, parse d = .crash := by
  refine ⟨collectM_crash, ?_⟩
  induction ds generalizing m with
  | nil => rintro ⟨d, hd, _⟩; cases hd
  | cons d ds ih =>
    rintro ⟨d', hd', h⟩
    rw [collectM]
    cases hpd : parse d with
    | crash => rfl
    | oof => exact (hp d hpd).elim
    | ok i =>
      have hm : ∃ d ∈ ds, parse d = .crash := by
        rcases List.mem_cons.1 hd' with rfl | hd'
        · rw [hpd] at h; cases h
        · exact ⟨d', hd', h⟩
      dsimp only
      cases insertNew (id d) i m with
      | some m1 => exact ih hm
      | none => dsimp only; rw [ih hm]; rfl
    | err c t =>
      have hm : ∃ d ∈ ds, parse d = .crash := by
        rcases List.mem_cons.1 hd' with rfl | hd'
        · rw [hpd] at h; cases h
        · exact ⟨d', hd', h⟩
      dsimp only
      rw [ih hm]
      rfl

theorem collectM_no_oof {δ ι : Type} {parse : δ → MRes ι} {id : δ → Nat} {dup : δ → Str} (hp : ∀ d, parse d ≠ .oof)
    {ds : List δ} {m : List (Nat × ι)} : (∃ r, collectM parse id dup m ds = .ok r) ∨ collectM parse id dup m ds = .crash := by
  induction ds generalizing m with
  | nil => exact .inl ⟨_, rfl⟩
  | cons d ds ih =>
    rw [collectM]
    cases hpd : parse d with
    | crash => exact .inr rfl
    | oof => exact (hp d hpd).elim
    | ok i =>
      dsimp only
      cases insertNew (id d) i m with
      | some m1 => exact ih
      | none =>
        dsimp only
        rcases ih (m := m) with ⟨r, h⟩ | h <;> rw [h]
        · exact .inl ⟨_, rfl⟩
        · exact .inr rfl
    | err c t =>
      dsimp only
      rcases ih (m := m) with ⟨r, h⟩ | h <;> rw [h]
      · exact .inl ⟨_, rfl⟩
      · exact .inr rfl

theorem parseTableInfoM_no_oof {x : Texts} {sys : Sys} (d : TableDecl) : parseTableInfoM x sys d ≠ .oof := by
  intro h
  have h' := erase_parseTableInfo x sys d
  rw [h] at h'
  exact parseTableInfo_outcome.1 h'.symm

theorem parseActionInfoM_no_oof {x : Texts} {sys : Sys} (d : ActionDecl) : parseActionInfoM x sys d ≠ .oof := by
  intro h
  have h' := erase_parseActionInfo x sys d
  rw [h] at h'
  exact parseActionInfo_outcome.1 h'.symm

theorem program_crash_iff {x : Texts} {sys : Sys} {p : P4Info} :
    p4ToConstraintInfoM x sys p = .crash ↔ ProgramCrash sys.inetPton6 p := by
  have h1 := collectM_crash_iff (parse := parseTableInfoM x sys) (id := fun t => t.preamble.id)
    (dup := fun t => c!"duplicate table: " ++ x.table t) parseTableInfoM_no_oof (ds := p.tables) (m := [])
  have h2 := collectM_crash_iff (parse := parseActionInfoM x sys) (id := fun t => t.preamble.id)
    (dup := fun t => c!"duplicate action: " ++ x.action t) parseActionInfoM_no_oof (ds := p.actions) (m := [])
  have t1 : (∃ d ∈ p.tables, parseTableInfoM x sys d = .crash) ↔ ∃ d ∈ p.tables, CrashingTable sys.inetPton6 d :=
    exists_congr fun d => and_congr_right fun hd => parseTableInfoM_crash_iff
  have t2 : (∃ d ∈ p.actions, parseActionInfoM x sys d = .crash) ↔ ∃ d ∈ p.actions, CrashingAction sys.inetPton6 d :=
    exists_congr fun d => and_congr_right fun hd => parseActionInfoM_crash_iff
  unfold ProgramCrash
  rw [← t1, ← t2, ← h1, ← h2]
  unfold p4ToConstraintInfoM
  constructor
  · intro h
    rcases mbind_crash.1 h with h | ⟨⟨ts, ms₁⟩, _, h⟩
    · exact .inl h
    rcases mbind_crash.1 h with h | ⟨⟨as, ms₂⟩, _, h⟩
    · exact .inr h
    dsimp only at h
    split at h <;> cases h
  · rintro (h | h)
    · rw [h]; rfl
    · rcases collectM_no_oof (parse := parseTableInfoM x sys) (id := fun t => t.preamble.id)
        (dup := fun t => c!"duplicate table: " ++ x.table t) parseTableInfoM_no_oof (ds := p.tables) (m := []) with ⟨r, hr⟩ | hr
      · rw [hr, MRes.ok_bind, h]; rfl
      · rw [hr]; rfl

/-- A program about whose definitions something is said, or nothing needs to be, does not crash. -/
theorem reports_each {δ : Type} {Good : δ → Prop} {Bad : δ → Str → Prop} {id : δ → Nat} {dup : δ → Str} {ds : List δ} :
    ∀ {seen : List Nat} {ms : List Str}, Reports Good Bad id dup seen ds ms → ∀ d ∈ ds, Good d ∨ ∃ m, Bad d m := by
  intro seen ms h
  induction h with
  | nil => nofun
  | fine h1 _ _ ih | duplicate h1 _ _ ih =>
    intro d hd
    rcases List.mem_cons.1 hd with rfl | hd
    · exact .inl h1
    · exact ih d hd
  | bad h1 _ ih =>
    intro d hd
    rcases List.mem_cons.1 hd with rfl | hd
    · exact .inr ⟨_, h1⟩
    · exact ih d hd

/-- What is said about a constraint, and what makes the process crash. -/
theorem constraintFault_no_crash {x : Texts} {pton : Str → Option Bytes} {k : ConstraintKind} {Γ : Sig} {p : Preamble} {m : Str}
    (hΓ : ∃ sc, sigOf sc = Γ ∧ sc.isAction = decide (k = .action))
    (h : ConstraintFault x pton k Γ p m) :
    ¬ UnquotableFault pton k Γ p := by
  obtain ⟨sc, hΓ, hk⟩ := hΓ
  rintro ⟨src, ts, e, y, a, b, text, ha, hl, hc, hf, hy, hu⟩
  obtain rfl := (C19_lexical_structure src _).2 hl
  have hp := (C23_grammar_text ⟨pton⟩ ..).2 hc
  cases h with
  | annotation h =>
    have h1 := extractM_err.2 ⟨rfl, h⟩
    rw [attachedM.2 ha] at h1
    cases h1
  | address ha' hl' h1 h2 h3 =>
    cases attached_unique ha ha'
    obtain rfl := (C19_lexical_structure src _).2 hl'
    exact (C52_rejected hp).2 _ _ _ _ _ h1 h3
  | «syntax» ha' hl' h1 h2 h3 h4 =>
    cases attached_unique ha ha'
    obtain rfl := (C19_lexical_structure src _).2 hl'
    exact (C52_rejected hp).1 _ _ _ h1
  | @type src' ts' e' y' a' b' text' m c ha' hl' hc' hf' hy' hq =>
    cases attached_unique ha ha'
    obtain rfl := (C19_lexical_structure src _).2 hl'
    obtain rfl : e = e' := by
      have := (C23_grammar_text ⟨pton⟩ ..).2 hc'
      rw [hp] at this
      injection this
    subst hΓ
    rw [← hk] at hy hy'
    obtain ⟨rfl, rfl, rfl, rfl⟩ := (C54_unique hf hy).1 hf' hy'
    obtain ⟨hset, hline, hcol⟩ := attached_named ha
    obtain ⟨h1, h2, h3, h4, h5, h6⟩ := fault_where hp hcol hf hy
    exact shown_quotable h1 h2 hset (by omega) h4 h5 h6 hq hu

theorem program_reported {x : Texts} {sys : Sys} {p : P4Info} {ms : List Str}
    (h : ProgramReports x sys.inetPton6 p ms) : ¬ ProgramCrash sys.inetPton6 p := by
  obtain ⟨ms₁, ms₂, _, h1, h2⟩ := h
  rintro (⟨d, hd, hc⟩ | ⟨d, hd, hc⟩)
  · rcases reports_each h1 d hd with hg | ⟨m, hb⟩
    · obtain ⟨ti, hti⟩ := parseTableInfoM_good (x := x).2 hg
      rw [parseTableInfoM_crash_iff.2 hc] at hti
      cases hti
    · obtain ⟨vs, g1, g2, g3⟩ := hc
      rcases hb with hb | ⟨vs', g1', _, hb⟩
      · exact keysFault_not hb g1 g2
      · cases each_unique (R := KeyDecl) (fun _ _ _ => keyDecl_unique) g1 g1'
        exact constraintFault_no_crash ⟨_, sig_keys (maps_of g2), rfl⟩ hb g3
  · rcases reports_each h2 d hd with hg | ⟨m, hb⟩
    · obtain ⟨ti, hti⟩ := parseActionInfoM_good (x := x).2 hg
      rw [parseActionInfoM_crash_iff.2 hc] at hti
      cases hti
    · obtain ⟨vs, g1, g2, g3⟩ := hc
      rcases hb with hb | ⟨vs', g1', _, hb⟩
      · exact paramsFault_not hb g1 g2
      · cases each_unique (R := ParamIs) (fun _ _ _ => paramIs_unique) g1 g1'
        exact constraintFault_no_crash ⟨_, sig_params (maps_of g2), rfl⟩ hb g3

theorem oneLine_fault {pton : Str → Option Bytes} {k : ConstraintKind} {Γ : Sig} {p : Preamble}
    (hn : ∀ src, Attached k p (some src) → '\n' ∉ src.str ∧ '\r' ∉ src.str) :
    ¬ UnquotableFault pton k Γ p := by
  rintro ⟨src, ts, e, y, a, b, text, ha, hl, hc, hf, hy, hu⟩
  obtain rfl := (C19_lexical_structure src _).2 hl
  have hp := (C23_grammar_text ⟨pton⟩ ..).2 hc
  obtain ⟨u, v, h1, h2, rfl, rfl, _⟩ := fault_nodes (act := decide (k = .action)) hy
  refine hu.1 ?_
  rw [(node_onLine hp (hn src ha) (first_node hf h1)).1, (node_onLine hp (hn src ha) (first_node hf h2)).2]

end P4C
