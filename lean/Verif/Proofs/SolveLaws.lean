import Verif.Spec.SolveLaws
import Verif.Proofs.SolveSigned
import Verif.Proofs.Compose

/-
Laws for adding constraints to solvers (C79).
-/

namespace P4C

open Spec

/-- Solvers for the same table, neither of which has run into a contradiction, give the same answer unless both understand
the constraint. -/
theorem add_same {z z' : Z3Oracle} {sys : Sys} {s s' : Solver} (ht : s.table = s'.table) (he : s.env = s'.env)
    {v v' : Interp} {i i' : Str → Srt → Bool} (hs : z.check s.calls s.assertions = .sat v i)
    (hs' : z'.check s'.calls s'.assertions = .sat v' i') (text : Str) :
    (s.addConstraintStr z sys text).1 = (s'.addConstraintStr z' sys text).1 ∨
      (∃ b, (s.addConstraintStr z sys text).1 = .ok b) ∧ ∃ b, (s'.addConstraintStr z' sys text).1 = .ok b := by
  unfold Solver.addConstraintStr
  rw [ht]
  dsimp only
  split
  · simp only [Solver.addConstraint, Solver.check, hs, hs', he]
    split
    · right
      constructor <;> split <;> exact ⟨_, rfl⟩
    all_goals exact .inl rfl
  all_goals exact .inl rfl

section
variable {sys : Sys} {p : P4Info} {ci : ConstraintInfo} (h : p4ToConstraintInfo sys p = .ok ci) {d : TableDecl}
  (hd : d ∈ p.tables) {ti : TableInfo} (hti : lookup d.preamble.id ci.tables = some ti) {skip : Str → Bool}
  (hs : Solvable d skip) {z : Z3Oracle} (hz : z.Sound) (hdec : Z3Oracle.Decides z)

theorem signedSolution_mono {pton : Str → Option Bytes} {ts ts' : List Str} {entry : RtEntry}
    (hsub : ∀ t ∈ ts, t ∈ ts') (he : SignedSolution pton d skip ts' entry) : SignedSolution pton d skip ts entry :=
  ⟨he.canonical, he.table, fun t ht => he.texts t (hsub t ht)⟩

include h hd hti in
theorem textSays_unique {text : Str} {a b : SExpr} (ha : TextSays sys.inetPton6 d text a) (hb : TextSays sys.inetPton6 d text b) :
    a = b := by
  have hpi := declared_parse h hd hti
  obtain ⟨vs, hk, _, hmaps, _⟩ := parseTableInfo_parts hpi
  obtain ⟨e, _, h1, _, _, h2⟩ := (textSays_iff hpi hk hmaps).1 ha
  obtain ⟨e', _, h3, _, _, h4⟩ := (textSays_iff hpi hk hmaps).1 hb
  rw [h1] at h3
  cases h3
  rw [h2] at h4
  exact Option.some.inj h4

include h hd hti in
theorem textSays_parse {text : Str} {a : SExpr} (ha : TextSays sys.inetPton6 d text a) :
    ∃ e, parseConstraint sys .table ⟨text, { src := .tableName d.preamble.name }⟩ = .ok e ∧ abs e = some a ∧
      ∃ vs, Each KeyDecl d.matchFields vs ∧ HasTy (keySig vs) a .boolean := by
  have hpi := declared_parse h hd hti
  obtain ⟨vs, hk, _, hmaps, _⟩ := parseTableInfo_parts hpi
  obtain ⟨e, c, h1, _, _, h2⟩ := (textSays_iff hpi hk hmaps).1 ha
  rw [(parseTableInfo_id hpi).2] at h1
  obtain ⟨vs', _, _, hk', _, _, _, ht⟩ := ha
  exact ⟨e, h1, h2, vs', hk', ht⟩

theorem parse_textSays {text : Str} {e : Expr} {a : SExpr} {vs : List VarInfo} (hk : Each KeyDecl d.matchFields vs)
    (hp : parseConstraint sys .table ⟨text, { src := .tableName d.preamble.name }⟩ = .ok e) (ha : abs e = some a)
    (ht : HasTy (keySig vs) a .boolean) : TextSays sys.inetPton6 d text a :=
  ⟨vs, _, e, hk, tokenize_lexed ⟨text, { src := .tableName d.preamble.name }⟩, parseConstraint_iff.1 hp, ha, ht⟩

include h hd hti in
theorem negated_says {text : Str} {a : SExpr} (ha : TextSays sys.inetPton6 d text a) (hc : Closed text) :
    TextSays sys.inetPton6 d (negated text) (.not a) := by
  obtain ⟨e, h1, h2, vs, hk, ht⟩ := textSays_parse h hd hti ha
  obtain ⟨e', h3, h4⟩ := negated_parse (src := ⟨negated text, { src := .tableName d.preamble.name }⟩) h1 h2 hc rfl
  exact parse_textSays hk h3 h4 (.not ht)

include h hd hti in
theorem joined_says {o : Spec.Conn} {x y : Str} {a b : SExpr} (ha : TextSays sys.inetPton6 d x a)
    (hb : TextSays sys.inetPton6 d y b) (hx : Closed x) (hy : Closed y) :
    TextSays sys.inetPton6 d (joined o x y) (.conn o a b) := by
  obtain ⟨e, h1, h2, vs, hk, ht⟩ := textSays_parse h hd hti ha
  obtain ⟨e', h3, h4, vs', hk', ht'⟩ := textSays_parse h hd hti hb
  cases keys_same hk hk'
  obtain ⟨e', h5, h6⟩ := joined_parse (src := ⟨joined o x y, { src := .tableName d.preamble.name }⟩) h1 h2 hx h3 h4 hy rfl
  exact parse_textSays hk h5 h6 (.conn ht ht')

theorem mentionable_not {a : SExpr} : Mentionable d skip (.not a) ↔ Mentionable d skip a := Iff.rfl

theorem mentionable_conn {o : Spec.Conn} {a b : SExpr} :
    Mentionable d skip (.conn o a b) ↔ Mentionable d skip a ∧ Mentionable d skip b := by
  constructor
  · rintro ⟨vs, hk, h1, h2⟩
    exact ⟨⟨vs, hk, h1⟩, vs, hk, h2⟩
  · rintro ⟨⟨vs, hk, h1⟩, vs', hk', h2⟩
    cases keys_same hk hk'
    exact ⟨vs, hk, h1, h2⟩

include h hd hti hs hz in
theorem run_solution {s : Solver} {texts : List Str} (hr : SolverRun z sys ti skip s texts) :
    ∃ entry, SignedSolution sys.inetPton6 d skip texts entry := by
  have hwf := parseTableInfo_wf (declared_parse h hd hti)
  obtain ⟨ds, hre, he⟩ := run_reachable hr
  obtain ⟨ks, as, hi⟩ := reachable_inv hre
  obtain ⟨m, hm⟩ := reachable_sat hz hwf hre
  exact signed_solution_of_model h hd hti hs hi he hm

include h hd hti hs in
/-- Constraints have a value for every entry in canonical form. -/
theorem signed_total {s : Solver} {texts : List Str} (hr : SolverRun z sys ti skip s texts) {text : Str} {se : SExpr}
    (hse : TextSays sys.inetPton6 d text se) (hmen : Mentionable d skip se) {entry : RtEntry}
    (hc : CanonicalFor d skip entry) :
    ∃ vs ρ b, Each KeyDecl d.matchFields vs ∧ EntryFits vs entry ∧ EntryMeans vs entry ρ ∧
      SignedMeans (keySig vs) ρ se .boolean (.bool b) := by
  have hpi := declared_parse h hd hti
  have hwf := parseTableInfo_wf hpi
  obtain ⟨vs, hk, _, hmaps, _⟩ := parseTableInfo_parts hpi
  obtain ⟨ds, hre, he⟩ := run_reachable hr
  obtain ⟨ks, as, hi⟩ := reachable_inv hre
  have hsup := inv_supported hk hmaps hi hwf
  obtain ⟨vs', ρ, hk', _, hf, henv⟩ := canonical_env h hd hti hs hsup hc
  cases keys_same hk hk'
  obtain ⟨e, c, h1, h2, h3, h4⟩ := (textSays_iff hpi hk hmaps).1 hse
  obtain ⟨_, hcorr⟩ := interpOf_env hi hwf (solvable_names hk hmaps hs) ((canonicalFor_iff hpi hk hmaps).2 hc) henv
  obtain ⟨t, _, hmean⟩ := formula_means (src := ti.source) hcorr ⟨_, e, h2, h4⟩ h3
    ((known_iff hi hwf se).2 ((mentionable_iff hk hmaps).2 hmen))
  rw [sig_keys hmaps] at hmean
  exact ⟨vs, ρ, _, hk, hf, (entryEnv_means hmaps).1 henv, hmean⟩

theorem signedTrueOf_value {entry : RtEntry} {vs : List VarInfo} {ρ : Env} {b : Bool} {se : SExpr}
    (hk : Each KeyDecl d.matchFields vs)
    (hv : SignedMeans (keySig vs) ρ se .boolean (.bool b)) (ht : SignedTrueOf d entry se)
    (hu : ∀ ρ', EntryMeans vs entry ρ' → ρ' = ρ) : b = true := by
  obtain ⟨vs', ρ', hk', _, hm', he⟩ := ht
  cases keys_same hk hk'
  cases hu ρ' hm'
  have := (signed_unique hv he).2
  cases this
  rfl

include h hd hti hs in
/-- One of a constraint and its negation is true of every entry in canonical form, and not both. -/
theorem signed_not {s : Solver} {texts : List Str} (hr : SolverRun z sys ti skip s texts) {text : Str} {se : SExpr}
    (hse : TextSays sys.inetPton6 d text se) (hmen : Mentionable d skip se) {entry : RtEntry}
    (hc : CanonicalFor d skip entry) : SignedTrueOf d entry (.not se) ↔ ¬ SignedTrueOf d entry se := by
  obtain ⟨vs, ρ, b, hk, hf, hm, hv⟩ := signed_total h hd hti hs hr hse hmen hc
  have hu := fun ρ' h' => entryMeans_unique (ρ := ρ') h' hm
  constructor
  · intro h1 h2
    have hb := signedTrueOf_value hk hv h2 hu
    have hb' := signedTrueOf_value hk (.not hv) h1 hu
    rw [hb] at hb'
    cases hb'
  · intro hn
    cases b with
    | true => exact (hn ⟨vs, ρ, hk, hf, hm, hv⟩).elim
    | false => exact ⟨vs, ρ, hk, hf, hm, .not hv⟩

include h hd hti hs in
theorem signed_conn {s : Solver} {texts : List Str} (hr : SolverRun z sys ti skip s texts) {x y : Str} {a b : SExpr}
    (ha : TextSays sys.inetPton6 d x a) (hma : Mentionable d skip a)
    (hb : TextSays sys.inetPton6 d y b) (hmb : Mentionable d skip b) {entry : RtEntry} (hc : CanonicalFor d skip entry)
    (o : Spec.Conn) : SignedTrueOf d entry (.conn o a b) ↔
      match o with
      | .and => SignedTrueOf d entry a ∧ SignedTrueOf d entry b
      | .or => SignedTrueOf d entry a ∨ SignedTrueOf d entry b
      | .implies => SignedTrueOf d entry a → SignedTrueOf d entry b := by
  obtain ⟨vs, ρ, u, hk, hf, hm, hv⟩ := signed_total h hd hti hs hr ha hma hc
  obtain ⟨vs', ρ', w, hk', hf', hm', hw⟩ := signed_total h hd hti hs hr hb hmb hc
  cases keys_same hk hk'
  cases entryMeans_unique hm hm'
  have hu := fun ρ' h' => entryMeans_unique (ρ := ρ') h' hm
  have key : ∀ {se : SExpr} {b : Bool}, SignedMeans (keySig vs) ρ se .boolean (.bool b) →
      (SignedTrueOf d entry se ↔ b = true) := by
    intro se b hse
    refine ⟨fun ht => signedTrueOf_value hk hse ht hu, ?_⟩
    rintro rfl
    exact ⟨vs, ρ, hk, hf, hm, hse⟩
  cases o <;> dsimp only <;> rw [key (.conn hv hw), key hv, key hw] <;> cases u <;> cases w <;> simp [Spec.Conn.apply]

include h hd hti hz hdec in
/-- The answers of two solvers for a table, possibly using different versions of Z3, only differ if one is yes and the other
no. -/
theorem run_same {z' : Z3Oracle} (hz' : z'.Sound) (hdec' : Z3Oracle.Decides z') {s s' : Solver} {texts texts' : List Str}
    (hr : SolverRun z sys ti skip s texts) (hr' : SolverRun z' sys ti skip s' texts') (text : Str) :
    (s.addConstraintStr z sys text).1 = (s'.addConstraintStr z' sys text).1 ∨
      (∃ b, (s.addConstraintStr z sys text).1 = .ok b) ∧ ∃ b, (s'.addConstraintStr z' sys text).1 = .ok b := by
  have hwf := parseTableInfo_wf (declared_parse h hd hti)
  obtain ⟨ds, hre, he⟩ := run_reachable hr
  obtain ⟨ks, as, hi⟩ := reachable_inv hre
  obtain ⟨m, hm⟩ := reachable_sat hz hwf hre
  obtain ⟨v, i, hc⟩ := decides_sat hz hdec (n := s.calls) hm
  obtain ⟨ds', hre', he'⟩ := run_reachable hr'
  obtain ⟨ks', as', hi'⟩ := reachable_inv hre'
  obtain ⟨m', hm'⟩ := reachable_sat hz' hwf hre'
  obtain ⟨v', i', hc'⟩ := decides_sat hz' hdec' (n := s'.calls) hm'
  have hks := hi.keys.symm.trans hi'.keys
  simp only [Res.ok.injEq, Prod.mk.injEq] at hks
  obtain ⟨rfl, rfl⟩ := hks
  exact add_same (hi.table.trans hi'.table.symm) (hi.env.trans hi'.env.symm) hc hc' text

include h hd hti hs hz hdec in
theorem allAccepted_iff {ts : List Str} : ∀ {s : Solver} {texts : List Str}, SolverRun z sys ti skip s texts →
    (AllAccepted z sys s ts ↔ (∀ t ∈ ts, ∃ se, TextSays sys.inetPton6 d t se ∧ Mentionable d skip se) ∧
      ∃ entry, SignedSolution sys.inetPton6 d skip (ts ++ texts) entry) := by
  induction ts with
  | nil =>
    intro s texts hr
    exact ⟨fun _ => ⟨by simp, run_solution h hd hti hs hz hr⟩, fun _ => trivial⟩
  | cons t ts ih =>
    intro s texts hr
    constructor
    · rintro ⟨s', h1, h2⟩
      obtain ⟨h3, entry, h4⟩ := (ih (.accepted hr h1)).1 h2
      have h5 := ((signed_add_solves h hd hti hs hz hdec hr (text := t)).2.1 (by rw [h1])).1
      exact ⟨List.forall_mem_cons.2 ⟨h5, h3⟩, entry, signedSolution_mono (by grind) h4⟩
    · rintro ⟨h1, entry, h2⟩
      obtain ⟨h3, h4⟩ := List.forall_mem_cons.1 h1
      have h5 := (signed_add_solves h hd hti hs hz hdec hr (text := t)).2.2
        ⟨h3, entry, signedSolution_mono (by grind) h2⟩
      have h6 : s.addConstraintStr z sys t = (.ok true, (s.addConstraintStr z sys t).2) := Prod.ext h5 rfl
      exact ⟨_, h6, (ih (.accepted hr h6)).2 ⟨h4, entry, signedSolution_mono (by grind) h2⟩⟩

end

end P4C
