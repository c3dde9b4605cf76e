import Verif.Spec.Solve
import Verif.Proofs.Solver3
import Verif.Proofs.Accept
import Verif.Proofs.Express
import Verif.Proofs.Symbolic

/-
Solvers for the tables of a program (C72).
-/

namespace P4C

open Spec

/-- Constraints that only order integers evaluate to what they mean. -/
theorem means_evaluates {Γ : Sig} {ρ : Env} {s : SExpr} {t : Ty} {v : Value} (h : Means Γ ρ s t v)
    (ho : NoOrderedBits Γ s) : Evaluates Γ ρ s t v := by
  induction h with
  | bool b => exact .bool b
  | int z => exact .int z
  | key h1 h2 => exact .key h1 h2
  | param h1 h2 => exact .param h1 h2
  | priority h => exact .priority h
  | not _ ih => exact .not (ih ho)
  | neg _ ih => exact .neg (ih ho)
  | conn _ _ ih1 ih2 => exact .conn (ih1 ho.1) (ih2 ho.2)
  | cmp h1 h2 hj hc ih1 ih2 =>
    refine .cmp (ih1 ho.1) (ih2 ho.2.1) hj (fun hio n => ?_) hc
    obtain ⟨t1, t2⟩ := ho.2.2 hio
    cases means_hasTy h1 _ t1
    cases means_hasTy h2 _ t2
    rcases isJoin_cases hj with rfl | rfl <;> nofun
  | field _ h1 h2 ih => exact .field (ih ho) h1 h2

section
variable {sys : Sys} {d : TableDecl} {ti : TableInfo} {vs : List VarInfo} (h : parseTableInfo sys d = .ok ti)
  (hk : Each KeyDecl d.matchFields vs) (hm : Maps vs ti.keysById ti.keysByName) {skip : Str → Bool}

include hm in
theorem hasPriority_iff : HasPriority ti ↔ WithPriority vs := by
  constructor
  · rintro ⟨n, ki, h1, h2⟩
    exact ⟨ki, ((hm.byName n ki).1 h1).1, h2⟩
  · rintro ⟨ki, h1, h2⟩
    exact ⟨ki.name, ki, (hm.byName _ ki).2 ⟨h1, rfl⟩, h2⟩

theorem parseTableInfo_id {sys : Sys} {d : TableDecl} {ti : TableInfo} (h : parseTableInfo sys d = .ok ti) :
    ti.id = d.preamble.id ∧ ti.name = d.preamble.name := by
  unfold parseTableInfo at h
  simp only [Res.bind_eq_ok] at h
  obtain ⟨⟨a, b⟩, h1, ⟨c, s⟩, h2, h⟩ := h
  cases h
  exact ⟨rfl, rfl⟩

theorem skip_true {n : Str} : ((.ok (skip n) : Res Bool) = .ok true) ↔ skip n = true := by simp

theorem skip_not {n : Str} : ¬ ((.ok (skip n) : Res Bool) = .ok true) ↔ skip n = false := by simp

include hm in
theorem canonicalOver_iff {entry : RtEntry} :
    CanonicalEntry ti (fun n => (.ok (skip n) : Res Bool) = .ok true) entry ↔
      entry.tableId = ti.id ∧ CanonicalOver vs skip entry := by
  constructor
  · intro hc
    refine ⟨hc.table, ?_, hc.once, ?_, ?_⟩
    · intro m hm'
      obtain ⟨n, ki, h1, h2, h3⟩ := hc.keys m hm'
      obtain ⟨h4, rfl⟩ := (hm.byName n ki).1 h1
      exact ⟨ki, h4, skip_not.1 h2, h3⟩
    · intro ki h1 w h2 h3
      exact hc.exact ki.name ki w ((hm.byName _ ki).2 ⟨h1, rfl⟩) h2 (skip_not.2 h3)
    · have := hc.priority
      rw [hasPriority_iff hm] at this
      exact this
  · rintro ⟨h0, hc⟩
    refine ⟨h0, ?_, hc.once, ?_, ?_⟩
    · intro m hm'
      obtain ⟨ki, h1, h2, h3⟩ := hc.keys m hm'
      exact ⟨ki.name, ki, (hm.byName _ ki).2 ⟨h1, rfl⟩, skip_not.2 h2, h3⟩
    · intro n ki w h1 h2 h3
      obtain ⟨h4, rfl⟩ := (hm.byName n ki).1 h1
      exact hc.exact ki h4 w h2 (skip_not.1 h3)
    · rw [hasPriority_iff hm]
      exact hc.priority

theorem keys_same {vs vs' : List VarInfo} (hk : Each KeyDecl d.matchFields vs) (hk' : Each KeyDecl d.matchFields vs') :
    vs = vs' := each_unique (R := KeyDecl) (fun _ _ _ => keyDecl_unique) hk hk'

include h hk hm in
theorem canonicalFor_iff {entry : RtEntry} :
    CanonicalEntry ti (fun n => (.ok (skip n) : Res Bool) = .ok true) entry ↔ CanonicalFor d skip entry := by
  rw [canonicalOver_iff hm, (parseTableInfo_id h).1]
  constructor
  · exact fun ⟨h1, h2⟩ => ⟨h1, vs, hk, h2⟩
  · rintro ⟨h1, vs', hk', h2⟩
    cases keys_same hk hk'
    exact ⟨h1, h2⟩

include hk hm in
theorem mentionable_iff {s : SExpr} :
    Expressible ti (fun n => (.ok (skip n) : Res Bool) = .ok true) s ↔ Mentionable d skip s := by
  constructor
  · intro hx
    refine ⟨vs, hk, namesIn_imp ?_ ?_ s hx⟩
    · rintro n ⟨ki, h1, h2⟩
      obtain ⟨h3, rfl⟩ := (hm.byName n ki).1 h1
      exact ⟨ki, h3, rfl, skip_not.1 h2⟩
    · rintro a ⟨rfl, h1⟩
      exact ⟨rfl, (hasPriority_iff hm).1 h1⟩
  · rintro ⟨vs', hk', hx⟩
    cases keys_same hk hk'
    refine namesIn_imp ?_ ?_ s hx
    · rintro n ⟨ki, h1, rfl, h2⟩
      exact ⟨ki, (hm.byName _ ki).2 ⟨h1, rfl⟩, skip_not.2 h2⟩
    · rintro a ⟨rfl, h1⟩
      exact ⟨rfl, (hasPriority_iff hm).2 h1⟩

include h hk hm in
theorem textSays_iff {text : Str} {s : SExpr} :
    TextSays sys.inetPton6 d text s ↔ ∃ e c, parseConstraint sys .table ⟨text, { src := .tableName ti.name }⟩ = .ok e ∧
      inferAndCheck ti.source (.table ti.keysByName) e = .ok c ∧ c.ty = .boolean ∧ abs e = some s := by
  rw [(parseTableInfo_id h).2]
  constructor
  · rintro ⟨vs', ts, e, h1, h2, h3, h4, h5⟩
    cases keys_same hk h1
    rw [← sig_keys hm] at h5
    obtain ⟨c, h6, h7⟩ := infer_complete (src := ti.source) h4 h5
    refine ⟨e, c, parseConstraint_iff.2 ?_, h6, h7, h4⟩
    have := lexed_tokenizeF h2 (text.length + 1) (Nat.lt_succ_self _)
    have ht : tokenize ⟨text, { src := .tableName d.preamble.name }⟩ = ts := this
    rw [ht]
    exact h3
  · rintro ⟨e, c, h1, h2, h3, h4⟩
    have h5 := infer_sound h2 h4
    rw [h3, sig_keys hm] at h5
    exact ⟨vs, _, e, hk, tokenize_lexed ⟨text, { src := .tableName d.preamble.name }⟩, parseConstraint_iff.1 h1, h4, h5⟩

theorem canonical_fits {entry : RtEntry} (hc : CanonicalOver vs skip entry)
    (ho : ∀ ki ∈ vs, skip ki.name = true → ∃ v, WildcardOf ki.ty v)
    (hs : ∀ ki ∈ vs, skip ki.name = true ∨ SymSupported ki.ty) : EntryFits vs entry := by
  refine ⟨?_, hc.once, ?_⟩
  · intro m hm
    obtain ⟨ki, h1, _, h2, h3⟩ := hc.keys m hm
    exact ⟨ki, h1, h2.symm, canonicalMatch_denotes h3⟩
  · intro ki hki
    cases hsk : skip ki.name with
    | true => exact .inr (ho ki hki hsk)
    | false =>
      rcases hs ki hki with h1 | h1
      · rw [hsk] at h1; cases h1
      · generalize ht : ki.ty = t at h1
        cases h1 with
        | exact => exact .inl (hc.exact ki hki _ ht hsk)
        | ternary => exact .inr ⟨_, .ternary _⟩
        | optional => exact .inr ⟨_, .optional _⟩
        | lpm => exact .inr ⟨_, .lpm _⟩

include hk hm in
theorem trueOf_iff {ks : List (Str × SymKey)} {as : List (Term .bool)} {s : Solver} {cs : List Expr} {entry : RtEntry}
    {ρ : Env} {c : Expr} {se : SExpr} (hi : SolverInv ti (fun n => .ok (skip n)) ks as s cs) (hwf : TableWF ti)
    (hd : NamesDistinct ti) (hcan : CanonicalEntry ti (fun n => (.ok (skip n) : Res Bool) = .ok true) entry)
    (hf : EntryFits vs entry) (henv : EntryEnv ti entry ρ) (hch : Checked (.table ti.keysByName) c se)
    (hb : c.ty = .boolean) (hx : Expressible ti (fun n => (.ok (skip n) : Res Bool) = .ok true) se)
    (hp : NoOrderedBits (keySig vs) se) :
    SignedHolds (sigOf (.table ti.keysByName)) ρ se ↔ TrueOf d entry se := by
  constructor
  · intro hh
    rw [sig_keys hm] at hh
    exact ⟨vs, ρ, hk, hf, (entryEnv_means hm).1 henv, means_evaluates (signed_means hh (noOrderedBits_safe hp ρ)) hp⟩
  · rintro ⟨vs', ρ', hk', _, hm', he⟩
    cases keys_same hk hk'
    cases entryEnv_unique henv ((entryEnv_means hm).2 hm')
    obtain ⟨_, hcorr⟩ := interpOf_env hi hwf hd hcan henv
    obtain ⟨t, _, hmean⟩ := formula_means (src := ti.source) hcorr hch hb ((known_iff hi hwf se).2 hx)
    rw [sig_keys hm] at hmean ⊢
    obtain ⟨_, h2⟩ := evaluates_means he (signed_means hmean (noOrderedBits_safe hp ρ))
    rw [← h2] at hmean
    exact hmean

theorem checked_unique {sc : Scope} {c : Expr} {s s' : SExpr} (h : Checked sc c s) (h' : Checked sc c s') : s = s' := by
  obtain ⟨src, e, h1, h2⟩ := h'
  have := checked_abs h h1
  rw [h2] at this
  exact (Option.some.inj this).symm

theorem each_mem_left {α β : Type} {R : α → β → Prop} {as : List α} {bs : List β} (h : Each R as bs) :
    ∀ a ∈ as, ∃ b ∈ bs, R a b := by
  induction h with
  | nil => nofun
  | cons h _ ih =>
    intro a ha
    rcases List.mem_cons.1 ha with rfl | ha
    · exact ⟨_, List.mem_cons_self, h⟩
    · obtain ⟨b, hb, hr⟩ := ih a ha
      exact ⟨b, List.mem_cons_of_mem _ hb, hr⟩

/-- The constraint as read from a text given to the solver. -/
def ReadText (sys : Sys) (ti : TableInfo) (text : Str) (c : Expr) : Prop :=
  ∃ e, parseConstraint sys .table ⟨text, { src := .tableName ti.name }⟩ = .ok e ∧
    inferAndCheck ti.source (.table ti.keysByName) e = .ok c

theorem run_reachable {z : Z3Oracle} {s : Solver} {texts : List Str} (hr : SolverRun z sys ti skip s texts) :
    ∃ ds, Reachable z sys ti (fun n => .ok (skip n)) s (ds ++ ti.constraint.toList) ∧ Each (ReadText sys ti) texts ds := by
  induction hr with
  | create h => exact ⟨[], .create h, .nil⟩
  | accepted _ h ih =>
    obtain ⟨ds, h1, h2⟩ := ih
    obtain ⟨ks, as, hi⟩ := reachable_inv h1
    rcases addConstraintStr_cases h with ⟨e, c, he, hc, _⟩ | ⟨hne, _⟩
    · rw [hi.table] at he hc
      exact ⟨c :: ds, .acceptedText h1 h he hc, .cons ⟨e, he, hc⟩ h2⟩
    · exact (hne rfl).elim
  | rejected _ h hn ih =>
    obtain ⟨ds, h1, h2⟩ := ih
    exact ⟨ds, .rejectedText h1 h hn, h2⟩
  | concretize _ h ih =>
    obtain ⟨ds, h1, h2⟩ := ih
    exact ⟨ds, .concretize h1 h, h2⟩

theorem inv_good {skip : Str → Res Bool} {ks : List (Str × SymKey)} {as : List (Term .bool)} {s : Solver} {cs : List Expr}
    (hi : SolverInv ti skip ks as s cs) (hwf : TableWF ti) {c : Expr} (hc : c ∈ cs) {se : SExpr}
    (hch : Checked (.table ti.keysByName) c se) : c.ty = .boolean ∧ Expressible ti (fun n => skip n = .ok true) se := by
  obtain ⟨ts, _, h1, _⟩ := hi.assertions
  obtain ⟨t, _, src, heval⟩ := h1 c hc
  obtain ⟨h2, h3⟩ := formula_known hch heval
  exact ⟨h2, (known_iff hi hwf se).1 h3⟩

include hk hm in
theorem inv_supported {ks : List (Str × SymKey)} {as : List (Term .bool)} {s : Solver} {cs : List Expr}
    (hi : SolverInv ti (fun n => .ok (skip n)) ks as s cs) (hwf : TableWF ti) : AllSupported d skip := by
  intro vs' hk' ki hki
  cases keys_same hk hk'
  rcases (hi.key hwf).1 ki.name ki ((hm.byName _ ki).2 ⟨hki, rfl⟩) with ⟨h1, _⟩ | ⟨_, k, a, h1, _⟩
  · exact .inl (skip_true.1 h1)
  · exact .inr (symSupported_iff.2 ⟨k, a, h1⟩)

include hk hm in
theorem solvable_names (hs : Solvable d skip) : NamesDistinct ti := by
  have hn : ∀ n ki, (n, ki) ∈ ti.keysByName → ∃ f ∈ d.matchFields, f.name = n := by
    intro n ki h
    obtain ⟨h1, rfl⟩ := (hm.byName n ki).1 h
    obtain ⟨f, h2, h3⟩ := each_mem hk ki h1
    exact ⟨f, h2, (keyDecl_name h3).1.symm⟩
  refine ⟨fun n ki h => ?_, fun n ki w h _ ki' h' => ?_⟩
  · obtain ⟨f, h1, rfl⟩ := hn n ki h
    exact hs.noNul f h1
  · obtain ⟨f, h1, rfl⟩ := hn n ki h
    obtain ⟨g, h2, h3⟩ := hn _ ki' h'
    exact (hs.noMask f h1 g h2 h3).elim

include hk hm in
theorem solvable_omittable (hs : Solvable d skip) : Omittable ti fun n => (.ok (skip n) : Res Bool) = .ok true := by
  intro n ki h h'
  obtain ⟨h1, rfl⟩ := (hm.byName n ki).1 h
  exact hs.omittable vs hk ki h1 (skip_true.1 h')

include hk hm in
theorem solvable_widths (hs : Solvable d skip) :
    ∀ n ki w, (n, ki) ∈ ti.keysByName → ki.ty = .lpm w → w ≤ 2147483647 := by
  intro n ki w h hw
  obtain ⟨h1, rfl⟩ := (hm.byName n ki).1 h
  obtain ⟨f, h2, h3⟩ := each_mem hk ki h1
  cases h3 <;> cases hw
  exact hs.widths _ h2

include h hk hm in
/-- The constraints of the solver hold of a canonical entry if it satisfies the constraint of the table and the texts. -/
theorem holds_iff {ks : List (Str × SymKey)} {as : List (Term .bool)} {s : Solver} {cs ds : List Expr} {entry : RtEntry}
    {ρ : Env} {texts : List Str} (hi : SolverInv ti (fun n => .ok (skip n)) ks as s cs)
    (hg : ∀ c ∈ ds ++ ti.constraint.toList, ∀ se, Checked (.table ti.keysByName) c se →
      c.ty = .boolean ∧ Expressible ti (fun n => (.ok (skip n) : Res Bool) = .ok true) se)
    (he : Each (ReadText sys ti) texts ds) (hd : NamesDistinct ti)
    (hcan : CanonicalEntry ti (fun n => (.ok (skip n) : Res Bool) = .ok true) entry)
    (hf : EntryFits vs entry) (henv : EntryEnv ti entry ρ)
    (hp : ∀ se, TableSays sys.inetPton6 d se → PlainOrder d se)
    (hpt : ∀ text ∈ texts, ∀ se, TextSays sys.inetPton6 d text se → PlainOrder d se) :
    (∀ c ∈ ds ++ ti.constraint.toList, ∀ se, Checked (.table ti.keysByName) c se →
      SignedHolds (sigOf (.table ti.keysByName)) ρ se) ↔
    (Attached .table d.preamble none ∨ TableValue sys.inetPton6 d entry true) ∧
      ∀ text ∈ texts, TextHolds sys.inetPton6 d text entry := by
  have hwf := parseTableInfo_wf h
  constructor
  · intro hall
    constructor
    · cases hc : ti.constraint with
      | none =>
        obtain ⟨_, _, _, _, h4⟩ := parseTableInfo_parts h
        rw [hc] at h4
        exact .inl (parseAndCheck_none h4)
      | some k =>
        right
        obtain ⟨vs', e, se, r⟩ := table_read h hc
        cases keys_same hk r.keys
        have hch : Checked (.table ti.keysByName) k se := ⟨_, e, r.typed, r.meant⟩
        have hmem : k ∈ ds ++ ti.constraint.toList := by simp [hc]
        obtain ⟨hb, hx⟩ := hg k hmem se hch
        have hread := r.read
        rw [hb] at hread
        have := (trueOf_iff hk hm hi hwf hd hcan hf henv hch hb hx (hp se ⟨vs, _, _, hk, hread⟩ vs hk)).1 (hall k hmem se hch)
        obtain ⟨vs', ρ', g1, g2, g3, g4⟩ := this
        cases keys_same hk g1
        exact ⟨vs, _, e, se, ρ', hk, hread, g2, g3, g4⟩
    · intro text ht
      obtain ⟨c, hc, e, h1, h2⟩ := each_mem_left he text ht
      obtain ⟨se, h3⟩ := parsed_abs h1
      have hch : Checked (.table ti.keysByName) c se := ⟨_, e, h2, h3⟩
      have hmem := List.mem_append_left ti.constraint.toList hc
      obtain ⟨hb, hx⟩ := hg c hmem se hch
      have hs : TextSays sys.inetPton6 d text se := (textSays_iff h hk hm).2 ⟨e, c, h1, h2, hb, h3⟩
      exact ⟨se, hs, (trueOf_iff hk hm hi hwf hd hcan hf henv hch hb hx (hpt text ht se hs vs hk)).1 (hall c hmem se hch)⟩
  · rintro ⟨ht, htx⟩ c hc se hch
    obtain ⟨hb, hx⟩ := hg c hc se hch
    rcases List.mem_append.1 hc with hc' | hc'
    · obtain ⟨text, h1, e, h2, h3⟩ := each_mem he c hc'
      obtain ⟨se', h4, h5⟩ := htx text h1
      obtain ⟨e', c', g1, g2, _, g3⟩ := (textSays_iff h hk hm).1 h4
      rw [h2] at g1
      cases g1
      cases checked_unique hch ⟨_, e, h3, g3⟩
      exact (trueOf_iff hk hm hi hwf hd hcan hf henv hch hb hx (hpt text h1 se h4 vs hk)).2 h5
    · have hc' : ti.constraint = some c := by simpa using hc'
      obtain ⟨vs', e, se', r⟩ := table_read h hc'
      cases keys_same hk r.keys
      cases checked_unique hch ⟨_, e, r.typed, r.meant⟩
      rcases ht with ha | ⟨vs', src', e', s', ρ', g1, g2, g3, g4, g5⟩
      · cases attached_unique ha r.attached
      · cases keys_same hk g1
        have hu := readConstraint_unique r.read g2
        simp only [Option.some.injEq, Prod.mk.injEq] at hu
        obtain ⟨rfl, rfl, rfl, _⟩ := hu
        exact (trueOf_iff hk hm hi hwf hd hcan hf henv hch hb hx (hp se ⟨vs, _, _, hk, g2⟩ vs hk)).2 ⟨vs, ρ', hk, g3, g4, g5⟩

end

section
variable {sys : Sys} {p : P4Info} {ci : ConstraintInfo} (h : p4ToConstraintInfo sys p = .ok ci) {d : TableDecl}
  (hd : d ∈ p.tables) {ti : TableInfo} (hti : lookup d.preamble.id ci.tables = some ti) {skip : Str → Bool}
  (hs : Solvable d skip) {z : Z3Oracle} (hz : z.Sound) (hdec : Z3Oracle.Decides z)

include h hd in
theorem accepted_of_table {entry : RtEntry} (ht : entry.tableId = d.preamble.id) (ha : Accepted sys.inetPton6 p entry) :
    Attached .table d.preamble none ∨ TableValue sys.inetPton6 d entry true := by
  obtain ⟨d', h1, h2, h3, _⟩ := ha
  obtain ⟨_, _, _, _, h4, _⟩ := p4ToConstraintInfo_ok.1 h
  cases inj_of_nodup_map h4 h1 hd (h2.trans ht)
  exact h3

include hd in
theorem table_accepted {entry : RtEntry} (ht : entry.tableId = d.preamble.id) (hact : entry.action = none)
    (ha : Attached .table d.preamble none ∨ TableValue sys.inetPton6 d entry true) : Accepted sys.inetPton6 p entry :=
  ⟨d, hd, ht.symm, ha, by rw [hact]; exact .none⟩

include h hd hti in
theorem declared_parse : parseTableInfo sys d = .ok ti := by
  obtain ⟨ti', h1, h2⟩ := table_declared h hd
  rw [hti] at h1
  cases h1
  exact h2

include h hd hti hs in
/-- A solver whose constraints can be satisfied has a solution. -/
theorem solution_of_model {s : Solver} {ks : List (Str × SymKey)} {as : List (Term .bool)} {ds : List Expr}
    {texts : List Str} (hi : SolverInv ti (fun n => .ok (skip n)) ks as s (ds ++ ti.constraint.toList))
    (he : Each (ReadText sys ti) texts ds)
    (hp : ∀ se, TableSays sys.inetPton6 d se → PlainOrder d se)
    (hpt : ∀ text ∈ texts, ∀ se, TextSays sys.inetPton6 d text se → PlainOrder d se)
    {m : Interp} (hm : ∀ a ∈ s.assertions, a.den m = true) :
    ∃ entry, Solution sys.inetPton6 p d skip texts entry := by
  have hpi := declared_parse h hd hti
  have hwf := parseTableInfo_wf hpi
  obtain ⟨vs, hk, _, hmaps, _⟩ := parseTableInfo_parts hpi
  obtain ⟨entry, ρ, hcan, hok, hact, henv, hcorr⟩ := model_env hi hwf (solvable_omittable hk hmaps hs)
    (solvable_widths hk hmaps hs) hm
  have hfor := (canonicalFor_iff hpi hk hmaps).1 hcan
  obtain ⟨h1, h2⟩ := (holds_iff hpi hk hmaps hi (fun c hc se hch => inv_good hi hwf hc hch) he
    (solvable_names hk hmaps hs) hcan ((entryOk_fits hmaps).1 hok) henv hp hpt).1
    (fun c hc se hch => model_holds hi hm hcorr hc hch)
  exact ⟨entry, hfor, table_accepted hd hfor.1 hact h1, h2⟩

include h hd hti hs in
theorem canonical_env (hsup : AllSupported d skip) {entry : RtEntry} (hc : CanonicalFor d skip entry) :
    ∃ vs ρ, Each KeyDecl d.matchFields vs ∧ Maps vs ti.keysById ti.keysByName ∧ EntryFits vs entry ∧ EntryEnv ti entry ρ := by
  have hpi := declared_parse h hd hti
  have hwf := parseTableInfo_wf hpi
  obtain ⟨vs, hk, _, hmaps, _⟩ := parseTableInfo_parts hpi
  obtain ⟨_, vs', hk', hover⟩ := hc
  cases keys_same hk hk'
  have hf := canonical_fits hover (hs.omittable vs hk) (hsup vs hk)
  obtain ⟨ctx, hctx⟩ := (parseTableEntry_iff hwf entry).2 ((entryOk_fits hmaps).2 hf)
  exact ⟨vs, _, hk, hmaps, hf, (parseTableEntry_env hwf hctx).1⟩

include h hd hti hs hz hdec in
theorem create_solves (hp : ∀ se, TableSays sys.inetPton6 d se → PlainOrder d se) :
    (∃ s, Solver.create z ti (fun n => .ok (skip n)) = .ok s) ↔
      AllSupported d skip ∧ (∀ se, TableSays sys.inetPton6 d se → Mentionable d skip se) ∧
      ∃ entry, Solution sys.inetPton6 p d skip [] entry := by
  have hpi := declared_parse h hd hti
  have hwf := parseTableInfo_wf hpi
  obtain ⟨vs, hk, _, hmaps, _⟩ := parseTableInfo_parts hpi
  constructor
  · rintro ⟨s, hc⟩
    have hr : Reachable z sys ti (fun n => .ok (skip n)) s ti.constraint.toList := .create hc
    obtain ⟨ks, as, hi⟩ := reachable_inv hr
    obtain ⟨m, hm⟩ := reachable_sat hz hwf hr
    refine ⟨inv_supported hk hmaps hi hwf, ?_, ?_⟩
    · rintro se ⟨vs', src, e, hk', hread⟩
      cases keys_same hk hk'
      cases hct : ti.constraint with
      | none =>
        obtain ⟨_, _, _, _, h4⟩ := parseTableInfo_parts hpi
        rw [hct] at h4
        cases hread with | some ha => cases attached_unique ha (parseAndCheck_none h4)
      | some c =>
        obtain ⟨vs', e', se', r⟩ := table_read hpi hct
        cases keys_same hk r.keys
        have hu := readConstraint_unique r.read hread
        simp only [Option.some.injEq, Prod.mk.injEq] at hu
        obtain ⟨rfl, rfl, rfl, _⟩ := hu
        exact (mentionable_iff hk hmaps).1 (inv_good hi hwf (by simp [hct]) ⟨_, e', r.typed, r.meant⟩).2
    · exact solution_of_model h hd hti hs (ds := []) hi .nil hp (by simp) hm
  · rintro ⟨hsup, hmen, entry, hcan, hacc, _⟩
    obtain ⟨vs', ρ, hk', _, hf, henv⟩ := canonical_env h hd hti hs hsup hcan
    cases keys_same hk hk'
    have hcan' := (canonicalFor_iff hpi hk hmaps).2 hcan
    have hsup' : KeysSupported ti (fun n => .ok (skip n)) := by
      intro n ki hmem
      obtain ⟨h1, rfl⟩ := (hmaps.byName n ki).1 hmem
      cases hsk : skip ki.name with
      | true => exact .inl (congrArg Res.ok hsk)
      | false =>
        refine .inr ⟨congrArg Res.ok hsk, ?_⟩
        rcases hsup vs hk ki h1 with h2 | h2
        · rw [hsk] at h2; cases h2
        · exact h2
    refine create_complete hz hdec hwf (solvable_names hk hmaps hs) hsup' hcan' henv ?_
    intro c hct
    obtain ⟨vs', e, se, r⟩ := table_read hpi hct
    cases keys_same hk r.keys
    have hch : Checked (.table ti.keysByName) c se := ⟨_, e, r.typed, r.meant⟩
    rcases accepted_of_table h hd hcan.1 hacc with ha | ⟨vs', src', e', s', ρ', g1, g2, g3, g4, g5⟩
    · cases attached_unique ha r.attached
    · cases keys_same hk g1
      have hu := readConstraint_unique r.read g2
      simp only [Option.some.injEq, Prod.mk.injEq] at hu
      obtain ⟨rfl, rfl, rfl, hb⟩ := hu
      have hsays : TableSays sys.inetPton6 d se := ⟨vs, _, _, hk, g2⟩
      have hx := (mentionable_iff hk hmaps).2 (hmen se hsays)
      obtain ⟨ks, as, hkeys⟩ := createKeys_total (ordered ti.keysByName) [] [] (skip := fun n => .ok (skip n)) (by
        intro n ki hmem
        rcases hsup' n ki (ordered_mem.1 hmem) with h | ⟨h, hs⟩
        · exact .inl h
        · exact .inr ⟨h, symSupported_iff.1 hs⟩)
      have h0 : SolverInv ti (fun n => .ok (skip n)) ks as (initSolver ti (fun n => .ok (skip n)) ks as) [] :=
        ⟨hkeys, rfl, rfl, rfl, [], by simp [initSolver], by simp, by simp⟩
      exact ⟨se, hch, hb, hx, (trueOf_iff hk hmaps h0 hwf (solvable_names hk hmaps hs) hcan' hf henv hch hb hx
        (hp se hsays vs hk)).2 ⟨vs, ρ', hk, g3, g4, g5⟩⟩

include h hd hti hs hz in
theorem concretize_solves {s s' : Solver} {texts : List Str} {entry : RtEntry} (hr : SolverRun z sys ti skip s texts)
    (hp : ∀ se, TableSays sys.inetPton6 d se → PlainOrder d se)
    (hpt : ∀ text ∈ texts, ∀ se, TextSays sys.inetPton6 d text se → PlainOrder d se)
    (hc : s.concretize z = (.ok entry, s')) : Solution sys.inetPton6 p d skip texts entry ∧ entry.action = none := by
  have hpi := declared_parse h hd hti
  have hwf := parseTableInfo_wf hpi
  obtain ⟨vs, hk, _, hmaps, _⟩ := parseTableInfo_parts hpi
  obtain ⟨ds, hre, he⟩ := run_reachable hr
  obtain ⟨ks, as, hi⟩ := reachable_inv hre
  obtain ⟨_, _, _, _, hcan, _⟩ := concretize_spec hi hz hwf hc
  obtain ⟨hok, hact, ρ, henv, hall⟩ := concretize_holds hi hz hwf (solvable_omittable hk hmaps hs) hc
  have hfor := (canonicalFor_iff hpi hk hmaps).1 hcan
  obtain ⟨h1, h2⟩ := (holds_iff hpi hk hmaps hi (fun c hc se hch => inv_good hi hwf hc hch) he
    (solvable_names hk hmaps hs) hcan ((entryOk_fits hmaps).1 hok) henv hp hpt).1 (fun c hc se hch => (hall c hc se hch).2)
  exact ⟨⟨hfor, table_accepted hd hfor.1 hact h1, h2⟩, hact⟩

include h hd hti hs hz hdec in
theorem concretize_always {s : Solver} {texts : List Str} (hr : SolverRun z sys ti skip s texts)
    (hip : Z3Oracle.InterpretsPriority z) : ∃ entry s', s.concretize z = (.ok entry, s') := by
  have hpi := declared_parse h hd hti
  have hwf := parseTableInfo_wf hpi
  obtain ⟨vs, hk, _, hmaps, _⟩ := parseTableInfo_parts hpi
  obtain ⟨ds, hre, he⟩ := run_reachable hr
  exact concretize_total hz hdec hip hwf (solvable_widths hk hmaps hs) hre

include h hd hti hs hz hdec in
theorem add_solves {s : Solver} {texts : List Str} {text : Str} (hr : SolverRun z sys ti skip s texts)
    (hp : ∀ se, TableSays sys.inetPton6 d se → PlainOrder d se)
    (hpt : ∀ t ∈ text :: texts, ∀ se, TextSays sys.inetPton6 d t se → PlainOrder d se) :
    ((∃ b, (s.addConstraintStr z sys text).1 = .ok b) ↔ ∃ se, TextSays sys.inetPton6 d text se ∧ Mentionable d skip se) ∧
    ((s.addConstraintStr z sys text).1 = .ok true ↔ (∃ se, TextSays sys.inetPton6 d text se ∧ Mentionable d skip se) ∧
      ∃ entry, Solution sys.inetPton6 p d skip (text :: texts) entry) := by
  have hpi := declared_parse h hd hti
  have hwf := parseTableInfo_wf hpi
  obtain ⟨vs, hk, _, hmaps, _⟩ := parseTableInfo_parts hpi
  have hnd := solvable_names hk hmaps hs
  obtain ⟨ds, hre, he⟩ := run_reachable hr
  obtain ⟨ks, as, hi⟩ := reachable_inv hre
  have hcs : ∀ c ∈ ds ++ ti.constraint.toList, ∃ se, Checked (.table ti.keysByName) c se := by
    intro c hc
    rcases List.mem_append.1 hc with hc | hc
    · obtain ⟨t, _, e, h1, h2⟩ := each_mem he c hc
      obtain ⟨se, h3⟩ := parsed_abs h1
      exact ⟨se, _, e, h2, h3⟩
    · have hc : ti.constraint = some c := by simpa using hc
      obtain ⟨_, e, se, r⟩ := table_read hpi hc
      exact ⟨se, _, e, r.typed, r.meant⟩
  have hsup := inv_supported hk hmaps hi hwf
  have hsays : ∀ se, TextSays sys.inetPton6 d text se → Mentionable d skip se →
      ∃ b, (s.addConstraintStr z sys text).1 = .ok b ∧
        (b = true ↔ ∃ entry, Solution sys.inetPton6 p d skip (text :: texts) entry) := by
    intro se hse hmen
    obtain ⟨e, c, h1, h2, h3, h4⟩ := (textSays_iff hpi hk hmaps).1 hse
    have hch : Checked (.table ti.keysByName) c se := ⟨_, e, h2, h4⟩
    have hx := (mentionable_iff hk hmaps).2 hmen
    obtain ⟨b, hb, hiff⟩ := add_exact hre hz hdec hwf hnd (solvable_omittable hk hmaps hs) (solvable_widths hk hmaps hs)
      hcs hch h3 hx ⟨text, { src := .tableName ti.name }⟩
    have heq : s.addConstraintStr z sys text = s.addConstraint z c ⟨text, { src := .tableName ti.name }⟩ := by
      unfold Solver.addConstraintStr
      rw [hi.table]
      dsimp only
      rw [h1, Res.ok_bind, h2]
    rw [heq]
    refine ⟨b, hb, hiff.trans ?_⟩
    have hg : ∀ c' ∈ (c :: ds) ++ ti.constraint.toList, ∀ se', Checked (.table ti.keysByName) c' se' →
        c'.ty = .boolean ∧ Expressible ti (fun n => (.ok (skip n) : Res Bool) = .ok true) se' := by
      intro c' hc' se' hch'
      rcases List.mem_cons.1 hc' with rfl | hc'
      · cases checked_unique hch hch'
        exact ⟨h3, hx⟩
      · exact inv_good hi hwf hc' hch'
    have he' : Each (ReadText sys ti) (text :: texts) (c :: ds) := .cons ⟨e, h1, h2⟩ he
    constructor
    · rintro ⟨entry, ρ, hcan, henv, hall⟩
      have hfor := (canonicalFor_iff hpi hk hmaps).1 hcan
      obtain ⟨vs', _, hk', _, hf, _⟩ := canonical_env h hd hti hs hsup hfor
      cases keys_same hk hk'
      obtain ⟨h5, h6⟩ := (holds_iff (s := s) hpi hk hmaps hi hg he' hnd hcan hf henv hp hpt).1 hall
      refine ⟨{ entry with action := none }, ⟨hfor.1, vs, hk, ?_⟩, table_accepted hd hfor.1 rfl ?_, ?_⟩
      · obtain ⟨_, vs', hk', hover⟩ := hfor
        cases keys_same hk hk'
        exact ⟨hover.keys, hover.once, hover.exact, hover.priority⟩
      · refine h5.imp id ?_
        rintro ⟨vs, src, e, s, ρ, g1, g2, g3, g4, g5⟩
        exact ⟨vs, src, e, s, ρ, g1, g2, ⟨g3.known, g3.once, g3.complete⟩, ⟨g4.key, g4.param, g4.priority⟩, g5⟩
      · intro t ht
        obtain ⟨s, g0, vs, ρ, g1, g3, g4, g5⟩ := h6 t ht
        exact ⟨s, g0, vs, ρ, g1, ⟨g3.known, g3.once, g3.complete⟩, ⟨g4.key, g4.param, g4.priority⟩, g5⟩
    · rintro ⟨entry, hcan, hacc, htx⟩
      obtain ⟨vs', ρ, hk', _, hf, henv⟩ := canonical_env h hd hti hs hsup hcan
      cases keys_same hk hk'
      have hcan' := (canonicalFor_iff hpi hk hmaps).2 hcan
      exact ⟨entry, ρ, hcan', henv, (holds_iff (s := s) hpi hk hmaps hi hg he' hnd hcan' hf henv hp hpt).2
        ⟨accepted_of_table h hd hcan.1 hacc, htx⟩⟩
  have hback : ∀ b, (s.addConstraintStr z sys text).1 = .ok b →
      ∃ se, TextSays sys.inetPton6 d text se ∧ Mentionable d skip se := by
    intro b hb
    have hcases : ∃ e c, parseConstraint sys .table ⟨text, { src := .tableName ti.name }⟩ = .ok e ∧
        inferAndCheck ti.source (.table ti.keysByName) e = .ok c ∧
        (s.addConstraint z c ⟨text, { src := .tableName ti.name }⟩).1 = .ok b := by
      unfold Solver.addConstraintStr at hb
      rw [hi.table] at hb
      dsimp only at hb
      split at hb
      · rename_i c hc
        rw [Res.bind_eq_ok] at hc
        obtain ⟨e, h1, h2⟩ := hc
        exact ⟨e, c, h1, h2, hb⟩
      all_goals cases hb
    obtain ⟨e, c, h1, h2, h3⟩ := hcases
    obtain ⟨se, h4⟩ := parsed_abs h1
    have hev : ∃ t, evaluateConstraintSymbolically c ⟨text, { src := .tableName ti.name }⟩ s.env = .ok t := by
      unfold Solver.addConstraint at h3
      dsimp only at h3
      split at h3
      · split at h3
        · exact ⟨_, by assumption⟩
        all_goals first | cases h3 | exact ⟨_, by assumption⟩
      all_goals cases h3
    obtain ⟨t, hev⟩ := hev
    have hch : Checked (.table ti.keysByName) c se := ⟨_, e, h2, h4⟩
    obtain ⟨h5, h6⟩ := formula_known hch hev
    exact ⟨se, (textSays_iff hpi hk hmaps).2 ⟨e, c, h1, h2, h5, h4⟩, (mentionable_iff hk hmaps).1 ((known_iff hi hwf se).1 h6)⟩
  constructor
  · constructor
    · rintro ⟨b, hb⟩
      exact hback b hb
    · rintro ⟨se, h1, h2⟩
      obtain ⟨b, h3, _⟩ := hsays se h1 h2
      exact ⟨b, h3⟩
  · constructor
    · intro hb
      obtain ⟨se, h1, h2⟩ := hback true hb
      obtain ⟨b, h3, h4⟩ := hsays se h1 h2
      rw [hb] at h3
      cases h3
      exact ⟨⟨se, h1, h2⟩, h4.1 rfl⟩
    · rintro ⟨⟨se, h1, h2⟩, h5⟩
      obtain ⟨b, h3, h4⟩ := hsays se h1 h2
      rw [h3, h4.2 h5]

end

end P4C
