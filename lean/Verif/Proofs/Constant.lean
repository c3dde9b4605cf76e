import Verif.Spec.Constant
import Verif.Proofs.ComposeVerdict
import Verif.Proofs.Express
import Verif.Proofs.Solve

/-!
# Comparisons of keys with constants
-/

namespace P4C

open Spec

theorem contains_typed {Γ : Sig} {e x : SExpr} {t : Ty} (h : Contains e x) (ht : HasTy Γ e t) : ∃ u, HasTy Γ x u := by
  induction h generalizing t with
  | here => exact ⟨t, ht⟩
  | not _ ih => cases ht with | not h => exact ih h
  | neg _ ih => cases ht with | neg h => exact ih h
  | connL _ ih => cases ht with | conn h _ => exact ih h
  | connR _ ih => cases ht with | conn _ h => exact ih h
  | cmpL _ ih => cases ht with | cmp h _ _ _ => exact ih h
  | cmpR _ ih => cases ht with | cmp _ h _ _ => exact ih h
  | field _ ih => cases ht with | field h _ => exact ih h

/-- No variable is boolean. -/
def NoBool (Γ : Sig) : Prop := (∀ n, Γ.key n ≠ some .boolean) ∧ ∀ n, Γ.param n ≠ some .boolean

theorem numeric_type {Γ : Sig} (hΓ : NoBool Γ) {x : SExpr} (hn : Numeric x) : ¬ HasTy Γ x .boolean := by
  intro h
  cases h with
  | bool | not | conn | cmp => cases hn
  | key h _ => exact hΓ.1 _ h
  | param h _ => exact hΓ.2 _ h
  | field _ h => cases h

theorem casts_boolean {t : Ty} (h : CastsTo .boolean t) : t = .boolean := by
  cases h with
  | refl => rfl
  | step h _ => cases h

theorem casts_to_boolean {t : Ty} (h : CastsTo t .boolean) : t = .boolean := by
  generalize hb : Ty.boolean = b at h
  induction h with
  | refl => rfl
  | step h1 _ ih =>
    cases ih hb
    subst hb
    cases h1

theorem withBool_untyped {Γ : Sig} (hΓ : NoBool Γ) {x : SExpr} (h : WithBool x) (t : Ty) : ¬ HasTy Γ x t := by
  intro ht
  cases h with
  | left _ b hn =>
    cases ht with
    | cmp h1 h2 h3 _ =>
      cases h1
      cases casts_boolean h3.1
      cases casts_to_boolean h3.2.1
      exact numeric_type hΓ hn h2
  | right _ b hn =>
    cases ht with
    | cmp h1 h2 h3 _ =>
      cases h2
      cases casts_boolean h3.2.1
      cases casts_to_boolean h3.1
      exact numeric_type hΓ hn h1

theorem keySig_noBool {fs : List MatchField} {vs : List VarInfo} (h : Each KeyDecl fs vs) : NoBool (keySig vs) := by
  refine ⟨fun n hn => ?_, nofun⟩
  simp only [keySig, Option.map_eq_some_iff] at hn
  obtain ⟨v, h1, h2⟩ := hn
  obtain ⟨f, _, hf⟩ := each_mem h v (List.mem_of_find?_eq_some h1)
  cases hf <;> cases h2

theorem paramSig_noBool {fs : List ParamDecl} {vs : List VarInfo} (h : Each ParamIs fs vs) : NoBool (paramSig vs) := by
  refine ⟨nofun, fun n hn => ?_⟩
  simp only [paramSig, Option.map_eq_some_iff] at hn
  obtain ⟨v, h1, h2⟩ := hn
  obtain ⟨f, _, hf⟩ := each_mem h v (List.mem_of_find?_eq_some h1)
  cases hf <;> cases h2

theorem spelled_read {pton : Str → Option Bytes} {k : ConstraintKind} {Γ : Sig} {p : Preamble} {s : SExpr}
    {r : Option (ConstraintSource × Expr × SExpr × Ty)} (h : Spelled pton k p s) (hr : ReadConstraint pton k Γ p r) :
    ∃ t, HasTy Γ s t := by
  obtain ⟨src, ts, e, h1, h2, h3, h4⟩ := h
  cases hr with
  | none h5 => cases attached_unique h1 h5
  | @some src' ts' e' s' t h5 h6 h7 h8 h9 =>
    cases attached_unique h1 h5
    cases (tokenize_iff (src := src)).2 h2 |>.symm.trans ((tokenize_iff (src := src)).2 h6)
    have e1 : parseConstraint ⟨pton⟩ k src = .ok e := parseConstraint_iff.2 (by rwa [(tokenize_iff (src := src)).2 h2])
    have e2 : parseConstraint ⟨pton⟩ k src = .ok e' := parseConstraint_iff.2 (by rwa [(tokenize_iff (src := src)).2 h2])
    rw [e1] at e2
    cases e2
    rw [h4] at h8
    cases h8
    exact ⟨t, h9⟩

/-! ### Equality with a constant -/

theorem integer_value {Γ : Sig} {ρ : Env} {e : SExpr} {c : Int} (h : IsInteger e c) :
    Evaluates Γ ρ e .arbitraryInt (.int c) := by
  induction h with
  | int c => exact .int c
  | neg _ ih => exact .neg ih

theorem integer_unique {Γ : Sig} {ρ : Env} {e : SExpr} {c : Int} (h : IsInteger e c) {t : Ty} {v : Value}
    (hv : Evaluates Γ ρ e t v) : t = .arbitraryInt ∧ v = .int c := by
  have := evaluates_unique hv (integer_value h)
  exact this

theorem equals_iff {Γ : Sig} {ρ : Env} {n : Str} {e : SExpr} {c : Int} {t : Ty} {v : Value} (hk : Γ.key n = some t)
    (hv : ρ.key n = some v) (hl : IsInteger e c) (hj : IsJoin t .arbitraryInt t) :
    Evaluates Γ ρ (.cmp .eq (.key n) e) .boolean (.bool true) ↔ v = convert .arbitraryInt t (.int c) := by
  constructor
  · intro h
    generalize hb : Value.bool true = b at h
    cases h with
    | cmp h1 h2 h3 _ h5 =>
      cases hb
      obtain ⟨rfl, rfl⟩ := integer_unique hl h2
      cases h1 with
      | key h6 h7 =>
        rw [hk] at h6; cases h6
        rw [hv] at h7; cases h7
        cases isJoin_unique hj h3
        simpa [compareVals, convert] using h5
  · intro h
    refine .cmp (.key hk hv) (integer_value hl) hj (by nofun) ?_
    simp only [compareVals, ← h, Option.some.injEq]
    simp [convert]

theorem join_key {f : MatchField} {v : VarInfo} (h : KeyDecl f v) (hs : Supported v.ty) : IsJoin v.ty .arbitraryInt v.ty := by
  cases h <;> first | exact absurd rfl (hs.2 _) | exact lub_iff.1 (by simp [leastUpperBound, strictlyAbove])

theorem mask_pos {w : Int} (h : 0 < w) : (0 : Int) < 2 ^ w.toNat - 1 := by
  obtain ⟨k, hk⟩ : ∃ k, w.toNat = k + 1 := ⟨w.toNat - 1, by omega⟩
  have : (0 : Int) < 2 ^ k := Int.pow_pos (by decide)
  rw [hk, Int.pow_succ]
  omega

theorem denotes_only {f : MatchField} {ki : VarInfo} (h : KeyDecl f ki) (hpos : 0 < f.bitwidth) {mv : MatchVal} {v : Value}
    (hv : MatchDenotes ki.ty mv v) (c : Int) :
    v = convert .arbitraryInt ki.ty (.int c) ↔ MatchesOnly f mv (c % 2 ^ f.bitwidth.toNat) := by
  cases h with
  | exact id n w =>
    cases hv
    simp only [convert, exactMatch, reduceCtorEq, if_false, Value.exact.injEq]
    exact ⟨.exact, fun h => by cases h; assumption⟩
  | ternary id n w =>
    cases hv
    simp only [convert, exactMatch, reduceCtorEq, if_false, Value.ternary.injEq]
    exact ⟨fun h => .ternary h.1 h.2, fun h => by cases h; exact ⟨by assumption, by assumption⟩⟩
  | lpm id n w =>
    cases hv
    simp only [convert, exactMatch, reduceCtorEq, if_false, Value.lpm.injEq]
    exact ⟨fun h => by obtain ⟨h1, rfl⟩ := h; exact .lpm h1, fun h => by cases h; exact ⟨by assumption, rfl⟩⟩
  | range id n w =>
    cases hv
    simp only [convert, exactMatch, reduceCtorEq, if_false, Value.range.injEq]
    exact ⟨fun h => .range h.1 h.2, fun h => by cases h; exact ⟨by assumption, by assumption⟩⟩
  | optional id n w =>
    cases hv
    simp only [convert, exactMatch, reduceCtorEq, if_false, Value.ternary.injEq]
    exact ⟨fun h => .optional h.1, fun h => by cases h; exact ⟨by assumption, by simp⟩⟩
  | other => cases hv

theorem wildcard_not {f : MatchField} {ki : VarInfo} (h : KeyDecl f ki) (hpos : 0 < f.bitwidth) {v : Value}
    (hv : WildcardOf ki.ty v) (c : Int) : v ≠ convert .arbitraryInt ki.ty (.int c) := by
  have := mask_pos hpos
  cases h <;> cases hv <;>
    simp only [convert, exactMatch, reduceCtorEq, if_false, Value.ternary.injEq, Value.lpm.injEq, Value.range.injEq, ne_eq] at this ⊢ <;>
    simp only [Int.toNat_natCast] at * <;> omega

/-- Which values are those of the constant. -/
theorem keyValue_only {f : MatchField} {ki : VarInfo} (h : KeyDecl f ki) (hpos : 0 < f.bitwidth) {entry : RtEntry}
    {v : Value} (hv : KeyValue entry ki v) (hf : (entry.matches_.map FieldMatch.fieldId).Nodup) (c : Int) :
    v = convert .arbitraryInt ki.ty (.int c) ↔
      ∃ m ∈ entry.matches_, m.fieldId = f.id ∧ MatchesOnly f m.val (c % 2 ^ f.bitwidth.toNat) := by
  have hid : ki.id = f.id := by cases h <;> rfl
  rcases hv with ⟨m, hm, h1, h2⟩ | ⟨h1, h2⟩
  · rw [denotes_only h hpos h2]
    constructor
    · exact fun h3 => ⟨m, hm, h1.trans hid, h3⟩
    · rintro ⟨m', hm', h3, h4⟩
      rwa [inj_of_nodup_map hf hm hm' (h1.trans (hid.trans h3.symm))]
  · constructor
    · exact fun h3 => absurd h3 (wildcard_not h hpos h2 c)
    · rintro ⟨m', hm', h3, _⟩
      exact absurd (h3.trans hid.symm) (h1 m' hm')

theorem means_exists {sys : Sys} {p : P4Info} {ci : ConstraintInfo} (h : p4ToConstraintInfo sys p = .ok ci) {d : TableDecl}
    (hd : d ∈ p.tables) {vs : List VarInfo} (hk : Each KeyDecl d.matchFields vs) {entry : RtEntry} (hf : EntryFits vs entry) :
    ∃ ρ, EntryMeans vs entry ρ := by
  obtain ⟨ti, _, hp⟩ := table_declared h hd
  obtain ⟨vs', g1, _, g3, _⟩ := parseTableInfo_parts hp
  cases each_unique (R := KeyDecl) (fun _ _ _ => keyDecl_unique) hk g1
  have hwf := parseTableInfo_wf hp
  obtain ⟨ctx, hc⟩ := (parseTableEntry_iff hwf entry).2 ((entryOk_fits g3).2 hf)
  exact ⟨_, (entryEnv_means g3).1 (parseTableEntry_env hwf hc).1⟩

theorem entryMeans_det {vs : List VarInfo} {entry : RtEntry} {ρ σ : Env} (h : EntryMeans vs entry ρ) (h' : EntryMeans vs entry σ) :
    ρ = σ := by
  obtain ⟨k, p, q⟩ := ρ
  obtain ⟨k', p', q'⟩ := σ
  have e1 : k = k' := funext fun n => Option.ext fun v => by rw [h.key n v, h'.key n v]
  have e2 : p = p' := funext fun n => (h.param n).trans (h'.param n).symm
  have e3 : q = q' := h.priority.trans h'.priority.symm
  rw [e1, e2, e3]

section
variable {sys : Sys} {p : P4Info} {ci : ConstraintInfo} (h : p4ToConstraintInfo sys p = .ok ci) (hw : NonNegProgram p)
  {d : TableDecl} (hd : d ∈ p.tables) {vs : List VarInfo} (hv : Each KeyDecl d.matchFields vs) {entry : RtEntry}
  (hfit : EntryFits vs entry) (hid : entry.tableId = d.preamble.id) (ha : entry.action = none)

include h hw hd hv hfit hid ha in
/-- The verdict is the value of what the constraint says. -/
theorem reason_value {s : SExpr} (hs : TableSays sys.inetPton6 d s) {ρ : Env} (hρ : EntryMeans vs entry ρ) :
    reasonEntryViolatesConstraint entry ci = .ok [] ↔ Evaluates (keySig vs) ρ s .boolean (.bool true) := by
  obtain ⟨vs', src, e, hv', hr⟩ := hs
  cases each_unique (R := KeyDecl) (fun _ _ _ => keyDecl_unique) hv hv'
  obtain ⟨hnd, _⟩ := p4ToConstraintInfo_succeeds.1 ⟨ci, h⟩
  rw [reason_accepts h hw]
  constructor
  · rintro ⟨d', hd', hid', hx, _⟩
    cases inj_of_nodup_map hnd hd hd' (by rw [hid', hid])
    rcases hx with hx | hx
    · cases hr with
      | some h5 => cases attached_unique hx h5
    · obtain ⟨_, _, ρ', hρ', hev⟩ := (tableValue_iff hv hr true).1 hx
      rwa [entryMeans_det hρ hρ']
  · intro hev
    exact ⟨d, hd, hid.symm, .inr ((tableValue_iff hv hr true).2 ⟨rfl, hfit, ρ, hρ, hev⟩), ha ▸ .none⟩

include h hd hv in
theorem declared_distinct : Distinct vs := by
  obtain ⟨_, _, hgood, _⟩ := p4ToConstraintInfo_succeeds.1 ⟨ci, h⟩
  obtain ⟨vs', r, hv', hdist, _⟩ := hgood d hd
  cases each_unique (R := KeyDecl) (fun _ _ _ => keyDecl_unique) hv hv'
  exact hdist

include hv in
theorem says_typed {s : SExpr} (hs : TableSays sys.inetPton6 d s) : HasTy (keySig vs) s .boolean := by
  obtain ⟨vs', src, e, hv', hr⟩ := hs
  cases each_unique (R := KeyDecl) (fun _ _ _ => keyDecl_unique) hv hv'
  cases hr with
  | some _ _ _ _ h9 => exact h9

include h hw hd hv hfit hid ha in
theorem equals_reason {f : MatchField} (hf : f ∈ d.matchFields) (hpos : 0 < f.bitwidth)
    {e : SExpr} {c : Int} (hl : IsInteger e c) (hs : TableSays sys.inetPton6 d (.cmp .eq (.key f.name) e)) :
    reasonEntryViolatesConstraint entry ci = .ok [] ↔
      ∃ m ∈ entry.matches_, m.fieldId = f.id ∧ MatchesOnly f m.val (c % 2 ^ f.bitwidth.toNat) := by
  have hdist := declared_distinct h hd hv
  obtain ⟨ki, hki, hfk⟩ := each_mem_left hv f hf
  have hname := (keyDecl_name hfk).1
  have hsig := keySig_of_mem hdist hki
  rw [hname] at hsig
  obtain ⟨ρ, hρ⟩ := means_exists h hd hv hfit
  obtain ⟨v, hval⟩ := hasValue hdist.1 hfit hki
  have hρv : ρ.key f.name = some v := (hρ.key _ _).2 ⟨ki, hki, hname, hval⟩
  have hsup : Supported ki.ty := by
    cases says_typed hv hs with
    | cmp h1 _ _ _ =>
      cases h1 with
      | key h2 h3 => rw [hsig] at h2; cases h2; exact h3
  rw [← keyValue_only hfk hpos hval hfit.once, ← equals_iff hsig hρv hl (join_key hfk hsup),
    reason_value h hw hd hv hfit hid ha hs hρ]

/-! ### Fields -/

omit h hw hd hv hfit hid ha in
theorem compare_ints {o : Cmp} {a b : Int} : compareVals o (.int a) (.int b) = some true ↔ o.ofInts a b := by
  cases o <;> simp [compareVals, orderKey, Cmp.ofInts]

omit h hw hd hv hfit hid ha in
/-- Which numbers the fields are, and with which they are compared. -/
theorem fieldTy_join {f : MatchField} {ki : VarInfo} (hk : KeyDecl f ki) {g : Str} {t : Ty} (ht : FieldTy ki.ty g t) :
    IsJoin t .arbitraryInt t ∧ (∀ n, t ≠ .exact n) ∧ ∀ c, convert .arbitraryInt t (.int c) = .int (written f g c) := by
  cases hk <;> cases ht <;>
    exact ⟨lub_iff.1 (by simp [leastUpperBound, strictlyAbove]), by nofun, fun c => by simp [convert, written]⟩

omit h hw hd hv hfit hid ha in
theorem field_iff {Γ : Sig} {ρ : Env} {n g : Str} {e : SExpr} {c : Int} {t : Ty} {v : Value} {o : Cmp} {f : MatchField}
    {ki : VarInfo} (hk : KeyDecl f ki) (hs : Γ.key n = some ki.ty) (hv : ρ.key n = some v) (hl : IsInteger e c)
    (ht : FieldTy ki.ty g t) :
    Evaluates Γ ρ (.cmp o (.field (.key n) g) e) .boolean (.bool true) ↔
      ∃ z, FieldVal v g z ∧ o.ofInts z (written f g c) := by
  obtain ⟨hj, hne, hc⟩ := fieldTy_join hk ht
  constructor
  · intro h
    generalize hb : Value.bool true = b at h
    cases h with
    | cmp h1 h2 h3 _ h5 =>
      cases hb
      obtain ⟨rfl, rfl⟩ := integer_unique hl h2
      cases h1 with
      | field h6 h7 h8 =>
        cases h6 with
        | key h9 h10 =>
          rw [hs] at h9; cases h9
          rw [hv] at h10; cases h10
          cases fieldTy_unique ht h7
          cases isJoin_unique hj h3
          rw [hc] at h5
          exact ⟨_, h8, compare_ints.1 (by simpa [convert] using h5)⟩
  · rintro ⟨z, hz, ho⟩
    refine .cmp (.field (.key hs hv) ht hz) (integer_value hl) hj (fun _ => hne) ?_
    rw [hc]
    simpa [convert] using compare_ints.2 ho

omit h hw hd hv hfit hid ha in
theorem inMatch_iff {f : MatchField} {ki : VarInfo} (hk : KeyDecl f ki) {mv : MatchVal} {v : Value}
    (hv : MatchDenotes ki.ty mv v) {g : Str} {z : Int} : FieldVal v g z ↔ InMatch f.bitwidth mv g z := by
  cases hk <;> cases hv <;> constructor <;> intro h <;> cases h <;> constructor

omit h hw hd hv hfit hid ha in
theorem inOmitted_iff {f : MatchField} {ki : VarInfo} (hk : KeyDecl f ki) {v : Value} (hv : WildcardOf ki.ty v) {g : Str}
    {z : Int} : FieldVal v g z ↔ InOmitted f.bitwidth f.kind g z := by
  cases hk <;> cases hv <;> constructor <;> intro h <;> cases h <;> constructor

omit h hw hd hv hfit hid ha in
theorem fieldNumber_iff {f : MatchField} {ki : VarInfo} (hk : KeyDecl f ki) {v : Value} (hv : KeyValue entry ki v)
    (hf : (entry.matches_.map FieldMatch.fieldId).Nodup) {g : Str} {z : Int} : FieldVal v g z ↔ FieldNumber f g entry z := by
  have hid : ki.id = f.id := by cases hk <;> rfl
  rcases hv with ⟨m, hm, h1, h2⟩ | ⟨h1, h2⟩
  · rw [inMatch_iff hk h2]
    constructor
    · exact fun h3 => .inl ⟨m, hm, h1.trans hid, h3⟩
    · rintro (⟨m', hm', h3, h4⟩ | ⟨h3, _⟩)
      · rwa [inj_of_nodup_map hf hm hm' (h1.trans (hid.trans h3.symm))]
      · exact absurd (h1.trans hid) (h3 m hm)
  · rw [inOmitted_iff hk h2]
    constructor
    · exact fun h3 => .inr ⟨fun m hm => hid ▸ h1 m hm, h3⟩
    · rintro (⟨m', hm', h3, _⟩ | ⟨_, h3⟩)
      · exact absurd (h3.trans hid.symm) (h1 m' hm')
      · exact h3

include h hw hd hv hfit hid ha in
theorem field_reason {f : MatchField} (hf : f ∈ d.matchFields) {o : Cmp} {g : Str}
    {e : SExpr} {c : Int} (hl : IsInteger e c) (hs : TableSays sys.inetPton6 d (.cmp o (.field (.key f.name) g) e)) :
    reasonEntryViolatesConstraint entry ci = .ok [] ↔ ∃ z, FieldNumber f g entry z ∧ o.ofInts z (written f g c) := by
  have hdist := declared_distinct h hd hv
  obtain ⟨ki, hki, hfk⟩ := each_mem_left hv f hf
  have hname := (keyDecl_name hfk).1
  have hsig := keySig_of_mem hdist hki
  rw [hname] at hsig
  obtain ⟨ρ, hρ⟩ := means_exists h hd hv hfit
  obtain ⟨v, hval⟩ := hasValue hdist.1 hfit hki
  have hρv : ρ.key f.name = some v := (hρ.key _ _).2 ⟨ki, hki, hname, hval⟩
  obtain ⟨t, ht⟩ : ∃ t, FieldTy ki.ty g t := by
    cases says_typed hv hs with
    | cmp h1 _ _ _ =>
      cases h1 with
      | field h2 h3 =>
        cases h2 with
        | key h4 _ => rw [hsig] at h4; cases h4; exact ⟨_, h3⟩
  simp only [reason_value h hw hd hv hfit hid ha hs hρ, field_iff hfk hsig hρv hl ht, fieldNumber_iff hfk hval hfit.once]

omit h hw hd hv hfit hid ha in
theorem hasField_of {f : MatchField} {ki : VarInfo} (hk : KeyDecl f ki) {g : Str} {t : Ty} (ht : FieldTy ki.ty g t) :
    HasField f.kind g := by
  cases hk <;> cases ht <;> constructor

omit h hw hd hv hfit hid ha in
/-- Fields of keys that occur in well-typed constraints. -/
theorem field_exists (hdist : Distinct vs) (hv : Each KeyDecl d.matchFields vs) {f : MatchField} (hf : f ∈ d.matchFields) {g : Str}
    {s : SExpr} {t : Ty} (hs : HasTy (keySig vs) s t) (hc : Contains s (.field (.key f.name) g)) : HasField f.kind g := by
  obtain ⟨u, hu⟩ := contains_typed hc hs
  obtain ⟨ki, hki, hfk⟩ := each_mem_left hv f hf
  have hsig := keySig_of_mem hdist hki
  rw [(keyDecl_name hfk).1] at hsig
  cases hu with
  | field h2 h3 =>
    cases h2 with
    | key h4 _ => rw [hsig] at h4; cases h4; exact hasField_of hfk h3

omit h hw hd hv hfit hid ha in
/-- Every field of a key has one number. -/
theorem fieldNumber_exists (hdist : Distinct vs) (hv : Each KeyDecl d.matchFields vs) (hfit : EntryFits vs entry) {f : MatchField}
    (hf : f ∈ d.matchFields) {g : Str} (hg : HasField f.kind g) : ∃ z, ∀ y, FieldNumber f g entry y ↔ y = z := by
  obtain ⟨ki, hki, hfk⟩ := each_mem_left hv f hf
  obtain ⟨v, hval⟩ := hasValue hdist.1 hfit hki
  simp only [← fieldNumber_iff hfk hval hfit.once]
  have typed : (∃ mv, MatchDenotes ki.ty mv v) ∨ WildcardOf ki.ty v := by
    rcases hval with ⟨m, _, _, h2⟩ | ⟨_, h2⟩
    · exact .inl ⟨_, h2⟩
    · exact .inr h2
  have unique : ∀ {y z}, FieldVal v g z → FieldVal v g y → y = z := by
    intro y z h1 h2
    cases h1 <;> cases h2 <;> rfl
  suffices ∃ z, FieldVal v g z by
    obtain ⟨z, hz⟩ := this
    exact ⟨z, fun y => ⟨unique hz, fun e => e ▸ hz⟩⟩
  rcases typed with ⟨mv, h2⟩ | h2 <;> cases hfk <;> cases h2 <;> cases hg <;> exact ⟨_, by constructor⟩

include h hw hd hv hfit hid ha in
/-- Masks of optional matches. -/
theorem optional_reason {id : Nat} {name : Str} {w : Int} (hf : ⟨id, name, w, .matchType .optional⟩ ∈ d.matchFields)
    (hs : TableSays sys.inetPton6 d (.conn .or (.cmp .eq (.field (.key name) c!"mask") (.int 0))
      (.cmp .eq (.field (.key name) c!"mask") (.neg (.int 1))))) :
    reasonEntryViolatesConstraint entry ci = .ok [] := by
  have hdist := declared_distinct h hd hv
  obtain ⟨ki, hki, hfk⟩ := each_mem_left hv _ hf
  have hsig := keySig_of_mem hdist hki
  have hname := (keyDecl_name hfk).1
  rw [hname] at hsig
  obtain ⟨ρ, hρ⟩ := means_exists h hd hv hfit
  obtain ⟨v, hval⟩ := hasValue hdist.1 hfit hki
  have hρv : ρ.key name = some v := (hρ.key _ _).2 ⟨ki, hki, hname, hval⟩
  have ht : FieldTy ki.ty c!"mask" (.fixedUnsigned w) := by cases hfk; exact .optionalMask w
  rw [reason_value h hw hd hv hfit hid ha hs hρ]
  have hpow : (0 : Int) < 2 ^ w.toNat := Int.pow_pos (by decide)
  obtain ⟨hj, hne, hc⟩ := fieldTy_join hfk ht
  have key : ∀ {e : SExpr} {c z : Int}, IsInteger e c → FieldVal v c!"mask" z →
      Evaluates (keySig vs) ρ (.cmp .eq (.field (.key name) c!"mask") e) .boolean (.bool (decide (z = c % 2 ^ w.toNat))) := by
    intro e c z hl hz
    refine .cmp (.field (.key hsig hρv) ht hz) (integer_value hl) hj (fun _ => hne) ?_
    rw [hc]
    simp [convert, compareVals, written]
  have both : ∀ {z : Int}, FieldVal v c!"mask" z → z = 0 ∨ z = 2 ^ w.toNat - 1 →
      Evaluates (keySig vs) ρ (.conn .or (.cmp .eq (.field (.key name) c!"mask") (.int 0))
        (.cmp .eq (.field (.key name) c!"mask") (.neg (.int 1)))) .boolean (.bool true) := by
    intro z hz hor
    have := Evaluates.conn (o := .or) (key (.int 0) hz) (key (.neg (.int 1)) hz)
    have e1 : (-1 : Int) % 2 ^ w.toNat = 2 ^ w.toNat - 1 := by
      rw [← Int.add_emod_right, Int.emod_eq_of_lt] <;> omega
    have e2 : Spec.Conn.apply .or (decide (z = 0 % 2 ^ w.toNat)) (decide (z = -1 % 2 ^ w.toNat)) = true := by
      rw [e1]
      rcases hor with rfl | rfl <;> simp [Spec.Conn.apply]
    rwa [e2] at this
  cases hfk with
  | optional =>
    rcases hval with ⟨m, _, _, h2⟩ | ⟨_, h2⟩
    · generalize m.val = mv at h2
      cases h2 with
      | optional n v => exact both (.ternaryMask _ _) (.inr rfl)
    · cases h2
      exact both (.ternaryMask _ _) (.inl rfl)

end

end P4C
