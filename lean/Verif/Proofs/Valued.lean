import Verif.Spec.Valued
import Verif.Proofs.Found
import Verif.Proofs.Small
import Verif.Proofs.Express

/-
Ordering the values of exact keys instead of the keys (C112).
-/

namespace P4C

open Spec

/-- `bit<W>` for `exact<W>`. -/
def bitTyOf : Ty → Ty
  | .exact w => .fixedUnsigned w
  | t => t

/-- The number in an exact match. -/
def numberOf : Value → Value
  | .exact v => .int v
  | v => v

theorem isJoin_self (t : Ty) : IsJoin t t t := ⟨.refl _, .refl _, fun _ h _ => h⟩

theorem isJoin_intBit (w : Int) : IsJoin .arbitraryInt (.fixedUnsigned w) (.fixedUnsigned w) :=
  ⟨.step (.intBit w) (.refl _), .refl _, fun _ _ h => h⟩

theorem isJoin_swap {a b t : Ty} (h : IsJoin a b t) : IsJoin b a t := ⟨h.2.1, h.1, fun u x y => h.2.2 u y x⟩

theorem casts_exact {a : Ty} {w : Int} (h : CastsTo a (.exact w)) : a = .exact w ∨ a = .fixedUnsigned w ∨ a = .arbitraryInt := by
  cases h with
  | refl => exact .inl rfl
  | step h1 h2 =>
    cases h1 with
    | intBit => exact .inr (.inr rfl)
    | bitExact w' =>
      cases h2 with
      | refl => exact .inr (.inl rfl)
      | step h3 => cases h3
    | _ =>
      cases h2 with
      | step h3 => cases h3

theorem casts_bit {a : Ty} {w : Int} (h : CastsTo a (.fixedUnsigned w)) : a = .fixedUnsigned w ∨ a = .arbitraryInt := by
  cases h with
  | refl => exact .inl rfl
  | step h1 h2 =>
    cases h1 with
    | intBit => exact .inr rfl
    | _ =>
      cases h2 with
      | step h3 => cases h3

theorem casts_int {a : Ty} (h : CastsTo a .arbitraryInt) : a = .arbitraryInt := by
  cases h with
  | refl => rfl
  | step h1 h2 =>
    cases h1 with
    | intBit =>
      cases h2 with
      | step h3 h4 =>
        cases h3 <;> cases h4 with
        | step h5 => cases h5
    | _ =>
      cases h2 with
      | step h3 => cases h3

theorem join_bitTyOf {a b t : Ty} (h : IsJoin a b t) (ho : Ordered t) : IsJoin (bitTyOf a) (bitTyOf b) (bitTyOf t) := by
  cases ho with
  | int => cases casts_int h.1; cases casts_int h.2.1; exact h
  | bit w =>
    rcases casts_bit h.1 with rfl | rfl <;> rcases casts_bit h.2.1 with rfl | rfl <;> exact h
  | exact w =>
    rcases casts_exact h.1 with rfl | rfl | rfl <;> rcases casts_exact h.2.1 with rfl | rfl | rfl <;>
      first
        | exact isJoin_self _
        | exact isJoin_intBit _
        | exact isJoin_swap (isJoin_intBit _)
        | (rcases isJoin_cases h with h | h <;> cases h)

theorem bitTyOf_ordered {t : Ty} (h : Ordered t) : Ordered (bitTyOf t) := by
  cases h with
  | int => exact .int
  | bit w => exact .bit w
  | exact w => exact .bit w

theorem orderKey_bitTyOf {a t : Ty} {v : Value} (hv : HasShape a v) (hc : CastsTo a t) (ho : Ordered t) :
    orderKey (convert (bitTyOf a) (bitTyOf t) (numberOf v)) = orderKey (convert a t v) := by
  cases ho with
  | int => cases casts_int hc; cases hv; rfl
  | bit w => rcases casts_bit hc with rfl | rfl <;> cases hv <;> rfl
  | exact w =>
    rcases casts_exact hc with rfl | rfl | rfl <;> cases hv <;> simp [bitTyOf, numberOf, convert, orderKey, exactMatch]

theorem compare_bitTyOf {o : Cmp} (hio : o.isOrder = true) {a b t : Ty} {v w : Value} (hv : HasShape a v) (hw : HasShape b w)
    (hj : IsJoin a b t) (ho : Ordered t) :
    compareVals o (convert (bitTyOf a) (bitTyOf t) (numberOf v)) (convert (bitTyOf b) (bitTyOf t) (numberOf w)) =
      compareVals o (convert a t v) (convert b t w) := by
  cases o <;> simp only [Cmp.isOrder, Bool.false_eq_true] at hio <;>
    simp only [compareVals, orderKey_bitTyOf hv hj.1 ho, orderKey_bitTyOf hw hj.2.1 ho]

section
variable {vs : List VarInfo}

theorem asValue_exact {n : Str} {w : Int} {Γ : Sig} (h : Γ.key n = some (.exact w)) :
    asValue Γ (.key n) = .field (.key n) c!"value" := by
  simp [asValue, h]

theorem asValue_other {s : SExpr} {t : Ty} {Γ : Sig} (h : HasTy Γ s t) (hx : ∀ w, t ≠ .exact w) : asValue Γ s = s := by
  cases h with
  | key h1 =>
    unfold asValue
    dsimp only
    rw [h1]
    cases t <;> first | rfl | exact (hx _ rfl).elim
  | _ => rfl

theorem exact_key {s : SExpr} {w : Int} (h : HasTy (keySig vs) s (.exact w)) : ∃ n, s = .key n ∧ (keySig vs).key n = some (.exact w) := by
  cases h with
  | key h1 => exact ⟨_, rfl, h1⟩
  | param h1 => cases h1
  | field _ h1 => cases h1

theorem asValue_typed {s : SExpr} {t : Ty} (h : HasTy (keySig vs) s t) : HasTy (keySig vs) (asValue (keySig vs) s) (bitTyOf t) := by
  by_cases hx : ∃ w, t = .exact w
  · obtain ⟨w, rfl⟩ := hx
    obtain ⟨n, rfl, h1⟩ := exact_key h
    rw [asValue_exact h1]
    exact .field h (.exactValue w)
  · rw [asValue_other h fun w hw => hx ⟨w, hw⟩]
    cases t <;> first | exact h | exact (hx ⟨_, rfl⟩).elim

theorem asValue_means {ρ : Env} {s : SExpr} {t : Ty} {v : Value} (ht : HasTy (keySig vs) s t)
    (hv : HasShape t v) (h : Means (keySig vs) ρ s t v) : Means (keySig vs) ρ (asValue (keySig vs) s) (bitTyOf t) (numberOf v) := by
  by_cases hx : ∃ w, t = .exact w
  · obtain ⟨w, rfl⟩ := hx
    obtain ⟨n, rfl, h1⟩ := exact_key ht
    rw [asValue_exact h1]
    cases hv with
    | exact _ x => exact .field h (.exactValue w) (.exactValue x)
  · rw [asValue_other ht fun w hw => hx ⟨w, hw⟩]
    have e : numberOf v = v := by
      cases hv <;> first | rfl | exact (hx ⟨_, rfl⟩).elim
    rw [e]
    cases t <;> first | exact h | exact (hx ⟨_, rfl⟩).elim

theorem asValue_noExact {s : SExpr} {t : Ty} (h : HasTy (keySig vs) s t) (ht : t ≠ .boolean) (w : Int) :
    NoOrderedExact (keySig vs) (asValue (keySig vs) s) ∧ ¬ HasTy (keySig vs) (asValue (keySig vs) s) (.exact w) := by
  have h1 := asValue_typed h
  refine ⟨noOrdered_of_ty h1 ?_, fun h2 => ?_⟩
  · cases t <;> simp_all [bitTyOf]
  · have := hasTy_unique h1 h2
    cases t <;> simp [bitTyOf] at this

theorem operand_type {a b t : Ty} (h : IsJoin a b t) (ho : Ordered t) : a ≠ .boolean ∧ b ≠ .boolean := by
  constructor
  · rintro rfl
    have := castsTo_boolean h.1 rfl
    subst this; cases ho
  · rintro rfl
    have := castsTo_boolean h.2.1 rfl
    subst this; cases ho

theorem valued_typed {s : SExpr} {t : Ty} (h : HasTy (keySig vs) s t) :
    HasTy (keySig vs) (valued (keySig vs) s) t ∧ NoOrderedExact (keySig vs) (valued (keySig vs) s) := by
  induction h with
  | bool b => exact ⟨.bool b, trivial⟩
  | int z => exact ⟨.int z, trivial⟩
  | key h1 h2 => exact ⟨.key h1 h2, trivial⟩
  | param h1 h2 => exact ⟨.param h1 h2, trivial⟩
  | priority => exact ⟨.priority, trivial⟩
  | not _ ih => exact ⟨.not ih.1, ih.2⟩
  | neg h1 ih => exact ⟨.neg h1, noOrdered_of_ty (HasTy.neg h1) (by simp)⟩
  | conn _ _ ih1 ih2 => exact ⟨.conn ih1.1 ih2.1, ih1.2, ih2.2⟩
  | @cmp o l r a b t h1 h2 hj ho ih1 ih2 =>
    unfold valued
    cases hio : o.isOrder with
    | true =>
      have hot := ho hio
      obtain ⟨ha, hb⟩ := operand_type hj hot
      rw [if_pos rfl]
      refine ⟨.cmp (asValue_typed h1) (asValue_typed h2) (join_bitTyOf hj hot) fun _ => bitTyOf_ordered hot,
        (asValue_noExact h1 ha 0).1, (asValue_noExact h2 hb 0).1, fun _ w => ⟨(asValue_noExact h1 ha w).2, (asValue_noExact h2 hb w).2⟩⟩
    | false =>
      rw [if_neg (by simp)]
      exact ⟨.cmp ih1.1 ih2.1 hj (by simp [hio]), ih1.2, ih2.2, by simp [hio]⟩
  | field h1 hf ih => exact ⟨.field h1 hf, noOrdered_of_ty (HasTy.field h1 hf) (by intro h; subst h; cases hf)⟩

theorem valued_means {ρ : Env} (hc : Consistent (keySig vs) ρ) {s : SExpr} {t : Ty} {v : Value} (ht : HasTy (keySig vs) s t)
    {p : Int} (hp : ρ.priority = some p) (h : Means (keySig vs) ρ s t v) : Means (keySig vs) ρ (valued (keySig vs) s) t v := by
  induction ht generalizing v with
  | bool | int | key | param | priority | neg | field => exact h
  | not _ ih =>
    cases h with
    | not h => exact .not (ih h)
  | conn _ _ ih1 ih2 =>
    cases h with
    | conn h1 h2 => exact .conn (ih1 h1) (ih2 h2)
  | @cmp o l r a b t t1 t2 hj ho ih1 ih2 =>
    cases h with
    | cmp h1 h2 hj' hcmp =>
      cases means_hasTy h1 _ t1
      cases means_hasTy h2 _ t2
      cases isJoin_unique hj hj'
      unfold valued
      cases hio : o.isOrder with
      | true =>
        have hot := ho hio
        rw [if_pos rfl]
        obtain ⟨v1, m1, s1⟩ := hasTy_means hc hp t1
        obtain ⟨v2, m2, s2⟩ := hasTy_means hc hp t2
        cases (means_unique h1 m1).2
        cases (means_unique h2 m2).2
        exact .cmp (asValue_means t1 s1 h1) (asValue_means t2 s2 h2) (join_bitTyOf hj hot)
          ((compare_bitTyOf hio s1 s2 hj hot).trans hcmp)
      | false =>
        rw [if_neg (by simp)]
        exact .cmp (ih1 h1) (ih2 h2) hj hcmp

theorem valued_writable {Γ : Sig} {s : SExpr} (hv : Ident c!"value") (h : Writable .table s) : Writable .table (valued Γ s) := by
  have key : ∀ e : SExpr, Writable .table e → Writable .table (asValue Γ e) := by
    intro e he
    cases e with
    | key n =>
      unfold asValue
      dsimp only
      split
      · exact ⟨he, hv⟩
      · exact he
    | _ => exact he
  induction s with
  | not e ih => exact ih h
  | conn o l r ih1 ih2 => exact ⟨ih1 h.1, ih2 h.2⟩
  | cmp o l r ih1 ih2 =>
    unfold valued
    split
    · exact ⟨key _ h.1, key _ h.2⟩
    · exact ⟨ih1 h.1, ih2 h.2⟩
  | _ => exact h

end

section
variable {sys : Sys} {p : P4Info} {ci : ConstraintInfo} (h : p4ToConstraintInfo sys p = .ok ci) {d : TableDecl}
  (hd : d ∈ p.tables) {vs : List VarInfo} (hk : Each KeyDecl d.matchFields vs)

include h hd hk in
theorem fits_consistent {entry : RtEntry} (hf : EntryFits vs entry) {ρ : Env} (hρ : EntryMeans vs entry ρ) :
    Consistent (keySig vs) ρ := by
  obtain ⟨ti, _, hp⟩ := table_declared h hd
  obtain ⟨vs', g1, _, g3, _⟩ := parseTableInfo_parts hp
  cases keys_same hk g1
  have hc := entry_consistent (parseTableInfo_wf hp) ((entryOk_fits g3).2 hf) ((entryEnv_means g3).2 hρ)
  rwa [sig_keys g3] at hc

include h hd hk in
theorem valued_iff {entry : RtEntry} (hf : EntryFits vs entry) {ρ : Env} (hρ : EntryMeans vs entry ρ) {s : SExpr}
    (ht : HasTy (keySig vs) s .boolean) (b : Bool) :
    Means (keySig vs) ρ (valued (keySig vs) s) .boolean (.bool b) ↔ Means (keySig vs) ρ s .boolean (.bool b) := by
  have hc := fits_consistent h hd hk hf hρ
  refine ⟨fun hm => ?_, valued_means hc ht hρ.priority⟩
  obtain ⟨b', hb'⟩ := typed_means h hd hk hf hρ ht
  cases (means_unique hm (valued_means hc ht hρ.priority hb')).2
  exact hb'

include h hd hk in
theorem valued_evaluates {entry : RtEntry} (hf : EntryFits vs entry) {ρ : Env} (hρ : EntryMeans vs entry ρ) {s : SExpr}
    (ht : HasTy (keySig vs) s .boolean) (b : Bool) :
    Evaluates (keySig vs) ρ (valued (keySig vs) s) .boolean (.bool b) ↔ Means (keySig vs) ρ s .boolean (.bool b) := by
  have hty := valued_typed ht
  rw [← valued_iff h hd hk hf hρ ht b]
  refine ⟨fun he => ?_, fun hm => means_evaluates_noExact hm hty.1 hty.2⟩
  obtain ⟨b', hb'⟩ := typed_means h hd hk hf hρ hty.1
  cases (evaluates_means he hb').2
  exact hb'

end

theorem tableSays_same {pton : Str → Option Bytes} {d : TableDecl} {a b : SExpr} (ha : TableSays pton d a) (hb : TableSays pton d b) :
    a = b := by
  obtain ⟨vs, _, _, hk, hr⟩ := ha
  obtain ⟨vs', _, _, hk', hr'⟩ := hb
  cases keys_same hk hk'
  have := readConstraint_unique hr hr'
  simp only [Option.some.injEq, Prod.mk.injEq] at this
  exact this.2.2.1

section
variable {sys : Sys} {ts : List TableDecl} {as : List ActionDecl} {d : TableDecl} {ci : ConstraintInfo}
  (h : p4ToConstraintInfo sys ⟨d :: ts, as⟩ = .ok ci) {vs : List VarInfo}
  (hk : Each KeyDecl d.matchFields vs) {s : SExpr} (ht : HasTy (keySig vs) s .boolean)

include h hk ht in
theorem valued_value (hs : TableSays sys.inetPton6 d (valued (keySig vs) s)) (entry : RtEntry) (b : Bool) :
    TableValue sys.inetPton6 d entry b ↔ Documented vs entry s b := by
  obtain ⟨vs', src, e, hk', hr⟩ := hs
  cases keys_same hk hk'
  rw [tableValue_iff hk hr b, eq_self, true_and]
  exact and_congr_right fun hf => exists_congr fun _ => and_congr_right fun hρ => valued_evaluates h (by simp) hk hf hρ ht b

end

theorem ident_value : Ident c!"value" := ⟨⟨_, _, rfl, by simp [Letter], by simp [Letter, Digit]⟩, by decide, by decide⟩

end P4C
