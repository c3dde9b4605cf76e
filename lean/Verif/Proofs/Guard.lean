import Verif.Spec.Guard
import Verif.Proofs.Small
import Verif.Proofs.Found

/-
Solvers that were told that fields are not negative (C111).
-/

namespace P4C

open Spec

theorem isJoin_bit {w : Int} {t : Ty} (h : IsJoin (.fixedUnsigned w) .arbitraryInt t) : t = .fixedUnsigned w :=
  isJoin_unique h (join_bit w)

theorem isJoin_bit' {w : Int} {t : Ty} (h : IsJoin .arbitraryInt (.fixedUnsigned w) t) : t = .fixedUnsigned w :=
  isJoin_unique ⟨h.2.1, h.1, fun u a b => h.2.2 u b a⟩ (join_bit w)

theorem isJoin_same {a t : Ty} (h : IsJoin a a t) : t = a := by
  rcases isJoin_cases h with rfl | rfl <;> rfl

/-- Fields of canonical entries fit the width of the key. -/
theorem field_fits {vs : List VarInfo} (hdist : Distinct vs) {skip : Str → Bool} {entry : RtEntry} (hc : CanonicalOver vs skip entry)
    {ki : VarInfo} (hki : ki ∈ vs) {v : Value} (hv : KeyValue entry ki v) {g : Str} {w z : Int}
    (ht : FieldTy ki.ty g (.fixedUnsigned w)) (hz : FieldVal v g z) : 0 ≤ z ∧ z < 2 ^ w.toNat := by
  have hpos : ∀ n : Nat, (0 : Int) < 2 ^ n := fun n => Int.pow_pos (by decide)
  rcases hv with ⟨m, hm, hid, hd⟩ | ⟨_, hw⟩
  · obtain ⟨ki', h1, _, h2, h3⟩ := hc.keys m hm
    have : ki' = ki := byId_unique hdist h1 hki (h2.symm.trans hid)
    subst this
    generalize ki'.ty = t at *
    generalize m.val = mv at *
    have cast : ∀ {a n : Nat}, a < 2 ^ n → (a : Int) < 2 ^ n := fun h => by exact_mod_cast h
    cases h3 with
    | exact _ g1 =>
      cases hd
      cases ht
      cases hz
      exact ⟨by omega, cast g1⟩
    | @optional w0 _ _ g1 =>
      generalize ht' : Ty.optionalMatch _ = t at hd ht
      cases hd with
      | optional w' =>
        cases ht'
        cases ht <;> cases hz
        · exact ⟨by omega, cast g1⟩
        · have := hpos w0
          exact ⟨by omega, by show (2 : Int) ^ w0 - 1 < 2 ^ w0; omega⟩
      | _ => cases ht'
    | @ternary w' a b _ _ g1 _ g2 =>
      cases hd
      cases ht <;> cases hz
      · refine ⟨by omega, cast (Nat.lt_of_le_of_lt ?_ g1)⟩
        rw [← g2]
        exact Nat.and_le_right
      · exact ⟨by omega, cast g1⟩
    | lpm _ g1 =>
      cases hd
      cases ht
      cases hz
      exact ⟨by omega, cast g1⟩
  · generalize ki.ty = t at *
    cases hw with
    | ternary | optional | lpm => cases ht <;> cases hz <;> exact ⟨Int.le_refl _, hpos _⟩
    | range w' =>
      have := hpos w'
      cases ht <;> cases hz
      · exact ⟨Int.le_refl _, hpos _⟩
      · exact ⟨by omega, by show (2 : Int) ^ w' - 1 < 2 ^ w'; omega⟩

theorem low_value {Γ : Sig} {ρ : Env} {G : Str → Str → Prop} {w : Int} {l : SExpr} (hl : LowOperand Γ G w l)
    (hG : ∀ k g z, G k g → HasTy Γ (.field (.key k) g) (.fixedUnsigned w) → Means Γ ρ (.field (.key k) g) (.fixedUnsigned w) (.int z) →
      2 * z < 2 ^ w.toNat) {a : Ty} {v : Value} (hm : Means Γ ρ l a v) :
    (a = .fixedUnsigned w ∨ a = .arbitraryInt) ∧ TopClear (.fixedUnsigned w) (convert a (.fixedUnsigned w) v) := by
  cases hl with
  | field h1 h2 =>
    cases means_hasTy hm _ h2
    refine ⟨.inl rfl, w, ?_⟩
    cases hm with
    | field g1 g2 g3 =>
      exact ⟨_, .inl rfl, by simp [convert, orderKey], hG _ _ _ h1 h2 (.field g1 g2 g3)⟩
  | int h1 h2 =>
    cases hm
    refine ⟨.inr rfl, w, _, .inl rfl, by simp only [convert, orderKey]; simp; rfl, ?_⟩
    rw [Int.emod_eq_of_lt h1 (by omega)]
    exact h2

/-- Constraints that order only low operands are safe. -/
theorem ordersLow_safe {Γ : Sig} {ρ : Env} {G : Str → Str → Prop}
    (hG : ∀ k g w z, G k g → HasTy Γ (.field (.key k) g) (.fixedUnsigned w) →
      Means Γ ρ (.field (.key k) g) (.fixedUnsigned w) (.int z) → 2 * z < 2 ^ w.toNat) {s : SExpr} (hs : OrdersLow Γ G s) :
    OrderSafe Γ ρ s := by
  induction s with
  | bool | int | key | param | attr => trivial
  | not e ih => exact ih hs
  | neg e ih => exact ih hs
  | field e g ih => exact ih hs
  | conn o l r ih1 ih2 => exact ⟨ih1 hs.1, ih2 hs.2⟩
  | cmp o l r ih1 ih2 =>
    refine ⟨ih1 hs.1, ih2 hs.2.1, fun ho a b t v w hv hw hj => ?_⟩
    rcases hs.2.2 ho with ⟨g1, g2⟩ | ⟨n, g1, g2⟩
    · cases means_hasTy hv _ g1
      cases means_hasTy hw _ g2
      exact .inl (isJoin_same hj)
    · obtain ⟨h1, h2⟩ := low_value g1 (fun k g z => hG k g n z) hv
      obtain ⟨h3, h4⟩ := low_value g2 (fun k g z => hG k g n z) hw
      rcases h1 with rfl | rfl <;> rcases h3 with rfl | rfl
      · cases isJoin_same hj
        exact .inr ⟨h2, h4⟩
      · cases isJoin_bit hj
        exact .inr ⟨h2, h4⟩
      · cases isJoin_bit' hj
        exact .inr ⟨h2, h4⟩
      · exact .inl (isJoin_same hj)

theorem lowOperand_not_exact {Γ : Sig} {G : Str → Str → Prop} {w : Int} {l : SExpr} (hl : LowOperand Γ G w l) (n : Int) :
    ¬ HasTy Γ l (.exact n) := by
  cases hl with
  | field _ h => intro hx; cases hasTy_unique h hx
  | int => intro hx; cases hx

theorem ordersLow_noExact {Γ : Sig} {G : Str → Str → Prop} {s : SExpr} (hs : OrdersLow Γ G s) : NoOrderedExact Γ s := by
  induction s with
  | bool | int | key | param | attr => trivial
  | not e ih => exact ih hs
  | neg e ih => exact ih hs
  | field e g ih => exact ih hs
  | conn o l r ih1 ih2 => exact ⟨ih1 hs.1, ih2 hs.2⟩
  | cmp o l r ih1 ih2 =>
    refine ⟨ih1 hs.1, ih2 hs.2.1, fun ho n => ?_⟩
    rcases hs.2.2 ho with ⟨g1, g2⟩ | ⟨w, g1, g2⟩
    · exact ⟨fun hx => (by cases hasTy_unique g1 hx), fun hx => (by cases hasTy_unique g2 hx)⟩
    · exact ⟨lowOperand_not_exact g1 n, lowOperand_not_exact g2 n⟩

/-- What is said of low entries. -/
theorem lowEntry_orders {d : TableDecl} {G : Str → Str → Prop} {entry : RtEntry} (he : LowEntry d G entry)
    (hdist : ∀ vs, Each KeyDecl d.matchFields vs → Distinct vs) {s : SExpr}
    (hs : ∀ vs, Each KeyDecl d.matchFields vs → OrdersLow (keySig vs) G s) : OrdersSmall d entry s := by
  intro vs ρ hk hρ
  refine ⟨ordersLow_safe (fun k g w z hG ht hm => ?_) (hs vs hk), ordersLow_noExact (hs vs hk)⟩
  cases hm with
  | field g1 g2 g3 =>
    cases g1 with
    | key k1 k2 =>
      obtain ⟨ki, h1, rfl, h2⟩ := (hρ.key _ _).1 k2
      rw [keySig_of_mem (hdist vs hk) h1] at k1
      cases k1
      exact he vs hk ki h1 g w _ z hG g2 h2 g3

theorem lowEntry_mono {d : TableDecl} {G G' : Str → Str → Prop} {entry : RtEntry} (hG : ∀ k g, G' k g → G k g)
    (he : LowEntry d G entry) : LowEntry d G' entry :=
  fun vs hk ki hki g w v z h => he vs hk ki hki g w v z (hG _ _ h)

theorem lowEntry_congr {d d' : TableDecl} (hk : d.matchFields = d'.matchFields) {G : Str → Str → Prop} {entry : RtEntry}
    (he : LowEntry d G entry) : LowEntry d' G entry :=
  fun vs hv => he vs (hk ▸ hv)

theorem lowFor_small {pton : Str → Option Bytes} {d : TableDecl} {G : Str → Str → Prop} {texts : List Str} {entry : RtEntry}
    (he : LowEntry d G entry) (hdist : ∀ vs, Each KeyDecl d.matchFields vs → Distinct vs) (hl : LowFor pton d G texts) :
    SmallFor pton d texts entry :=
  ⟨fun s hs => lowEntry_orders he hdist (hl.table s hs), fun t ht s hs => lowEntry_orders he hdist (hl.texts t ht s hs)⟩

/-- A solver that was told that fields are not negative takes them to be low. -/
theorem signed_low {pton : Str → Option Bytes} {d : TableDecl} {skip : Str → Bool} {texts : List Str} {entry : RtEntry}
    (hdist : ∀ vs, Each KeyDecl d.matchFields vs → Distinct vs) (hs : SignedSolution pton d skip texts entry)
    (huniq : ∀ t s s', TextSays pton d t s → TextSays pton d t s' → s = s') : LowEntry d (NotNegative pton d texts) entry := by
  rintro vs hk ki hki g w v z ⟨text, hmem, hsay⟩ ht hv hz
  obtain ⟨s, h1, vs', ρ, hk', _, hρ, hm⟩ := hs.texts text hmem
  cases huniq _ _ _ hsay h1
  cases keys_same hk hk'
  obtain ⟨_, vs', hk', hc⟩ := hs.canonical
  cases keys_same hk hk'
  obtain ⟨_, hlt⟩ := field_fits (hdist vs hk) hc hki hv ht hz
  unfold SignedHolds at hm
  generalize hb : Value.bool true = u at hm
  cases hm with
  | cmp g1 g2 g3 g4 =>
    cases g2
    cases g1 with
    | field q1 q2 q3 =>
      cases q1 with
      | key k1 k2 =>
        rw [keySig_of_mem (hdist vs hk) hki] at k1
        cases k1
        have e1 := (hρ.key ki.name v).2 ⟨ki, hki, rfl, hv⟩
        rw [k2] at e1
        cases e1
        cases fieldTy_unique ht q2
        cases fieldVal_unique hz q3
        cases isJoin_bit g3
        have h0 : (0 : Int) < 2 ^ w.toNat := Int.pow_pos (by decide)
        simp [convert, compareSigned, orderKey, twos, h0] at g4
        cases hb
        simp at g4
        split at g4 <;> omega

section
variable {sys : Sys} {p : P4Info} {ci : ConstraintInfo} (h : p4ToConstraintInfo sys p = .ok ci) {d : TableDecl}
  (hd : d ∈ p.tables) {ti : TableInfo} (hti : lookup d.preamble.id ci.tables = some ti)

include h hd hti in
theorem guard_distinct (vs : List VarInfo) (hk : Each KeyDecl d.matchFields vs) : Distinct vs := by
  obtain ⟨vs', hk', hdist, _⟩ := parseTableInfo_parts (declared_parse h hd hti)
  cases keys_same hk hk'
  exact hdist

end

/-- Actions of entries do not matter for constraints of tables. -/
theorem signed_stripped {pton : Str → Option Bytes} {d : TableDecl} {skip : Str → Bool} {texts : List Str} {entry : RtEntry}
    (hs : SignedSolution pton d skip texts entry) : SignedSolution pton d skip texts { entry with action := none } := by
  have key : ∀ {s}, SignedTrueOf d entry s → SignedTrueOf d { entry with action := none } s :=
    fun ⟨vs, ρ, h1, h2, h3, h4⟩ => ⟨vs, ρ, h1, ⟨h2.known, h2.once, h2.complete⟩, ⟨h3.key, h3.param, h3.priority⟩, h4⟩
  obtain ⟨h1, vs, h2, h3⟩ := hs.canonical
  exact ⟨⟨h1, vs, h2, ⟨h3.keys, h3.once, h3.exact, h3.priority⟩⟩, hs.table.imp id fun ⟨s, h1, h2⟩ => ⟨s, h1, key h2⟩,
    fun t ht => (hs.texts t ht).imp fun s h => ⟨h.1, key h.2⟩⟩

theorem field_nonneg {vs : List VarInfo} (hdist : Distinct vs) {skip : Str → Bool} {entry : RtEntry} (hc : CanonicalOver vs skip entry)
    {ki : VarInfo} (hki : ki ∈ vs) {v : Value} (hv : KeyValue entry ki v) {g : Str} {t : Ty} {z : Int}
    (ht : FieldTy ki.ty g t) (hz : FieldVal v g z) : 0 ≤ z := by
  by_cases hb : ∃ w, t = .fixedUnsigned w
  · obtain ⟨w, rfl⟩ := hb
    exact (field_fits hdist hc hki hv ht hz).1
  · generalize hki' : ki.ty = kt at ht
    cases ht with
    | lpmPrefix w =>
      rcases hv with ⟨m, hm, hid, hd⟩ | ⟨_, hw⟩
      · obtain ⟨ki', h1, _, h2, h3⟩ := hc.keys m hm
        cases byId_unique hdist h1 hki (h2.symm.trans hid)
        rw [hki'] at hd h3
        generalize m.val = mv at *
        cases h3 with
        | lpm =>
          cases hd
          cases hz
          omega
      · rw [hki'] at hw
        cases hw
        cases hz
        omega
    | _ => exact (hb ⟨_, rfl⟩).elim

section
variable {sys : Sys} {p : P4Info} {ci : ConstraintInfo} (h : p4ToConstraintInfo sys p = .ok ci) {d : TableDecl}
  (hd : d ∈ p.tables) {ti : TableInfo} (hti : lookup d.preamble.id ci.tables = some ti) {skip : Str → Bool} (hs : Solvable d skip)

include h hd hti hs in
/-- What the solver is told is true. -/
theorem notNegative_holds (hsup : AllSupported d skip) {entry : RtEntry} (hc : CanonicalFor d skip entry) {text k g : Str}
    (hsay : SaysNotNegative sys.inetPton6 d text k g) : TextHolds sys.inetPton6 d text entry := by
  obtain ⟨vs, _, hk, hmaps, hf, _⟩ := canonical_env h hd hti hs hsup hc
  obtain ⟨ρ, hρ⟩ := means_exists h hd hk hf
  have hty := textSays_typed hsay vs hk
  obtain ⟨b, hb⟩ := typed_means h hd hk hf hρ hty
  have hno : NoOrderedExact (keySig vs) (.cmp .ge (.field (.key k) g) (.int 0)) := by
    refine ⟨trivial, trivial, fun _ n => ⟨fun hx => ?_, nofun⟩⟩
    cases hx with
    | field _ hx => cases hx
  have hev := means_evaluates_noExact hb hty hno
  have hdist := guard_distinct h hd hti vs hk
  obtain ⟨_, vs', hk', hover⟩ := hc
  cases keys_same hk hk'
  refine ⟨_, hsay, vs, ρ, hk, hf, hρ, ?_⟩
  suffices b = true by rw [← this]; exact hev
  cases hb with
  | cmp g1 g2 g3 g4 =>
    cases g2
    cases g1 with
    | field q1 q2 q3 =>
      cases q1 with
      | key k1 k2 =>
        obtain ⟨ki, h1, rfl, h2⟩ := (hρ.key _ _).1 k2
        rw [keySig_of_mem hdist h1] at k1
        cases k1
        have h0 := field_nonneg hdist hover h1 h2 q2 q3
        have key : ∀ {a t : Ty}, (∃ w, a = .fixedUnsigned w) ∨ a = .arbitraryInt → IsJoin a .arbitraryInt t → ∀ {y : Int} {c : Bool}, 0 ≤ y →
            compareVals .ge (convert a t (.int y)) (convert .arbitraryInt t (.int 0)) = some c → c = true := by
          rintro a t (⟨w, rfl⟩ | rfl) hj y c hy hcmp
          · cases isJoin_bit hj
            simp [convert, compareVals, orderKey] at hcmp
            rw [← hcmp]
            simpa using hy
          · cases isJoin_same hj
            simp [convert, compareVals, orderKey] at hcmp
            rw [← hcmp]
            simpa using hy
        refine key ?_ g3 h0 g4
        clear h2 h0
        generalize ki.ty = kt at q2
        cases q2 <;> first | exact .inl ⟨_, rfl⟩ | exact .inr rfl

end

end P4C
