import Verif.Spec.Match
import Verif.Proofs.Verdict
import Verif.Spec.Symbolic

/-
Equality of well-formed values is equality of the sets of packets matched.
-/

namespace P4C

open Spec

theorem masked_same {W v m v' m' : Nat} (hm : m < 2 ^ W) (hm' : m' < 2 ^ W) (hv : v &&& m = v) (hv' : v' &&& m' = v')
    (h : ∀ x < 2 ^ W, x &&& m = v &&& m ↔ x &&& m' = v' &&& m') : m = m' ∧ v = v' := by
  have lt : ∀ {v m : Nat}, m < 2 ^ W → v &&& m = v → v < 2 ^ W := fun h1 h2 => by
    rw [← h2]; exact Nat.and_lt_two_pow _ h1
  have key : ∀ {v m v' m' : Nat}, m < 2 ^ W → m' < 2 ^ W → v &&& m = v → v' &&& m' = v' →
      (∀ x < 2 ^ W, x &&& m = v &&& m ↔ x &&& m' = v' &&& m') → ∀ i, m.testBit i = true → m'.testBit i = true := by
    intro v m v' m' hm hm' hv hv' h i hi
    by_cases hi' : m'.testBit i = true
    · exact hi'
    exfalso
    have hiW : i < W := by
      by_cases hlt : i < W
      · exact hlt
      · rw [Nat.testBit_lt_two_pow (Nat.lt_of_lt_of_le hm (Nat.pow_le_pow_right (by omega) (by omega)))] at hi
        cases hi
    have hvW := lt hm hv
    have hx : v ^^^ 2 ^ i < 2 ^ W := Nat.xor_lt_two_pow hvW (Nat.pow_lt_pow_right (by omega) hiW)
    have h1 : v &&& m' = v' &&& m' := (h v hvW).1 rfl
    have h2 : (v ^^^ 2 ^ i) &&& m' = v &&& m' := by
      apply Nat.eq_of_testBit_eq
      intro j
      simp only [Nat.testBit_and, Nat.testBit_xor, Nat.testBit_two_pow]
      by_cases hj : i = j
      · subst hj; simp [hi']
      · simp [hj]
    have h3 := (h _ hx).2 (h2.trans h1)
    have h4 := congrArg (fun n => n.testBit i) h3
    simp only [Nat.testBit_and, Nat.testBit_xor, Nat.testBit_two_pow, hi] at h4
    simp at h4
  have em : m = m' := by
    apply Nat.eq_of_testBit_eq
    intro i
    have a := key hm hm' hv hv' h i
    have b := key hm' hm hv' hv (fun x hx => (h x hx).symm) i
    cases h1 : m.testBit i <;> cases h2 : m'.testBit i <;> simp_all
  subst em
  refine ⟨rfl, ?_⟩
  have := (h v (lt hm hv)).1 rfl
  rw [hv, hv'] at this
  exact this

theorem prefix_same {W v p v' p' : Nat} (hv : v < 2 ^ W) (hv' : v' < 2 ^ W) (hp : p ≤ W) (hp' : p' ≤ W)
    (hd : 2 ^ (W - p) ∣ v) (hd' : 2 ^ (W - p') ∣ v')
    (h : ∀ x < 2 ^ W, x / 2 ^ (W - p) = v / 2 ^ (W - p) ↔ x / 2 ^ (W - p') = v' / 2 ^ (W - p')) :
    v = v' ∧ p = p' := by
  have key : ∀ {v p v' p' : Nat}, v < 2 ^ W → v' < 2 ^ W → p ≤ W → p' ≤ W → 2 ^ (W - p) ∣ v → 2 ^ (W - p') ∣ v' →
      (∀ x < 2 ^ W, x / 2 ^ (W - p) = v / 2 ^ (W - p) ↔ x / 2 ^ (W - p') = v' / 2 ^ (W - p')) → p' ≤ p := by
    intro v p v' p' hv hv' hp hp' hd hd' h
    by_cases hlt : p' ≤ p
    · exact hlt
    exfalso
    have hpos := Nat.two_pow_pos (W - p)
    have hpos' := Nat.two_pow_pos (W - p')
    have hsm : 2 ^ (W - p') < 2 ^ (W - p) := Nat.pow_lt_pow_right (by omega) (by omega)
    obtain ⟨k, hk⟩ := hd
    have hdd : (v + 2 ^ (W - p')) / 2 ^ (W - p) = v / 2 ^ (W - p) := by
      rw [hk, Nat.mul_add_div hpos, Nat.mul_div_cancel_left _ hpos, Nat.div_eq_of_lt hsm, Nat.add_zero]
    have hW : 2 ^ W = 2 ^ (W - p) * 2 ^ p := by rw [← Nat.pow_add]; congr 1; omega
    have hx : v + 2 ^ (W - p') < 2 ^ W := by
      have hkp : k < 2 ^ p := by
        rw [hW, hk] at hv
        exact Nat.lt_of_mul_lt_mul_left hv
      have : 2 ^ (W - p) * (k + 1) ≤ 2 ^ (W - p) * 2 ^ p := Nat.mul_le_mul_left _ hkp
      rw [Nat.mul_add, Nat.mul_one] at this
      omega
    have h1 := (h v hv).1 rfl
    have h2 := (h _ hx).1 hdd
    rw [← h1, Nat.add_div_right _ hpos'] at h2
    omega
  have e : p = p' := Nat.le_antisymm (key hv' hv hp' hp hd' hd fun x hx => (h x hx).symm) (key hv hv' hp hp' hd hd' h)
  subst e
  refine ⟨?_, rfl⟩
  have h1 := (h v hv).1 rfl
  obtain ⟨a, rfl⟩ := hd
  obtain ⟨b, rfl⟩ := hd'
  have hpos := Nat.two_pow_pos (W - p)
  rw [Nat.mul_div_cancel_left _ hpos, Nat.mul_div_cancel_left _ hpos] at h1
  rw [h1]

theorem two_pow_cast (W : Nat) : ((2 ^ W : Nat) : Int) = 2 ^ W := by simp

theorem same_values {W : Nat} {t : Ty} {v w : Value} (ht : OfWidth W t) (hv : WellFormed W t v) (hw : WellFormed W t w) :
    v = w ↔ SameMatches W t v t w := by
  refine ⟨fun h => by subst h; exact fun _ _ => Iff.rfl, fun h => ?_⟩
  have c := two_pow_cast W
  have pos := Nat.two_pow_pos W
  cases ht with
  | bit =>
    cases v <;> try exact hv.elim
    cases w <;> try exact hw.elim
    rename_i a b
    have := (h a.toNat (by have := hv.1; have := hv.2; omega)).1 (by have := hv.1; show (_ : Int) = _; omega)
    have e : ((a.toNat : Nat) : Int) = b := this
    have := hv.1
    congr 1; omega
  | exact =>
    cases v <;> try exact hv.elim
    cases w <;> try exact hw.elim
    rename_i a b
    have := (h a.toNat (by have := hv.1; have := hv.2; omega)).1 (by have := hv.1; show (_ : Int) = _; omega)
    have e : ((a.toNat : Nat) : Int) = b := this
    have := hv.1
    congr 1; omega
  | ternary =>
    cases v <;> try exact hv.elim
    cases w <;> try exact hw.elim
    rename_i a m b n
    obtain ⟨h1, h2, h3, h4⟩ := hv
    obtain ⟨k1, k2, k3, k4⟩ := hw
    obtain ⟨e1, e2⟩ := masked_same (W := W) (by omega) (by omega) h4 k4 h
    congr 1 <;> omega
  | optional =>
    cases v <;> try exact hv.elim
    cases w <;> try exact hw.elim
    rename_i a m b n
    obtain ⟨h1, h2, h3⟩ := hv
    obtain ⟨k1, k2, k3⟩ := hw
    have lt : ∀ {a m : Int}, 0 ≤ a → a < 2 ^ W → (m = 2 ^ W - 1 ∨ a = 0 ∧ m = 0) →
        0 ≤ m ∧ m.toNat < 2 ^ W ∧ a.toNat &&& m.toNat = a.toNat := by
      intro a m h1 h2 h3
      rcases h3 with rfl | ⟨rfl, rfl⟩
      · refine ⟨by omega, by omega, ?_⟩
        have : (2 ^ W - 1 : Int).toNat = 2 ^ W - 1 := by omega
        rw [this, Nat.and_two_pow_sub_one_eq_mod]
        exact Nat.mod_eq_of_lt (by omega)
      · exact ⟨by omega, pos, rfl⟩
    obtain ⟨h4, h5, h6⟩ := lt h1 h2 h3
    obtain ⟨k4, k5, k6⟩ := lt k1 k2 k3
    obtain ⟨e1, e2⟩ := masked_same (W := W) h5 k5 h6 k6 h
    congr 1 <;> omega
  | lpm =>
    cases v <;> try exact hv.elim
    cases w <;> try exact hw.elim
    rename_i a p b q
    obtain ⟨h1, h2, h3, h4, h5⟩ := hv
    obtain ⟨k1, k2, k3, k4, k5⟩ := hw
    obtain ⟨e1, e2⟩ := prefix_same (W := W) (by omega) (by omega) (by omega) (by omega) h5 k5 h
    congr 1 <;> omega
  | range =>
    cases v <;> try exact hv.elim
    cases w <;> try exact hw.elim
    rename_i a p b q
    obtain ⟨h1, h2, h3⟩ := hv
    obtain ⟨k1, k2, k3⟩ := hw
    have f : ∀ x : Nat, x < 2 ^ W → ((a ≤ x ∧ (x : Int) ≤ p) ↔ (b ≤ x ∧ (x : Int) ≤ q)) := h
    have a1 := f a.toNat (by omega)
    have a2 := f p.toNat (by omega)
    have a3 := f b.toNat (by omega)
    have a4 := f q.toNat (by omega)
    congr 1 <;> omega

theorem and_ones {W x : Nat} (h : x < 2 ^ W) : x &&& (2 ^ W - 1 : Int).toNat = x := by
  have c := two_pow_cast W
  have pos := Nat.two_pow_pos W
  have : (2 ^ W - 1 : Int).toNat = 2 ^ W - 1 := by omega
  rw [this, Nat.and_two_pow_sub_one_eq_mod]
  exact Nat.mod_eq_of_lt h

/-- The exact match for a number matches just that number. -/
theorem exactMatch_matched {W : Nat} {t : Ty} {b : Int} (ht : OfWidth W t) (h0 : 0 ≤ b) (h1 : b < 2 ^ W) :
    WellFormed W t (exactMatch t b) ∧ ∀ x < 2 ^ W, Matched W t (exactMatch t b) x ↔ (x : Int) = b := by
  have c := two_pow_cast W
  have hb : b.toNat < 2 ^ W := by omega
  cases ht with
  | bit => exact ⟨⟨h0, h1⟩, fun x _ => Iff.rfl⟩
  | exact => exact ⟨⟨h0, h1⟩, fun x _ => Iff.rfl⟩
  | ternary =>
    have pos := Nat.two_pow_pos W
    refine ⟨⟨h0, by simp; omega, by simp; omega, by simpa using and_ones hb⟩, fun x hx => ?_⟩
    show x &&& (2 ^ (W : Int).toNat - 1 : Int).toNat = b.toNat &&& (2 ^ (W : Int).toNat - 1 : Int).toNat ↔ _
    rw [Int.toNat_natCast, and_ones hx, and_ones hb]
    omega
  | optional =>
    refine ⟨⟨h0, h1, .inl (by simp)⟩, fun x hx => ?_⟩
    show x &&& (2 ^ (W : Int).toNat - 1 : Int).toNat = b.toNat &&& (2 ^ (W : Int).toNat - 1 : Int).toNat ↔ _
    rw [Int.toNat_natCast, and_ones hx, and_ones hb]
    omega
  | lpm =>
    refine ⟨⟨h0, h1, by omega, by omega, by simp⟩, fun x hx => ?_⟩
    show x / 2 ^ (W - (W : Int).toNat) = b.toNat / 2 ^ (W - (W : Int).toNat) ↔ _
    simp
    omega
  | range =>
    refine ⟨⟨h0, by omega, h1⟩, fun x hx => ?_⟩
    show (b ≤ x ∧ (x : Int) ≤ b) ↔ _
    omega

/-- Implicit conversions preserve what is matched. -/
theorem convert_matched {W : Nat} {a t : Ty} {v : Value} (hc : CastsTo a t) (ht : OfWidth W t) (hv : WellFormed W a v) :
    WellFormed W t (convert a t v) ∧ ∀ x < 2 ^ W, Matched W t (convert a t v) x ↔ Matched W a v x := by
  have pos : (0 : Int) < 2 ^ W := by have c := two_pow_cast W; have := Nat.two_pow_pos W; omega
  by_cases e : a = t
  · subst e
    rw [convert_refl]
    exact ⟨hv, fun _ _ => Iff.rfl⟩
  have hint : ∀ z : Int, convert .arbitraryInt t (.int z) = exactMatch t (z % 2 ^ W) := by
    intro z
    cases ht <;> simp [convert, exactMatch]
  have hbit : ∀ b : Int, t ≠ .fixedUnsigned W → convert (.fixedUnsigned W) t (.int b) = exactMatch t b := by
    intro b hne
    cases ht <;> simp_all [convert, exactMatch]
  have int : a = .arbitraryInt → WellFormed W t (convert a t v) ∧
      ∀ x < 2 ^ W, Matched W t (convert a t v) x ↔ Matched W a v x := by
    rintro rfl
    cases v <;> try exact hv.elim
    rename_i z
    rw [hint]
    exact exactMatch_matched ht (Int.emod_nonneg _ (by omega)) (Int.emod_lt_of_pos _ pos)
  have bit : a = .fixedUnsigned W → WellFormed W t (convert a t v) ∧
      ∀ x < 2 ^ W, Matched W t (convert a t v) x ↔ Matched W a v x := by
    rintro rfl
    cases v <;> try exact hv.elim
    rename_i b
    rw [hbit b (Ne.symm e)]
    exact exactMatch_matched ht hv.1 hv.2
  cases hc with
  | refl => exact (e rfl).elim
  | step h1 h2 =>
    cases h1 with
    | intBit w => exact int rfl
    | bitExact w =>
      cases h2 with
      | refl => cases ht; exact bit rfl
      | step h _ => cases h
    | bitTernary w =>
      cases h2 with
      | refl => cases ht; exact bit rfl
      | step h _ => cases h
    | bitLpm w =>
      cases h2 with
      | refl => cases ht; exact bit rfl
      | step h _ => cases h
    | bitRange w =>
      cases h2 with
      | refl => cases ht; exact bit rfl
      | step h _ => cases h
    | bitOptional w =>
      cases h2 with
      | refl => cases ht; exact bit rfl
      | step h _ => cases h

/-- Equality after conversion to the common type. -/
theorem convert_eq_iff {W : Nat} {a b t : Ty} {v w : Value} (hj : IsJoin a b t) (ht : OfWidth W t)
    (hv : WellFormed W a v) (hw : WellFormed W b w) :
    convert a t v = convert b t w ↔ SameMatches W a v b w := by
  obtain ⟨f1, f2⟩ := convert_matched hj.1 ht hv
  obtain ⟨g1, g2⟩ := convert_matched hj.2.1 ht hw
  rw [same_values ht f1 g1]
  constructor
  · exact fun h x hx => (f2 x hx).symm.trans ((h x hx).trans (g2 x hx))
  · exact fun h x hx => (f2 x hx).trans ((h x hx).trans (g2 x hx).symm)

theorem means_eq {Γ : Sig} {ρ : Env} {l r : SExpr} {a b t : Ty} {v w : Value} {c : Bool} (hl : Means Γ ρ l a v)
    (hr : Means Γ ρ r b w) (hj : IsJoin a b t) :
    (Means Γ ρ (.cmp .eq l r) .boolean (.bool c) ↔ c = decide (convert a t v = convert b t w)) ∧
    (Means Γ ρ (.cmp .ne l r) .boolean (.bool c) ↔ c = decide (convert a t v ≠ convert b t w)) := by
  constructor
  · constructor
    · intro h
      exact Value.bool.inj (means_unique h (.cmp hl hr hj rfl)).2
    · rintro rfl
      exact .cmp hl hr hj rfl
  · constructor
    · intro h
      exact Value.bool.inj (means_unique h (.cmp hl hr hj rfl)).2
    · rintro rfl
      exact .cmp hl hr hj rfl

/-- Expressions that are not boolean contain no comparisons. -/
theorem noOrdered_of_ty {Γ : Sig} {s : SExpr} {t : Ty} (h : HasTy Γ s t) (ht : t ≠ .boolean) : NoOrderedExact Γ s := by
  induction h with
  | not => exact (ht rfl).elim
  | conn => exact (ht rfl).elim
  | cmp => exact (ht rfl).elim
  | bool => trivial
  | int => trivial
  | key => trivial
  | param => trivial
  | priority => trivial
  | neg _ ih => exact ih (by intro h; cases h)
  | field _ hf ih => exact ih (by intro h; subst h; cases hf)

theorem castsTo_boolean {a t : Ty} (h : CastsTo a t) (ha : a = .boolean) : t = .boolean := by
  cases h with
  | refl => exact ha
  | step h _ => subst ha; cases h

/-- A well-formed value of a key that matches everything is its wildcard. -/
theorem wildcard_iff {W : Nat} {t : Ty} {v : Value} (ht : OfWidth W t) (hW : 0 < W) (hv : WellFormed W t v) :
    (∀ x < 2 ^ W, Matched W t v x) ↔ WildcardOf t v := by
  have c := two_pow_cast W
  have pos := Nat.two_pow_pos W
  have two : 2 ≤ 2 ^ W := Nat.le_self_pow (by omega) 2
  have key : ∀ u, WellFormed W t u → (∀ x < 2 ^ W, Matched W t u x) → (∀ x < 2 ^ W, Matched W t v x) → v = u :=
    fun u hu hm h => (same_values ht hv hu).2 fun x hx => ⟨fun _ => hm x hx, fun _ => h x hx⟩
  cases ht with
  | bit =>
    refine ⟨fun h => ?_, fun h => by cases h⟩
    cases v <;> try exact hv.elim
    have h0 : ((0 : Nat) : Int) = _ := h 0 (by omega)
    have h1 : ((1 : Nat) : Int) = _ := h 1 (by omega)
    omega
  | exact =>
    refine ⟨fun h => ?_, fun h => by cases h⟩
    cases v <;> try exact hv.elim
    have h0 : ((0 : Nat) : Int) = _ := h 0 (by omega)
    have h1 : ((1 : Nat) : Int) = _ := h 1 (by omega)
    omega
  | ternary =>
    have all : ∀ x < 2 ^ W, Matched W (.ternary W) (.ternary 0 0) x := fun x _ => by simp [Matched]
    constructor
    · intro h
      rw [key (.ternary 0 0) ⟨by omega, by omega, by omega, rfl⟩ all h]
      exact .ternary _
    · intro h; cases h; exact all
  | optional =>
    have all : ∀ x < 2 ^ W, Matched W (.optionalMatch W) (.ternary 0 0) x := fun x _ => by simp [Matched]
    constructor
    · intro h
      rw [key (.ternary 0 0) ⟨by omega, by omega, .inr ⟨rfl, rfl⟩⟩ all h]
      exact .optional _
    · intro h; cases h; exact all
  | lpm =>
    have all : ∀ x < 2 ^ W, Matched W (.lpm W) (.lpm 0 0) x := fun x hx => by
      simp [Matched, Nat.div_eq_of_lt hx]
    constructor
    · intro h
      rw [key (.lpm 0 0) ⟨by omega, by omega, by omega, by omega, by simp⟩ all h]
      exact .lpm _
    · intro h; cases h; exact all
  | range =>
    have all : ∀ x < 2 ^ W, Matched W (.range W) (.range 0 (2 ^ W - 1)) x := fun x hx => by
      simp only [Matched]; omega
    constructor
    · intro h
      rw [key (.range 0 (2 ^ W - 1)) ⟨by omega, by omega, by omega⟩ all h]
      exact .range _
    · intro h
      generalize e : Ty.range W = t at h
      cases h with
      | range w => cases e; exact all
      | _ => cases e

/-- Canonical matches have well-formed values. -/
theorem canonicalMatch_wellFormed {t : Ty} {m : MatchVal} {v : Value} (h : CanonicalMatch t m) (hd : MatchDenotes t m v) :
    ∃ W, OfWidth W t ∧ WellFormed W t v := by
  cases h with
  | exact h1 h2 =>
    rename_i w b
    have c := two_pow_cast w
    cases hd
    exact ⟨w, .exact, by omega, by omega⟩
  | optional h1 h2 =>
    rename_i w b
    have c := two_pow_cast w
    refine ⟨w, .optional, ?_⟩
    generalize e : Ty.optionalMatch (w : Int) = t at hd
    cases hd with
    | optional w' => cases e; exact ⟨by omega, by omega, .inl rfl⟩
  | ternary h1 h2 h3 h4 h5 =>
    rename_i w b m
    have c := two_pow_cast w
    cases hd
    exact ⟨w, .ternary, by omega, by omega, by omega, h5⟩
  | lpm h1 h2 h3 h4 h5 =>
    rename_i w p b
    have c := two_pow_cast w
    cases hd
    exact ⟨w, .lpm, by omega, by omega, by omega, by omega, h5⟩

theorem wildcardOf_wellFormed {t : Ty} {v : Value} (h : WildcardOf t v) (hn : NonNeg t) : ∃ W, OfWidth W t ∧ WellFormed W t v := by
  cases h with
  | ternary w =>
    obtain ⟨n, rfl⟩ := Int.eq_ofNat_of_zero_le hn
    have c := two_pow_cast n
    have pos := Nat.two_pow_pos n
    exact ⟨n, .ternary, by omega, by omega, by omega, rfl⟩
  | optional w =>
    obtain ⟨n, rfl⟩ := Int.eq_ofNat_of_zero_le hn
    have c := two_pow_cast n
    have pos := Nat.two_pow_pos n
    exact ⟨n, .optional, by omega, by omega, .inr ⟨rfl, rfl⟩⟩
  | lpm w =>
    obtain ⟨n, rfl⟩ := Int.eq_ofNat_of_zero_le hn
    have c := two_pow_cast n
    have pos := Nat.two_pow_pos n
    exact ⟨n, .lpm, by omega, by omega, by omega, by omega, by simp⟩
  | range n =>
    have c := two_pow_cast n
    have pos := Nat.two_pow_pos n
    exact ⟨n, .range, by omega, by omega, by omega⟩

theorem wildcardOf_matched {W : Nat} {t : Ty} {v : Value} (ht : OfWidth W t) (h : WildcardOf t v) :
    WellFormed W t v ∧ ∀ x < 2 ^ W, Matched W t v x := by
  have c := two_pow_cast W
  have pos := Nat.two_pow_pos W
  cases ht with
  | bit => cases h
  | exact => cases h
  | ternary => cases h; exact ⟨⟨by omega, by omega, by omega, rfl⟩, fun x _ => by simp [Matched]⟩
  | optional => cases h; exact ⟨⟨by omega, by omega, .inr ⟨rfl, rfl⟩⟩, fun x _ => by simp [Matched]⟩
  | lpm =>
    cases h
    exact ⟨⟨by omega, by omega, by omega, by omega, by simp⟩, fun x hx => by simp [Matched, Nat.div_eq_of_lt hx]⟩
  | range =>
    generalize e : Ty.range W = t at h
    cases h with
    | range w =>
      cases e
      refine ⟨⟨by omega, by omega, by omega⟩, fun x hx => ?_⟩
      simp only [Matched]; omega
    | _ => cases e

/-- Canonical entries are well formed. -/
theorem canonicalEntry_wellFormed {ti : TableInfo} {Skipped : Str → Prop} {entry : RtEntry}
    (h : CanonicalEntry ti Skipped entry) (hwf : TableWF ti) (hw : ∀ n ki, (n, ki) ∈ ti.keysByName → NonNeg ki.ty) :
    WellFormedEntry ti entry := by
  intro n ki v hki hv
  rcases hv with ⟨m, hm, hid, hd⟩ | ⟨_, hwild⟩
  · obtain ⟨n', ki', hki', _, hid', hcan⟩ := h.keys m hm
    have h1 := (hwf.byName n ki hki).2
    have h2 := (hwf.byName n' ki' hki').2
    rw [← hid] at h1
    rw [← hid'] at h2
    cases nodup_keys_unique hwf.nodupId h1 h2
    exact canonicalMatch_wellFormed hcan hd
  · exact wildcardOf_wellFormed hwild (hw n ki hki)

end P4C
