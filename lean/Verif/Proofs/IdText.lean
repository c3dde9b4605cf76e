import Verif.Spec.EntryFault
import Verif.Proofs.AddressMsg

/-
Ids in messages (interpreter.cc:64-74).
-/

namespace P4C

open Spec

theorem hexChar_facts {n : Nat} (h : n < 16) : (hexChar n, n) ∈ digits ∧ ¬ ('A' ≤ hexChar n ∧ hexChar n ≤ 'F') ∧
    (hexChar n = '0' → n = 0) := by
  have : n = 0 ∨ n = 1 ∨ n = 2 ∨ n = 3 ∨ n = 4 ∨ n = 5 ∨ n = 6 ∨ n = 7 ∨ n = 8 ∨ n = 9 ∨ n = 10 ∨ n = 11 ∨ n = 12 ∨
    n = 13 ∨ n = 14 ∨ n = 15 := by omega
  rcases this with rfl | rfl | rfl | rfl | rfl | rfl | rfl | rfl | rfl | rfl | rfl | rfl | rfl | rfl | rfl | rfl <;> decide

theorem natHexF_val {f n : Nat} (h : n < f) : NumVal 16 (natHexF f n) n ∧
    ∀ c ∈ natHexF f n, ¬ ('A' ≤ c ∧ c ≤ 'F') := by
  induction f generalizing n with
  | zero => omega
  | succ f ih =>
    unfold natHexF
    split
    · rename_i hn
      refine ⟨.one (hexChar_facts hn).1 hn, fun c hc => ?_⟩
      rw [List.mem_singleton.1 hc]
      exact (hexChar_facts hn).2.1
    · obtain ⟨h1, h2⟩ := ih (n := n / 16) (by omega)
      have hm : n % 16 < 16 := by omega
      refine ⟨?_, fun c hc => ?_⟩
      · have := NumVal.snoc h1 (hexChar_facts hm).1 hm
        have e : n / 16 * 16 + n % 16 = n := by omega
        rwa [e] at this
      · rcases List.mem_append.1 hc with hc | hc
        · exact h2 c hc
        · rw [List.mem_singleton.1 hc]
          exact (hexChar_facts hm).2.1

theorem natHexF_head {f n : Nat} (h : n < f) (hn : 0 < n) : ¬ c!"0" <+: natHexF f n := by
  induction f generalizing n with
  | zero => omega
  | succ f ih =>
    unfold natHexF
    split
    · rename_i h16
      rintro ⟨t, e⟩
      injection e with e1 _
      have := (hexChar_facts h16).2.2 e1.symm
      omega
    · rintro ⟨t, e⟩
      have hv := (natHexF_val (f := f) (n := n / 16) (by omega)).1
      obtain ⟨c, cs, e'⟩ := List.exists_cons_of_ne_nil hv.ne_nil
      rw [e'] at e
      injection e with e1 _
      exact ih (n := n / 16) (by omega) (by omega) ⟨cs, by rw [e', ← e1]; rfl⟩

theorem numVal_zeros {b : Nat} (hb : 0 < b) {s : Str} {n : Nat} (h : NumVal b s n) : ∀ k, NumVal b (List.replicate k '0' ++ s) n
  | 0 => h
  | k + 1 => by
    have z : ('0', 0) ∈ digits := by decide
    have zs : ∀ j, NumVal b (List.replicate (j + 1) '0') 0 := by
      intro j
      induction j with
      | zero => exact .one z hb
      | succ j ih =>
        have := NumVal.snoc ih z hb
        rw [List.replicate_succ']
        simpa using this
    induction h with
    | one h1 h2 =>
      have := NumVal.snoc (zs k) h1 h2
      simpa using this
    | snoc _ h1 h2 ih =>
      have := NumVal.snoc ih h1 h2
      rwa [List.append_assoc] at this

theorem hex8_spec (n : Nat) : Hex8 n (hex8 n) := by
  obtain ⟨h1, h2⟩ := natHexF_val (f := n + 1) (n := n) (by omega)
  unfold hex8
  refine ⟨numVal_zeros (by omega) h1 _, ?_, ?_⟩
  · simp only [List.length_append, List.length_replicate]
    by_cases hl : (natHexF (n + 1) n).length ≤ 8
    · left; omega
    · right
      refine ⟨by omega, ?_⟩
      have e : 8 - (natHexF (n + 1) n).length = 0 := by omega
      rw [e]
      by_cases hn : n = 0
      · subst hn; exact (hl (by decide)).elim
      · exact natHexF_head (by omega) (by omega)
  · intro c hc
    rcases List.mem_append.1 hc with hc | hc
    · rw [(List.mem_replicate.1 hc).2]; decide
    · exact h2 c hc

theorem numVal_ge {b : Nat} {s : Str} {n : Nat} (h : NumVal b s n) (h0 : ¬ c!"0" <+: s) : b ^ (s.length - 1) ≤ n := by
  induction h with
  | @one c d hd _ =>
    have : d ≠ 0 := by
      rintro rfl
      apply h0
      revert hd
      simp only [digits, List.mem_cons, Prod.mk.injEq, List.not_mem_nil, or_false]
      intro hd
      rcases hd with ⟨rfl, _⟩ | hd
      · exact ⟨[], rfl⟩
      · simp at hd
    simp; omega
  | @snoc s m c d hv _ _ ih =>
    have hne := hv.ne_nil
    obtain ⟨y, ys, rfl⟩ := List.exists_cons_of_ne_nil hne
    have := ih (fun ⟨t, e⟩ => h0 ⟨t ++ [c], by rw [← List.append_assoc, e]⟩)
    have e : (y :: ys ++ [c]).length - 1 = (y :: ys).length - 1 + 1 := by simp
    rw [e, Nat.pow_succ]
    have := Nat.mul_le_mul_right b this
    omega

theorem lowerDigit {c c' : Char} {d : Nat} (h : (c, d) ∈ digits) (h' : (c', d) ∈ digits) (hc : ¬ ('A' ≤ c ∧ c ≤ 'F'))
    (hc' : ¬ ('A' ≤ c' ∧ c' ≤ 'F')) : c = c' := by
  have key : ∀ a ∈ digits, ∀ b ∈ digits, a.2 = b.2 → ¬ ('A' ≤ a.1 ∧ a.1 ≤ 'F') → ¬ ('A' ≤ b.1 ∧ b.1 ≤ 'F') → a.1 = b.1 := by
    decide
  exact key _ h _ h' rfl hc hc'

theorem numVal_lower {s : Str} {n : Nat} (h : NumVal 16 s n) : ∀ {t : Str}, NumVal 16 t n → s.length = t.length →
    (∀ c ∈ s, ¬ ('A' ≤ c ∧ c ≤ 'F')) → (∀ c ∈ t, ¬ ('A' ≤ c ∧ c ≤ 'F')) → s = t := by
  induction h with
  | one h1 h2 =>
    intro t ht hl hs hts
    cases ht with
    | one h3 h4 => rw [lowerDigit h1 h3 (hs _ (by simp)) (hts _ (by simp))]
    | snoc h3 _ _ =>
      have := List.length_pos_iff.2 h3.ne_nil
      simp at hl; exact (h3.ne_nil hl).elim
  | @snoc s m c d hv h1 h2 ih =>
    intro t ht hl hs hts
    generalize hk : m * 16 + d = k at ht
    cases ht with
    | one h3 h4 => simp at hl; exact (hv.ne_nil hl).elim
    | @snoc t m' c' d' h3 h4 h5 =>
      have e : d = d' := by omega
      have e' : m = m' := by omega
      subst e e'
      rw [lowerDigit h1 h4 (hs _ (by simp)) (hts _ (by simp)),
        ih h3 (by simpa using hl) (fun c hc => hs c (by simp [hc])) (fun c hc => hts c (by simp [hc]))]

theorem hex8_iff {n : Nat} {s : Str} : Hex8 n s ↔ s = hex8 n := by
  constructor
  · have key : ∀ {s t}, Hex8 n s → Hex8 n t → ¬ (s.length = 8 ∧ 8 < t.length) := by
      rintro s t ⟨h1, _, _⟩ ⟨h2, h3, _⟩ ⟨e, hl⟩
      rcases h3 with h3 | ⟨_, h3⟩
      · omega
      · have a := numVal_lt h1
        have b := numVal_ge h2 h3
        rw [e] at a
        have : (16 : Nat) ^ 8 ≤ 16 ^ (t.length - 1) := Nat.pow_le_pow_right (by omega) (by omega)
        omega
    have key2 : ∀ {s t}, Hex8 n s → Hex8 n t → 8 < s.length → 8 < t.length → ¬ s.length < t.length := by
      rintro s t ⟨h1, _, _⟩ ⟨h2, h3, _⟩ _ h4 hl
      rcases h3 with h3 | ⟨_, h3⟩
      · omega
      · have a := numVal_lt h1
        have b := numVal_ge h2 h3
        have : (16 : Nat) ^ s.length ≤ 16 ^ (t.length - 1) := Nat.pow_le_pow_right (by omega) (by omega)
        omega
    intro h
    have h' := hex8_spec n
    refine numVal_lower h.1 h'.1 ?_ h.2.2 h'.2.2
    have a := key h h'
    have b := key h' h
    have c := key2 h h'
    have d := key2 h' h
    rcases h.2.1 with e | ⟨e, _⟩ <;> rcases h'.2.1 with e' | ⟨e', _⟩ <;> omega
  · rintro rfl; exact hex8_spec n

theorem idText_iff {id : Nat} {s : Str} : IdText id s ↔ s = p4IdToString id := by
  unfold p4IdToString
  constructor
  · intro h
    cases h with
    | plain h1 h2 h3 => rw [if_pos (Nat.mod_eq_of_lt h1), canonical_natDec.1 h2, hex8_iff.1 h3]
    | full h1 h2 h3 h4 =>
      have : ¬ id % 2 ^ 24 = id := by
        have := Nat.mod_lt id (show 0 < 2 ^ 24 by decide)
        omega
      rw [if_neg this, canonical_natDec.1 h2, canonical_natDec.1 h3, hex8_iff.1 h4]
  · rintro rfl
    split
    · rename_i h
      have := Nat.mod_lt id (show 0 < 2 ^ 24 by decide)
      exact .plain (by omega) (natDec_canonical _) (hex8_spec _)
    · rename_i h
      have : ¬ id < 2 ^ 24 := fun hl => h (Nat.mod_eq_of_lt hl)
      exact .full (by omega) (natDec_canonical _) (natDec_canonical _) (hex8_spec _)

end P4C
