import Verif.Spec.Repr

/-
`mpz_set_str` on digit strings.
-/

namespace P4C

open Spec

theorem digit?_some {c : Char} {d : Nat} (h : digit? c = some d) :
    48 ≤ c.toNat ∧ c.toNat ≤ 57 ∧ d = c.toNat - 48 := by
  unfold digit? at h
  split at h
  · rename_i hc
    obtain ⟨h1, h2⟩ := hc
    cases h
    have h1 : '0'.val ≤ c.val := h1
    have h2 : c.val ≤ '9'.val := h2
    rw [UInt32.le_iff_toNat_le] at h1 h2
    exact ⟨h1, h2, rfl⟩
  · cases h

theorem isSpaceC_of_ge {c : Char} (h : 33 ≤ c.toNat) : isSpaceC c = false := by
  unfold isSpaceC
  have : c ≠ ' ' := by rintro rfl; simp [Char.toNat] at h
  simp [this]
  omega

theorem digit?_facts {c : Char} {d : Nat} (h : digit? c = some d) :
    isSpaceC c = false ∧ digitIn 10 c = some d ∧ c ≠ '\x00' ∧ c ≠ '-' := by
  obtain ⟨h1, h2, rfl⟩ := digit?_some h
  refine ⟨isSpaceC_of_ge (by omega), ?_, ?_, ?_⟩
  · have hv : digitVal c = some (c.toNat - 48) := by unfold digitVal; rw [if_pos ⟨h1, h2⟩]
    have hlt : c.toNat - 48 < 10 := by omega
    simp only [digitIn, hv]
    rw [if_pos hlt]
  · rintro rfl; simp [Char.toNat] at h1
  · rintro rfl; simp [Char.toNat] at h1

theorem setStrDigits_digits {s : Str} {acc n : Nat} (h : digitsVal acc s = some n) :
    setStrDigits 10 acc s = some n := by
  induction s generalizing acc with
  | nil => simpa [digitsVal, setStrDigits] using h
  | cons c cs ih =>
    simp only [digitsVal, Option.bind_eq_some_iff] at h
    obtain ⟨d, hd, h⟩ := h
    obtain ⟨h1, h2, _, _⟩ := digit?_facts hd
    simp only [setStrDigits, h1, h2]
    rw [Nat.mul_comm acc 10]
    simpa using ih h

theorem digitsVal_cstr {s : Str} {acc n : Nat} (h : digitsVal acc s = some n) : cstr s = s := by
  induction s generalizing acc with
  | nil => rfl
  | cons c cs ih =>
    simp only [digitsVal, Option.bind_eq_some_iff] at h
    obtain ⟨d, hd, h⟩ := h
    obtain ⟨_, _, h3, _⟩ := digit?_facts hd
    have := ih h
    unfold cstr at this ⊢
    rw [List.takeWhile_cons]
    simp only [ne_eq, h3, not_false_eq_true, decide_true, if_true]
    rw [this]

theorem setStr_decimal {s : Str} {n : Nat} (h : decimal? s = some n) : setStr 10 s = some (n : Int) := by
  unfold decimal? at h
  split at h
  · cases h
  · cases s with
    | nil => contradiction
    | cons c cs =>
      have hc := digitsVal_cstr h
      have hs := setStrDigits_digits h
      simp only [digitsVal, Option.bind_eq_some_iff] at h
      obtain ⟨d, hd, _⟩ := h
      obtain ⟨h1, h2, _, h4⟩ := digit?_facts hd
      unfold setStr
      simp only [hc, List.dropWhile_cons, h1, Bool.false_eq_true, if_false]
      split
      · rename_i heq; cases heq; exact absurd rfl h4
      · rename_i heq; cases heq; simp [h2, hs]
      · rename_i heq; cases heq

end P4C
