import Verif.Proofs.Scan
import Verif.Spec.Lexical

/-
Characters, and texts scanned by negated classes.
-/

namespace P4C

open Spec

theorem isCont_iff {c : Char} : isCont c = true ↔ Cont c := by
  simp [isCont, Cont]

theorem Rune.ne_nil {r : Str} (h : Rune r) : r ≠ [] := by cases h <;> simp

theorem Rune.length_pos {r : Str} (h : Rune r) : 0 < r.length := List.length_pos_iff.2 (Rune.ne_nil h)

theorem Rune.unique {r r' u v : Str} (h : Rune r) (h' : Rune r') (he : r ++ u = r' ++ v) : r = r' ∧ u = v := by
  cases h <;> cases h' <;> simp only [List.cons_append, List.nil_append, List.cons.injEq] at he <;>
    first
    | (obtain ⟨rfl, rfl⟩ := he; exact ⟨rfl, rfl⟩)
    | (obtain ⟨rfl, rfl, rfl⟩ := he; exact ⟨rfl, rfl⟩)
    | (obtain ⟨rfl, rfl, rfl, rfl⟩ := he; exact ⟨rfl, rfl⟩)
    | (obtain ⟨rfl, rfl, rfl, rfl, rfl⟩ := he; exact ⟨rfl, rfl⟩)
    | (obtain ⟨rfl, _⟩ := he; omega)

/-- A multi-byte character consists of bytes outside of ASCII. -/
theorem Rune.cases' {r : Str} (h : Rune r) : (∃ c, r = [c] ∧ c.toNat < 0x80) ∨ ∀ c ∈ r, 0x80 ≤ c.toNat := by
  cases h with
  | ascii h => exact .inl ⟨_, rfl, h⟩
  | two h1 h2 hd =>
    right; intro c hc
    have := hd.1
    simp only [List.mem_cons, List.not_mem_nil, or_false] at hc
    rcases hc with rfl | rfl <;> omega
  | three h1 h2 hd he =>
    right; intro c hc
    have := hd.1; have := he.1
    simp only [List.mem_cons, List.not_mem_nil, or_false] at hc
    rcases hc with rfl | rfl | rfl <;> omega
  | four h1 h2 hd he hf =>
    right; intro c hc
    have := hd.1; have := he.1; have := hf.1
    simp only [List.mem_cons, List.not_mem_nil, or_false] at hc
    rcases hc with rfl | rfl | rfl | rfl <;> omega

theorem multiByteLen_iff {s : Str} {n : Nat} :
    multiByteLen s = some n ↔ ∃ r t, s = r ++ t ∧ Rune r ∧ r.length = n ∧ ∀ c ∈ r, 0x80 ≤ c.toNat := by
  constructor
  · intro h
    have h80 := multiByteLen_some h
    cases s with
    | nil => simp [multiByteLen] at h
    | cons c cs =>
      refine ⟨(c :: cs).take n, (c :: cs).drop n, (List.take_append_drop ..).symm, ?_, by
        rw [List.length_take]; omega, h80.2.2⟩
      rw [multiByteLen_cons] at h
      split at h
      · rename_i hc
        simp only [Bool.and_eq_true, decide_eq_true_eq] at hc
        split at h
        · split at h
          · rename_i h1
            cases h
            exact .two hc.1 hc.2 (isCont_iff.1 h1)
          · cases h
        · cases h
      · split at h
        · rename_i hc
          simp only [Bool.and_eq_true, decide_eq_true_eq] at hc
          split at h
          · split at h
            · rename_i h1
              simp only [Bool.and_eq_true] at h1
              cases h
              exact .three hc.1 hc.2 (isCont_iff.1 h1.1) (isCont_iff.1 h1.2)
            · cases h
          · cases h
        · split at h
          · rename_i hc
            simp only [Bool.and_eq_true, decide_eq_true_eq] at hc
            split at h
            · split at h
              · rename_i h1
                simp only [Bool.and_eq_true] at h1
                cases h
                exact .four hc.1 hc.2 (isCont_iff.1 h1.1.1) (isCont_iff.1 h1.1.2) (isCont_iff.1 h1.2)
              · cases h
            · cases h
          · cases h
  · rintro ⟨r, t, rfl, hr, rfl, h80⟩
    cases hr with
    | ascii h => have := h80 _ (List.mem_cons_self ..); omega
    | two h1 h2 hd =>
      simp only [List.cons_append, List.nil_append]
      rw [multiByteLen_cons]
      simp [h1, h2, isCont_iff.2 hd]
    | three h1 h2 hd he =>
      simp only [List.cons_append, List.nil_append]
      rw [multiByteLen_cons]
      rw [if_neg (by simp; omega), if_pos (by simp; omega)]
      simp [isCont_iff.2 hd, isCont_iff.2 he]
    | four h1 h2 hd he hf =>
      simp only [List.cons_append, List.nil_append]
      rw [multiByteLen_cons]
      rw [if_neg (by simp; omega), if_neg (by simp; omega), if_pos (by simp; omega)]
      simp [isCont_iff.2 hd, isCont_iff.2 he, isCont_iff.2 hf]

theorem Cls.Neg.len_iff {k : Cls} (h : k.Neg) {s : Str} {n : Nat} :
    k.len s = some n ↔ ∃ r t, s = r ++ t ∧ Rune r ∧ r.length = n ∧ ∀ c ∈ r, k.mem c = false := by
  cases s with
  | nil =>
    simp only [Cls.len, reduceCtorEq, false_iff, not_exists, not_and]
    intro r t he hr
    have := Rune.ne_nil hr
    simp at he
    exact absurd he.1 this
  | cons c cs =>
    rw [Cls.len_cons, h.neg]
    split
    · rename_i hc
      constructor
      · intro hl
        split at hl
        · rename_i hm
          cases hl
          exact ⟨[c], cs, rfl, .ascii hc, rfl, by simpa using hm⟩
        · cases hl
      · rintro ⟨r, t, he, hr, rfl, hm⟩
        have hr' := Rune.unique (u := t) (v := cs) hr (.ascii hc) he.symm
        obtain ⟨rfl, rfl⟩ := hr'
        have := hm c (List.mem_cons_self ..)
        simp [this]
    · rename_i hc
      simp only [if_true]
      rw [multiByteLen_iff]
      constructor
      · rintro ⟨r, t, he, hr, hl, h80⟩
        refine ⟨r, t, he, hr, hl, ?_⟩
        intro d hd
        have := h80 d hd
        cases hm : k.mem d with
        | false => rfl
        | true => have := h.ascii d hm; omega
      · rintro ⟨r, t, he, hr, hl, hm⟩
        refine ⟨r, t, he, hr, hl, ?_⟩
        rcases Rune.cases' hr with ⟨d, rfl, hd⟩ | h80
        · simp at he; rw [he.1] at hc; omega
        · exact h80

theorem Runes.append {a b : Str} (ha : Runes a) (hb : Runes b) : Runes (a ++ b) := by
  induction ha with
  | nil => exact hb
  | cons hr _ ih => rw [List.append_assoc]; exact .cons hr ih

theorem Runes.ascii {a : Str} (h : ∀ c ∈ a, c.toNat < 0x80) : Runes a := by
  induction a with
  | nil => exact .nil
  | cons c a ih =>
    exact Runes.cons (r := [c]) (.ascii (h c (List.mem_cons_self ..))) (ih fun d hd => h d (List.mem_cons_of_mem _ hd))

/-- What a negated class scans. -/
theorem Cls.Neg.munch_iff {k : Cls} (h : k.Neg) {fuel : Nat} {s : Str} (hf : s.length ≤ fuel) :
    ∃ a b, s = a ++ b ∧ munch k fuel s = a.length ∧ Runes a ∧ (∀ c ∈ a, k.mem c = false) ∧
      k.len b = none := by
  induction fuel generalizing s with
  | zero =>
    have : s = [] := List.length_eq_zero_iff.1 (by omega)
    subst this
    exact ⟨[], [], rfl, rfl, .nil, by simp, rfl⟩
  | succ fuel ih =>
    unfold munch
    cases hl : k.len s with
    | none => exact ⟨[], s, rfl, rfl, .nil, by simp, hl⟩
    | some n =>
      obtain ⟨r, t, rfl, hr, rfl, hm⟩ := h.len_iff.1 hl
      have := Rune.length_pos hr
      obtain ⟨a, b, rfl, h2, h3, h4, h5⟩ := ih (s := t) (by simp at hf; omega)
      refine ⟨r ++ a, b, by simp, by simp [h2], .cons hr h3, ?_, h5⟩
      intro c hc
      rcases List.mem_append.1 hc with hc | hc
      · exact hm c hc
      · exact h4 c hc

theorem Cls.Neg.len_none_iff {k : Cls} (h : k.Neg) {s : Str} :
    k.len s = none ↔ ∀ r t, s = r ++ t → Rune r → ∃ c ∈ r, k.mem c = true := by
  cases hl : k.len s with
  | none =>
    simp only [true_iff]
    intro r t he hr
    apply Classical.byContradiction
    intro hn
    have : k.len s = some r.length := h.len_iff.2 ⟨r, t, he, hr, rfl, by
      intro c hc
      cases hm : k.mem c with
      | false => rfl
      | true => exact absurd ⟨c, hc, hm⟩ hn⟩
    rw [hl] at this; cases this
  | some n =>
    simp only [reduceCtorEq, false_iff]
    intro hall
    obtain ⟨r, t, he, hr, _, hm⟩ := h.len_iff.1 hl
    obtain ⟨c, hc, hc'⟩ := hall r t he hr
    rw [hm c hc] at hc'
    cases hc'

/-- Two readings of the same text, of which the second stops at something that is no character of the
class. -/
theorem Runes.prefix {k : Cls} (h : k.Neg) {x y u v : Str} (hx : Runes x) (hy : Runes y)
    (hxm : ∀ c ∈ x, k.mem c = false) (he : x ++ u = y ++ v) (hv : k.len v = none) :
    ∃ z, y = x ++ z ∧ Runes z := by
  induction hx generalizing y with
  | nil => exact ⟨y, rfl, hy⟩
  | @cons r x' hr hx ih =>
    cases hy with
    | nil =>
      have := h.len_iff.2 ⟨r, x' ++ u, by simpa using he.symm, hr, rfl,
        fun c hc => hxm c (List.mem_append_left _ hc)⟩
      rw [hv] at this; cases this
    | cons hr' hy' =>
      rw [List.append_assoc, List.append_assoc] at he
      obtain ⟨rfl, he'⟩ := Rune.unique hr hr' he
      obtain ⟨z, rfl, hz⟩ := ih hy' (fun c hc => hxm c (List.mem_append_right _ hc)) he'
      exact ⟨z, by simp, hz⟩

/-- The scan is the only reading that stops at something that is no character of the class. -/
theorem Runes.stop_unique {k : Cls} (h : k.Neg) {x y u v : Str} (hx : Runes x) (hy : Runes y)
    (hxm : ∀ c ∈ x, k.mem c = false) (hym : ∀ c ∈ y, k.mem c = false) (he : x ++ u = y ++ v)
    (hu : k.len u = none) (hv : k.len v = none) : x = y ∧ u = v := by
  obtain ⟨z, hz, _⟩ := Runes.prefix h hx hy hxm he hv
  obtain ⟨z', hz', _⟩ := Runes.prefix h hy hx hym he.symm hu
  have hl : x.length = y.length := by
    have h1 := congrArg List.length hz
    have h2 := congrArg List.length hz'
    simp at h1 h2; omega
  exact List.append_inj he hl

/-- The class of all characters. -/
def anyCls : Cls := ⟨true, fun _ => false⟩

theorem anyCls_neg : anyCls.Neg := ⟨rfl, by simp [anyCls]⟩

theorem noRune_iff {s : Str} : NoRune s ↔ anyCls.len s = none := by
  rw [anyCls_neg.len_none_iff]
  constructor
  · intro h r t he hr; exact absurd he (h r t hr)
  · intro h r t hr he
    obtain ⟨c, _, hc⟩ := h r t he hr
    simp [anyCls] at hc

theorem noRune_head {c : Char} {s : Str} (h : NoRune (c :: s)) : 0x80 ≤ c.toNat := by
  apply Classical.byContradiction
  intro hc
  exact h [c] s (.ascii (by omega)) rfl

end P4C
