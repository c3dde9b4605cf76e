import Verif.Proofs.Recognize

/-!
# Address literals read by the recogniser
All string tokens that the recogniser has passed belong to address literals that are not declared bad.
-/

namespace P4C

open Spec

/-- No string token of `a` that is followed by at least `m` more tokens of `a` is declared bad; `a` is followed by `r`. -/
def Clean (bad : Nat → Prop) (m : Nat) (a r : List Kind) : Prop :=
  ∀ u v, a = u ++ .string :: v → m ≤ v.length → ¬ bad (v.length + r.length - 1)

def CleanRO (bad : Nat → Prop) (ks : List Kind) : RO → Prop
  | .ok r => ∃ a, ks = a ++ r ∧ Clean bad 0 a r
  | .fail _ r => ∃ a, ks = a ++ r ∧ Clean bad 1 a r
  | .addr r => ∃ a, ks = a ++ r ∧ Clean bad 2 a r
  | .oof => True

variable {bad : Nat → Prop}

theorem Clean.append {m : Nat} {a b r : List Kind} (ha : Clean bad 0 a (b ++ r)) (hb : Clean bad m b r) :
    Clean bad m (a ++ b) r := by
  intro u v e hm
  rcases List.append_eq_append_iff.1 e with ⟨c, rfl, h⟩ | ⟨c, rfl, h⟩
  · exact hb c v h hm
  · cases c with
    | nil => simp at h; exact hb [] v (by simpa using h.symm) hm
    | cons c0 c =>
      simp only [List.cons_append, List.cons.injEq] at h
      obtain ⟨rfl, rfl⟩ := h
      have := ha u c rfl (Nat.zero_le _)
      simpa [Nat.add_assoc] using this

theorem Clean.none {m : Nat} {a r : List Kind} (h : Kind.string ∉ a) : Clean bad m a r := by
  rintro u v rfl
  simp at h

theorem CleanRO.bind {ks : List Kind} {o : RO} {f : List Kind → RO} (h : CleanRO bad ks o)
    (hf : ∀ r, CleanRO bad r (f r)) : CleanRO bad ks (o.bind f) := by
  cases o with
  | ok r =>
    obtain ⟨a, rfl, ha⟩ := h
    have := hf r
    show CleanRO bad (a ++ r) (f r)
    cases hr : f r with
    | oof => trivial
    | _ =>
      rw [hr] at this
      obtain ⟨b, rfl, hb⟩ := this
      exact ⟨a ++ b, by simp, ha.append hb⟩
  | _ => exact h

theorem clean_here {ks : List Kind} : CleanRO bad ks (.ok ks) := ⟨[], rfl, .none (by simp)⟩
theorem clean_fail {ks : List Kind} {d : Reason} : CleanRO bad ks (.fail d ks) := ⟨[], rfl, .none (by simp)⟩

theorem hd_ne_nil {ks : List Kind} {k : Kind} (h : hd ks = k) (hk : k ≠ .endOfInput) : ks = k :: ks.tail := by
  cases ks with
  | nil => exact absurd h.symm hk
  | cons k' ks => cases h; rfl

theorem clean_tail {ks : List Kind} {k : Kind} (h : hd ks = k) (hk : k ≠ .endOfInput) (hs : k ≠ .string) :
    CleanRO bad ks (.ok ks.tail) :=
  ⟨[k], hd_ne_nil h hk, .none (by simpa using Ne.symm hs)⟩

theorem clean_expect {ks : List Kind} {k : Kind} (hk : k ≠ .endOfInput) (hs : k ≠ .string) :
    CleanRO bad ks (rExpect k ks) := by
  unfold rExpect
  split
  · rename_i h; exact clean_tail h hk hs
  · exact clean_fail

theorem CleanRO.cons {ks : List Kind} {k : Kind} {o : RO} (h : CleanRO bad ks.tail o) (hd' : hd ks = k)
    (hk : k ≠ .endOfInput) (hs : k ≠ .string) : CleanRO bad ks o := by
  cases o with
  | oof => trivial
  | _ =>
    obtain ⟨a, e, ha⟩ := h
    refine ⟨k :: a, by rw [hd_ne_nil hd' hk, e]; rfl, ?_⟩
    exact Clean.append (a := [k]) (.none (by simpa using Ne.symm hs)) ha

theorem clean_dots : ∀ ks, CleanRO bad ks (rDots ks)
  | ks => by
    have dot : ∀ {ks o}, CleanRO bad ks o → CleanRO bad (.dot :: ks) o :=
      fun {ks o} h => CleanRO.cons (ks := .dot :: ks) (k := .dot) h rfl (by decide) (by decide)
    have id : ∀ {ks o}, CleanRO bad ks o → CleanRO bad (.id :: ks) o :=
      fun {ks o} h => CleanRO.cons (ks := .id :: ks) (k := .id) h rfl (by decide) (by decide)
    unfold rDots
    split
    · exact dot (id (clean_dots _))
    · exact dot clean_fail
    · exact clean_here

theorem clean_address (ks : List Kind) :
    CleanRO bad ks (((rExpect .string ks).bind (rExpect .rpar)).bind (rCheck bad)) := by
  unfold rExpect
  by_cases h1 : hd ks = .string
  · rw [if_pos h1]
    have e1 := hd_ne_nil h1 (by decide)
    show CleanRO bad ks (RO.bind (if hd ks.tail = .rpar then _ else _) _)
    by_cases h2 : hd ks.tail = .rpar
    · rw [if_pos h2]
      have e2 := hd_ne_nil h2 (by decide)
      show CleanRO bad ks (rCheck bad _)
      have key : ∀ m, (∀ v, m ≤ 1 → v = ks.tail.tail.length → ¬ bad v) → Clean bad m [.string, .rpar] ks.tail.tail := by
        intro m hm u v e hv
        rcases u with _ | ⟨k1, _ | ⟨k2, u⟩⟩
        · simp at e
          subst e
          simp at hv
          exact hm _ hv (by simp)
        · simp at e
        · simp at e
      unfold rCheck
      by_cases h3 : bad ks.tail.tail.length
      · rw [if_pos h3]
        exact ⟨[.string, .rpar], by rw [e1, e2]; rfl, key 2 (by omega)⟩
      · rw [if_neg h3]
        exact ⟨[.string, .rpar], by rw [e1, e2]; rfl, key 0 (by rintro v - rfl; exact h3)⟩
    · rw [if_neg h2]
      refine ⟨[.string], e1, ?_⟩
      intro u v e hv
      cases u with
      | nil => simp at e; subst e; simp at hv
      | cons _ u => simp at e
  · rw [if_neg h1]
    exact clean_fail

theorem clean_head {rec : Nat → List Kind → RO} (h : ∀ p ks, CleanRO bad ks (rec p ks)) (ks : List Kind) :
    CleanRO bad ks (rHead bad rec ks) := by
  unfold rHead
  cases hk : hd ks <;> dsimp only <;> try exact clean_tail hk (by decide) (by decide)
  all_goals try exact clean_fail
  · exact (h _ _).cons hk (by decide) (by decide)
  · exact (h _ _).cons hk (by decide) (by decide)
  · exact (clean_expect (k := .id) (by decide) (by decide)).cons hk (by decide) (by decide)
  · exact ((h _ _).bind fun r => clean_expect (k := .rpar) (by decide) (by decide)).cons hk (by decide) (by decide)
  · by_cases hl : hd ks.tail = .lpar
    · rw [if_pos hl]
      exact ((clean_address _).cons hl (by decide) (by decide)).cons hk (by decide) (by decide)
    · rw [if_neg hl]
      exact (clean_dots _).cons hk (by decide) (by decide)

theorem clean_loop {above : Nat → List Kind → RO} {ext : List Kind → RO} (ha : ∀ p ks, CleanRO bad ks (above p ks))
    (he : ∀ ks, CleanRO bad ks (ext ks)) (p : Nat) (ks : List Kind) : CleanRO bad ks (rLoop above ext p ks) := by
  unfold rLoop
  by_cases h1 : hd ks = .endOfInput ∨ hd ks = .rpar
  · rw [if_pos h1]; exact clean_here
  rw [if_neg h1]
  have hne : hd ks ≠ .endOfInput := fun h => h1 (.inl h)
  by_cases h2 : isExtension (hd ks) = true
  · rw [if_pos h2]
    have hs : hd ks ≠ .string := by intro h; rw [h] at h2; cases h2
    repeat' split
    · exact clean_fail
    · exact clean_here
    · exact clean_tail rfl hne hs
    · exact ((clean_expect (by decide) (by decide)).bind he).cons rfl hne hs
    · exact ((ha _ _).bind he).cons rfl hne hs
  · rw [if_neg h2]; exact clean_fail

theorem r_clean (bad : Nat → Prop) : ∀ f, (∀ p ks, CleanRO bad ks (rAbove bad f p ks)) ∧
    ∀ p ks, CleanRO bad ks (rExt bad f p ks)
  | 0 => ⟨(fun _ _ => by rw [rAbove]; trivial), (fun _ _ => by rw [rExt]; trivial)⟩
  | f + 1 => by
    obtain ⟨ih1, ih2⟩ := r_clean bad f
    refine ⟨fun p ks => ?_, fun p ks => ?_⟩
    · rw [rAbove_succ]
      exact (clean_head ih1 ks).bind (ih2 p)
    · rw [rExt_succ]
      exact clean_loop ih1 (ih2 p) p ks

end P4C
