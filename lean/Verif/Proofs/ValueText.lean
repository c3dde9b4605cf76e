import Verif.Proofs.TypeFault
import Verif.Spec.Explain

namespace P4C

open Spec

theorem valueText_of {entry : RtEntry} {ki : VarInfo} {v : Value} (h : KeyValue entry ki v) : ValueText v (evalResultToString v) := by
  have hi : ∀ z, IntNumeral z (intDec z) := fun z => intNumeral_iff.2 rfl
  have key : (∃ t m, MatchDenotes t m v) ∨ ∃ t, WildcardOf t v := by
    rcases h with ⟨m, _, _, h⟩ | ⟨_, h⟩
    · exact .inl ⟨_, _, h⟩
    · exact .inr ⟨_, h⟩
  rcases key with ⟨t, m, h⟩ | ⟨t, h⟩ <;> cases h <;>
  first
  | exact .exact (hi _)
  | exact .ternary (hi _) (hi _)
  | exact .lpm (hi _) (hi _)
  | exact .range (hi _) (hi _)

theorem intNumeral_chars {z : Int} {s : Str} (h : IntNumeral z s) : ∀ c ∈ s, c ≠ ',' ∧ c ≠ '}' := by
  have num : ∀ {s : Str} {n : Nat}, Canonical s n → ∀ c ∈ s, c ≠ ',' ∧ c ≠ '}' := by
    intro s n h c hc
    obtain ⟨d, hd, _⟩ := h.1.mem c hc
    constructor <;>
    · rintro rfl
      simp [digits] at hd
  cases h with
  | nonneg h => exact num h
  | neg _ h =>
    intro c hc
    rcases List.mem_cons.1 hc with rfl | hc
    · decide
    · exact num h c hc

theorem split_at {s t x y : Str} {c : Char} (hs : c ∉ s) (ht : c ∉ t) (h : s ++ c :: x = t ++ c :: y) : s = t ∧ x = y := by
  induction s generalizing t with
  | nil =>
    cases t with
    | nil => simpa using h
    | cons b t => simp at h ht; exact (ht.1 h.1).elim
  | cons a s ih =>
    cases t with
    | nil => simp at h hs; exact (hs.1 h.1.symm).elim
    | cons b t =>
      simp only [List.cons_append, List.cons.injEq] at h
      simp only [List.mem_cons, not_or] at hs ht
      obtain ⟨h1, h2⟩ := ih hs.2 ht.2 h.2
      exact ⟨by rw [h.1, h1], h2⟩

theorem valueText_unique {v w : Value} {s : Str} (h : ValueText v s) (h' : ValueText w s) : v = w := by
  have two : ∀ {a b a' b' : Int} {s t s' t' mid mid' : Str}, IntNumeral a s → IntNumeral b t → IntNumeral a' s' →
      IntNumeral b' t' → s ++ (',' :: (mid ++ (t ++ c!"}"))) = s' ++ (',' :: (mid' ++ (t' ++ c!"}"))) → mid = mid' → a = a' ∧ b = b' := by
    intro a b a' b' s t s' t' mid mid' h1 h2 h3 h4 h5 h6
    obtain ⟨h7, h8⟩ := split_at (fun h => (intNumeral_chars h1 _ h).1 rfl) (fun h => (intNumeral_chars h3 _ h).1 rfl) h5
    subst h6 h7
    have h9 := List.append_cancel_right (List.append_cancel_left h8)
    subst h9
    exact ⟨intNumeral_unique h1 h3, intNumeral_unique h2 h4⟩
  generalize hs : s = s' at h'
  cases h with
  | exact h1 =>
    cases h' with
    | exact h2 =>
      have := List.append_cancel_right (List.append_cancel_left (by simpa only [List.append_assoc] using hs))
      subst this
      rw [intNumeral_unique h1 h2]
    | _ => simp at hs
  | ternary h1 h2 =>
    cases h' with
    | ternary h3 h4 =>
      obtain ⟨rfl, rfl⟩ := two (mid := c!" .mask = ") (mid' := c!" .mask = ") h1 h2 h3 h4 (by simpa using hs) rfl
      rfl
    | _ => simp at hs
  | lpm h1 h2 =>
    cases h' with
    | lpm h3 h4 =>
      obtain ⟨rfl, rfl⟩ := two (mid := c!" .prefix_length = ") (mid' := c!" .prefix_length = ") h1 h2 h3 h4 (by simpa using hs) rfl
      rfl
    | _ => simp at hs
  | range h1 h2 =>
    cases h' with
    | range h3 h4 =>
      obtain ⟨rfl, rfl⟩ := two (mid := c!" .high = ") (mid' := c!" .high = ") h1 h2 h3 h4 (by simpa using hs) rfl
      rfl
    | _ => simp at hs

end P4C
