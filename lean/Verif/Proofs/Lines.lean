import Verif.Proofs.Bounds
import Verif.Props.Lexing

/-
The lines of the tokens of a text.
-/

namespace P4C

open Spec

/-- The ends of nodes are ends of tokens. -/
theorem infer_tokens {sys : Sys} {k : ConstraintKind} {src : ConstraintSource} {sc : Scope} {e e' x : Expr}
    (h : Constraint sys.inetPton6 k (tokenize src) e) (hi : inferAndCheck src sc e = .ok e') (hx : NodeOf x e') :
    (∃ t ∈ tokenize src, x.start = t.start) ∧ ∃ t ∈ tokenize src, x.stop = t.stop := by
  have h1 := infer_strip hi
  obtain ⟨y, h2, h3, h4⟩ := elab_node hx h1.2
  rw [h1.1] at h2
  obtain ⟨z, h5, h6, h7⟩ := strip_node h2 (infer_castFree hi)
  obtain ⟨a, b, g1, g2, -⟩ := h
  obtain ⟨⟨t, g3, g4⟩, u, g5, g6⟩ := G_ends g2 z h5
  rw [← h3, ← h4, ← h6, ← h7, g1]
  exact ⟨⟨t, List.mem_append_left _ g3, g4⟩, u, List.mem_append_left _ g5, g6⟩

theorem Spec.Placed.oneLine {l : Loc} {s : Str} {ts : List Token} (h : Placed l s ts) : ∀ t ∈ ts, t.start.line = t.stop.line := by
  induction h with
  | eof _ _ => intro t ht; cases List.mem_singleton.1 ht; rfl
  | bad _ _ _ => intro t ht; cases List.mem_singleton.1 ht; rfl
  | cons _ _ _ _ h2 _ ih =>
    intro x hx
    rcases List.mem_cons.1 hx with rfl | hx
    · rw [h2]; rfl
    · exact ih x hx

/-- No token is in a later line than the last one. -/
theorem last_line (src : ConstraintSource) {ts : List Token} {last t : Token} (h : tokenize src = ts ++ [last])
    (ht : t ∈ tokenize src) : t.start.line ≤ last.start.line ∧ t.stop.line ≤ last.start.line := by
  obtain ⟨h1, hp⟩ := C20_exact src
  have ho := h1.oneLine
  rw [h] at hp ht
  have h2 := ho t (h ▸ ht)
  rcases List.mem_append.1 ht with ht | ht
  · have := (List.pairwise_append.1 hp).2.2 t ht last (List.mem_singleton.2 rfl)
    simp only [LocLe] at this
    omega
  · cases List.mem_singleton.1 ht
    omega

theorem literalBreaks_append (a b : List Token) : literalBreaks (a ++ b) = literalBreaks a + literalBreaks b := by
  induction a with
  | nil => simp [literalBreaks]
  | cons t a ih => simp only [List.cons_append, literalBreaks, ih]; omega

/-- The line of the end of a text without unexpected characters. -/
theorem end_line {src : ConstraintSource} (h : ∀ t ∈ tokenize src, t.kind ≠ .unexpectedChar) :
    ∃ ts last, tokenize src = ts ++ [last] ∧
      last.start.line = (advance src.loc src.str).line - literalBreaks (tokenize src) := by
  obtain ⟨ts, last, r, h1, h2, -, h3⟩ := C19_terminated src
  refine ⟨ts, last, h1, ?_⟩
  obtain ⟨h3, -⟩ := h3.resolve_right fun h' => h last (by rw [h1]; simp) h'.1
  obtain ⟨a, b, g1, g2, g3⟩ := C20_exact_line h1
  have hb : b = [] := by
    rcases g3 with ⟨-, g3⟩ | ⟨c, r, g3, -⟩ | ⟨lexeme, r, g3, -⟩
    · exact g3
    · rw [h3] at g3; cases g3
    · rw [h3] at g3
      cases g3 with
      | keyword g3 => exact absurd g3 (by simp [keywords])
  subst hb
  rw [List.append_nil] at g1
  rw [g2, ← g1, h1, literalBreaks_append]
  simp [literalBreaks, h3]

/-- Constraints have no unexpected characters. -/
theorem constraint_lexable {pton : Str → Option Bytes} {k : ConstraintKind} {src : ConstraintSource} {e : Expr}
    (h : Constraint pton k (tokenize src) e) : ∀ t ∈ tokenize src, t.kind ≠ .unexpectedChar := by
  obtain ⟨ts, last, r, h1, h2, -, -⟩ := C19_terminated src
  obtain ⟨a, b, g1, g2, g3⟩ := h
  intro t ht hx
  have hlast : t = last := by
    rw [h1] at ht
    rcases List.mem_append.1 ht with ht | ht
    · exact absurd hx (h2 t ht).2
    · exact List.mem_singleton.1 ht
  rcases g3 with rfl | ⟨u, b', rfl, hu⟩
  · rw [g1, List.append_nil] at ht
    exact (G_proper g2 t ht).2 hx
  · have hu' : u ∈ ts ++ [last] := by rw [← h1, g1]; simp
    rcases List.mem_append.1 hu' with hu' | hu'
    · exact (h2 u hu').1 hu
    · cases List.mem_singleton.1 hu'
      rw [hlast, hu] at hx
      cases hx

end P4C
