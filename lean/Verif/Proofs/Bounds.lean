import Verif.Spec.Bounds
import Verif.Proofs.Placed
import Verif.Proofs.Cost2
import Verif.Proofs.Unexplained

/-
Ranges of source locations.
-/

namespace P4C

open Spec

theorem within_refl {l : Loc} (h : 0 ≤ l.col) (n : Nat) : WithinText l n l := ⟨by omega, h, by omega⟩

theorem within_trans {l x y : Loc} {m n k : Nat} (h : WithinText l m x) (h' : WithinText x n y) (hk : m + n ≤ k) :
    WithinText l k y := by
  obtain ⟨a, b, c⟩ := h
  obtain ⟨a', b', c'⟩ := h'
  exact ⟨by omega, b', by omega⟩

theorem within_mono {l x : Loc} {m n : Nat} (h : WithinText l m x) (hn : m ≤ n) : WithinText l n x :=
  ⟨h.1, h.2.1, by have := h.2.2; omega⟩

theorem within_shift {l : Loc} (h : 0 ≤ l.col) (n : Nat) : WithinText l n (shift l n) :=
  ⟨Int.le_refl _, by simp only [shift]; omega, by simp only [shift]; omega⟩

theorem within_advance (s : Str) : ∀ {l : Loc}, 0 ≤ l.col → WithinText l s.length (advance l s) := by
  induction s with
  | nil => exact fun h => within_refl h _
  | cons c s ih =>
    intro l h
    simp only [advance]
    have : ∀ {x : Loc}, WithinText l 1 x → WithinText l (c :: s).length (advance x s) := fun hx =>
      within_trans hx (ih hx.2.1) (by simp; omega)
    split
    · exact this (within_refl h _)
    · split
      · exact this ⟨by simp only [nextLine]; omega, by simp [nextLine], by simp only [nextLine]; omega⟩
      · exact this (within_shift h 1)

theorem Spec.Placed.within {l : Loc} {s : Str} {ts : List Token} (h : Placed l s ts) (hc : 0 ≤ l.col) :
    ∀ t ∈ ts, WithinText l s.length t.start ∧ WithinText l s.length t.stop := by
  induction h with
  | eof _ hp =>
    subst hp
    intro t ht
    cases List.mem_singleton.1 ht
    exact ⟨within_advance _ hc, within_advance _ hc⟩
  | @bad l gap s c p _ _ hp =>
    subst hp
    intro t ht
    cases List.mem_singleton.1 ht
    have := within_advance gap hc
    refine ⟨within_mono this (by simp), within_trans this (within_shift this.2.1 1) (by simp)⟩
  | @cons l gap lexeme s t ts _ _ _ h1 h2 _ ih =>
    have g1 := within_advance gap hc
    rw [← h1] at g1
    have g2 := within_shift g1.2.1 lexeme.length
    rw [← h2] at g2
    have g3 := within_trans g1 g2 (Nat.le_refl _)
    intro x hx
    rcases List.mem_cons.1 hx with rfl | hx
    · exact ⟨within_mono g1 (by simp), within_mono g3 (by simp)⟩
    · have := ih g2.2.1 x hx
      exact ⟨within_trans g3 this.1 (by simp; omega), within_trans g3 this.2 (by simp; omega)⟩

theorem node_within {sys : Sys} {k : ConstraintKind} {src : ConstraintSource} {e x : Expr}
    (h : Constraint sys.inetPton6 k (tokenize src) e) (hc : 0 ≤ src.loc.col) (hx : NodeOf x e) :
    WithinText src.loc src.str.length x.start ∧ WithinText src.loc src.str.length x.stop := by
  obtain ⟨a, b, h1, h2, -⟩ := h
  have hw := (lexed_inPlace (tokenize_lexed src)).within hc
  obtain ⟨⟨t, h3, h4⟩, u, h5, h6⟩ := G_ends h2 x hx
  exact ⟨h4 ▸ (hw t (by rw [h1]; exact List.mem_append_left _ h3)).1,
    h6 ▸ (hw u (by rw [h1]; exact List.mem_append_left _ h5)).2⟩

/-- Type checking keeps locations: every node of the typed tree spans a node of the tree. -/
theorem elab_node {e' x : Expr} (hx : NodeOf x e') (h : WellElab e') :
    ∃ y, NodeOf y (strip e') ∧ y.start = x.start ∧ y.stop = x.stop := by
  have self : ∀ e', WellElab e' → (strip e').start = e'.start ∧ (strip e').stop = e'.stop := by
    intro e'
    induction e' with
    | typeCast i e ih =>
      intro h
      simp only [WellElab] at h
      simp only [strip]
      rw [(ih h.2.1).1, (ih h.2.1).2]
      exact ⟨h.2.2.2.1.symm, h.2.2.2.2.symm⟩
    | _ => exact fun _ => ⟨rfl, rfl⟩
  induction hx with
  | self => exact ⟨_, .self _, self _ h⟩
  | boolNeg _ ih => obtain ⟨y, h1, h2⟩ := ih h.2; exact ⟨y, .boolNeg h1, h2⟩
  | arithNeg _ ih => obtain ⟨y, h1, h2⟩ := ih h.2; exact ⟨y, .arithNeg h1, h2⟩
  | typeCast _ ih => obtain ⟨y, h1, h2⟩ := ih h.2.1; exact ⟨y, h1, h2⟩
  | field _ ih => obtain ⟨y, h1, h2⟩ := ih h.2; exact ⟨y, .field h1, h2⟩
  | left _ ih => obtain ⟨y, h1, h2⟩ := ih h.2.1; exact ⟨y, .left h1, h2⟩
  | right _ ih => obtain ⟨y, h1, h2⟩ := ih h.2.2; exact ⟨y, .right h1, h2⟩

theorem strip_node {e y : Expr} (hy : NodeOf y (strip e)) (hf : CastFree e) :
    ∃ x, NodeOf x e ∧ x.start = y.start ∧ x.stop = y.stop := by
  induction e with
  | typeCast => exact hf.elim
  | notSet | boolConst | intConst | key | actionParam | attr => cases hy; exact ⟨_, .self _, rfl, rfl⟩
  | boolNeg i e ih =>
    cases hy with
    | self => exact ⟨_, .self _, rfl, rfl⟩
    | boolNeg h => obtain ⟨x, h1, h2⟩ := ih h hf; exact ⟨x, .boolNeg h1, h2⟩
  | arithNeg i e ih =>
    cases hy with
    | self => exact ⟨_, .self _, rfl, rfl⟩
    | arithNeg h => obtain ⟨x, h1, h2⟩ := ih h hf; exact ⟨x, .arithNeg h1, h2⟩
  | field i e f ih =>
    cases hy with
    | self => exact ⟨_, .self _, rfl, rfl⟩
    | field h => obtain ⟨x, h1, h2⟩ := ih h hf; exact ⟨x, .field h1, h2⟩
  | bin i op l r ihl ihr =>
    cases hy with
    | self => exact ⟨_, .self _, rfl, rfl⟩
    | left h => obtain ⟨x, h1, h2⟩ := ihl h hf.1; exact ⟨x, .left h1, h2⟩
    | right h => obtain ⟨x, h1, h2⟩ := ihr h hf.2; exact ⟨x, .right h1, h2⟩

theorem infer_within {sys : Sys} {k : ConstraintKind} {src : ConstraintSource} {sc : Scope} {e e' x : Expr}
    (h : Constraint sys.inetPton6 k (tokenize src) e) (hc : 0 ≤ src.loc.col) (hi : inferAndCheck src sc e = .ok e')
    (hx : NodeOf x e') : WithinText src.loc src.str.length x.start ∧ WithinText src.loc src.str.length x.stop := by
  have h1 := infer_strip hi
  obtain ⟨y, h2, h3, h4⟩ := elab_node hx h1.2
  rw [h1.1] at h2
  obtain ⟨z, h5, h6, h7⟩ := strip_node h2 (infer_castFree hi)
  have := node_within h hc h5
  rw [← h3, ← h4, ← h6, ← h7]
  exact this

theorem size_nodes {e : Expr} : ∀ {n : Nat}, size e = .ok n → n ≤ nodes e := by
  induction e with
  | bin i op l r ihl ihr =>
    intro n h
    simp only [size] at h
    simp only [Res.bind_eq_ok] at h
    obtain ⟨a, h1, b, h2, h⟩ := h
    cases h
    have := ihl h1
    have := ihr h2
    simp only [nodes]; omega
  | boolNeg i e ih =>
    intro n h
    simp only [size] at h
    simp only [Res.bind_eq_ok] at h
    obtain ⟨a, h1, h⟩ := h
    cases h
    have := ih h1
    simp only [nodes]; omega
  | notSet | actionParam => intro n h; cases h
  | _ => intro n h; cases h; simp only [nodes]; omega

theorem position_le {as : List Str} {f : Str} {n : Nat} (h : Position as f n) : n ≤ 2147483647 := by
  induction h with
  | start => omega
  | line _ hl => cases hl; assumption
  | file _ _ ih => exact ih
  | other _ _ _ ih => exact ih

theorem attached_loc {k : ConstraintKind} {p : Preamble} {src : ConstraintSource} (h : Attached k p (some src)) :
    src.loc.col = 0 ∧ 0 ≤ src.loc.line ∧ src.loc.line < 2 ^ 31 := by
  cases h with
  | text _ _ _ _ _ hp =>
    have := position_le hp
    refine ⟨rfl, Int.natCast_nonneg _, ?_⟩
    simp only [location]
    omega

theorem parseAndCheck_within {sys : Sys} {k : ConstraintKind} {p : Preamble} {sc : Scope} {src : ConstraintSource} {e : Expr}
    (h : parseAndCheck sys k p sc = .ok (some e, src)) : src.loc.col = 0 ∧ 0 ≤ src.loc.line ∧ src.loc.line < 2 ^ 31 ∧
      ∀ x, NodeOf x e → WithinText src.loc src.str.length x.start ∧ WithinText src.loc src.str.length x.stop := by
  rcases parseAndCheck_iff.1 h with ⟨-, h, -⟩ | ⟨e', c, s, h1, h2, -, h3, h4⟩
  · cases h
  · cases h4
    obtain ⟨g1, g2, g3⟩ := attached_loc h1
    exact ⟨g1, g2, g3, fun x hx => infer_within h2 (by omega) h3 hx⟩

theorem node_nodes {x e : Expr} (h : NodeOf x e) : nodes x ≤ nodes e := by
  induction h with
  | self => exact Nat.le_refl _
  | _ => simp only [nodes]; omega

end P4C
