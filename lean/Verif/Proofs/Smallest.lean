import Verif.Spec.Smallest
import Verif.Proofs.Explain2

/-
In an expression with independent atoms, only nodes on justifying paths are sufficient.
-/

namespace P4C

open Spec

/-- The value of an expression whose atoms have the values `σ`. -/
def truth (σ : Path → Bool) : Expr → Path → Bool
  | .boolNeg _ e, p => !truth σ e (0 :: p)
  | .bin _ .and l r, p => truth σ l (0 :: p) && truth σ r (1 :: p)
  | .bin _ .or l r, p => truth σ l (0 :: p) || truth σ r (1 :: p)
  | .bin _ .implies l r, p => !truth σ l (0 :: p) || truth σ r (1 :: p)
  | _, p => σ p

theorem part_trans {a b c : Node} (h : Part a b) (h' : Part b c) : Part a c := by
  induction h with
  | self => exact h'
  | not _ ih => exact .not (ih h')
  | left ho _ ih => exact .left ho (ih h')
  | right ho _ ih => exact .right ho (ih h')

theorem val_truth {ctx : EvalCtx} {σ : Path → Bool} (e : Expr) : ∀ p, (∀ k, Part (e, p) k → ∃ v, Val ctx k.1 v) →
    (∀ k, Part (e, p) k → Atomic k.1 → Val ctx k.1 (σ k.2)) → Val ctx e (truth σ e p) := by
  induction e with
  | boolNeg i e ih =>
    intro p hd ha
    obtain ⟨v, hv⟩ := hd _ (.self _)
    have h1 := val_not hv
    have h2 := ih (0 :: p) (fun k hk => hd k (.not hk)) fun k hk => ha k (.not hk)
    have := val_unique h1 h2
    simp only [truth, ← this, Bool.not_not]
    exact hv
  | bin i op l r ihl ihr =>
    intro p hd ha
    have conn : (op = .and ∨ op = .or ∨ op = .implies) → Val ctx l (truth σ l (0 :: p)) ∧ Val ctx r (truth σ r (1 :: p)) :=
      fun ho => ⟨ihl _ (fun k hk => hd k (.left ho hk)) fun k hk => ha k (.left ho hk),
        ihr _ (fun k hk => hd k (.right ho hk)) fun k hk => ha k (.right ho hk)⟩
    obtain ⟨v, hv⟩ := hd _ (.self _)
    cases op with
    | and =>
      obtain ⟨h1, h2⟩ := conn (by simp)
      simp only [truth]
      rcases val_and hv with ⟨h3, rfl⟩ | ⟨h3, h4⟩
      · rw [val_unique h1 h3]; exact hv
      · rw [val_unique h1 h3, val_unique h2 h4]; exact hv
    | or =>
      obtain ⟨h1, h2⟩ := conn (by simp)
      simp only [truth]
      rcases val_or hv with ⟨h3, rfl⟩ | ⟨h3, h4⟩
      · rw [val_unique h1 h3]; exact hv
      · rw [val_unique h1 h3, val_unique h2 h4]; exact hv
    | implies =>
      obtain ⟨h1, h2⟩ := conn (by simp)
      simp only [truth]
      rcases val_implies hv with ⟨h3, rfl⟩ | ⟨h3, h4⟩
      · rw [val_unique h1 h3]; exact hv
      · rw [val_unique h1 h3, val_unique h2 h4]; exact hv
    | _ => exact ha _ (.self _) (by simp [Atomic])
  | _ => intro p _ ha; exact ha _ (.self _) trivial

theorem truth_congr {σ τ : Path → Bool} (e : Expr) : ∀ p, (∀ q, p <:+ q → σ q = τ q) → truth σ e p = truth τ e p := by
  induction e with
  | boolNeg i e ih =>
    intro p h
    simp only [truth]
    rw [ih (0 :: p) fun q hq => h q ((List.suffix_cons _ _).trans hq)]
  | bin i op l r ihl ihr =>
    intro p h
    have h1 := ihl (0 :: p) fun q hq => h q ((List.suffix_cons _ _).trans hq)
    have h2 := ihr (1 :: p) fun q hq => h q ((List.suffix_cons _ _).trans hq)
    cases op <;> simp only [truth, h1, h2] <;> exact h p (List.suffix_refl _)
  | _ => intro p h; exact h p (List.suffix_refl _)

/-- The two agree outside of the subtree at `p`. -/
def AgreeOff (p : Path) (σ τ : Path → Bool) : Prop := ∀ q, ¬ p <:+ q → σ q = τ q

theorem disjoint_paths {a b : Nat} (h : a ≠ b) {p q : Path} (h1 : (a :: p) <:+ q) : ¬ (b :: p) <:+ q := by
  intro h2
  have := List.suffix_of_suffix_length_le h1 h2 (by simp)
  have := this.eq_of_length (by simp)
  simp at this
  exact h this

theorem AgreeOff.sibling {a b : Nat} (h : a ≠ b) {p : Path} {σ τ : Path → Bool} (hs : AgreeOff (a :: p) σ τ) (e : Expr) :
    truth σ e (b :: p) = truth τ e (b :: p) :=
  truth_congr e _ fun q hq => hs q fun hq' => disjoint_paths h hq' hq

theorem AgreeOff.up {a : Nat} {p : Path} {σ τ : Path → Bool} (hs : AgreeOff (a :: p) σ τ) : AgreeOff p σ τ :=
  fun q hq => hs q fun h => hq ((List.suffix_cons _ _).trans h)

theorem AgreeOff.trans {p : Path} {a b c : Path → Bool} (h : AgreeOff p a b) (h' : AgreeOff p b c) : AgreeOff p a c :=
  fun q hq => (h q hq).trans (h' q hq)

theorem AgreeOff.refl {p : Path} {a : Path → Bool} : AgreeOff p a a := fun _ _ => rfl

/-- Every expression can be given every value. -/
theorem truth_free (e : Expr) : ∀ (p : Path) (σ : Path → Bool) (b : Bool), ∃ τ, AgreeOff p σ τ ∧ truth τ e p = b := by
  have atom : ∀ (p : Path) (σ : Path → Bool) (b : Bool), ∃ τ : Path → Bool, AgreeOff p σ τ ∧ τ p = b := by
    intro p σ b
    refine ⟨fun q => if q = p then b else σ q, ?_, by simp⟩
    intro q hq
    have : q ≠ p := by rintro rfl; exact hq (List.suffix_refl _)
    simp [this]
  induction e with
  | boolNeg i e ih =>
    intro p σ b
    obtain ⟨τ, h1, h2⟩ := ih (0 :: p) σ (!b)
    exact ⟨τ, h1.up, by simp [truth, h2]⟩
  | bin i op l r ihl ihr =>
    intro p σ b
    have both : ∀ a b, ∃ τ, AgreeOff p σ τ ∧ truth τ l (0 :: p) = a ∧ truth τ r (1 :: p) = b := by
      intro a b
      obtain ⟨τ, h1, h2⟩ := ihl (0 :: p) σ a
      obtain ⟨τ', h3, h4⟩ := ihr (1 :: p) τ b
      exact ⟨τ', h1.up.trans h3.up, by rw [← h3.sibling (by decide) l]; exact h2, h4⟩
    cases op with
    | and | or =>
      obtain ⟨τ, h1, h2, h3⟩ := both b b
      exact ⟨τ, h1, by simp [truth, h2, h3]⟩
    | implies =>
      obtain ⟨τ, h1, h2, h3⟩ := both (!b) b
      exact ⟨τ, h1, by simp [truth, h2, h3]⟩
    | _ => exact atom p σ b
  | _ => exact atom

theorem part_path {n k : Node} (h : Part n k) : n.2 <:+ k.2 := by
  induction h with
  | self => exact List.suffix_refl _
  | not _ ih | left _ _ ih | right _ _ ih => exact (List.suffix_cons _ _).trans ih

theorem AgreeOff.part {a b : Nat} (h : a ≠ b) {p : Path} {σ τ : Path → Bool} (hs : AgreeOff (a :: p) σ τ) {e : Expr}
    {k : Node} (hk : Part (e, b :: p) k) : truth σ k.1 k.2 = truth τ k.1 k.2 :=
  truth_congr _ _ fun q hq => hs q fun hq' => disjoint_paths h hq' ((part_path hk).trans hq)

/-- A part that does not justify the value can be kept while the value is changed. -/
theorem flip {ctx : EvalCtx} {σ : Path → Bool} {n k : Node} (hk : Part n k) :
    (∀ m, Part n m → Val ctx m.1 (truth σ m.1 m.2)) → ¬ Justifies ctx n k →
    ∃ τ, AgreeOff n.2 σ τ ∧ truth τ k.1 k.2 = truth σ k.1 k.2 ∧ truth τ n.1 n.2 = !truth σ n.1 n.2 := by
  induction hk with
  | self n => intro _ h; exact (h (.self _)).elim
  | @not i e p k hk ih =>
    intro hv hj
    obtain ⟨τ, h1, h2, h3⟩ := ih (fun m hm => hv m (.not hm)) fun h => hj (.step .not h)
    exact ⟨τ, h1.up, h2, by simp only [truth] at h3 ⊢; rw [h3]⟩
  | @left i op l r p k ho hk ih =>
    intro hv hj
    have hl := hv _ (.left (r := r) ho (.self _))
    have hr := hv _ (.right (l := l) ho (.self _))
    simp only [] at hl hr
    -- set the right operand
    have set : ∀ (τ : Path → Bool) (b : Bool), ∃ τ', AgreeOff (1 :: p) τ τ' ∧ truth τ' l (0 :: p) = truth τ l (0 :: p) ∧
        truth τ' r (1 :: p) = b ∧ truth τ' k.1 k.2 = truth τ k.1 k.2 := by
      intro τ b
      obtain ⟨τ', h1, h2⟩ := truth_free r (1 :: p) τ b
      exact ⟨τ', h1, (h1.sibling (by decide) l).symm, h2, (h1.part (by decide) hk).symm⟩
    by_cases hf : Forces ctx (.bin i op l r, p) (l, 0 :: p)
    · obtain ⟨τ, h1, h2, h3⟩ := ih (fun m hm => hv m (.left ho hm)) fun h => hj (.step hf h)
      have hlf := (forces_conn ho hl hr (l, 0 :: p)).1 hf
      obtain ⟨τ', g1, g2, g3, g4⟩ := set τ (if op = .and then true else false)
      refine ⟨τ', h1.up.trans g1.up, g4.trans h2, ?_⟩
      simp only [] at h3
      rw [h3] at g2
      rcases ho with rfl | rfl | rfl <;> simp_all [truth]
    · have hlf := fun h => hf ((forces_conn ho hl hr (l, 0 :: p)).2 (.inl ⟨rfl, h⟩))
      obtain ⟨τ', g1, g2, g3, g4⟩ := set σ (!truth σ r (1 :: p))
      refine ⟨τ', g1.up, g4, ?_⟩
      rcases ho with rfl | rfl | rfl <;> simp_all [truth]
  | @right i op l r p k ho hk ih =>
    intro hv hj
    have hl := hv _ (.left (r := r) ho (.self _))
    have hr := hv _ (.right (l := l) ho (.self _))
    simp only [] at hl hr
    have set : ∀ (τ : Path → Bool) (b : Bool), ∃ τ', AgreeOff (0 :: p) τ τ' ∧ truth τ' r (1 :: p) = truth τ r (1 :: p) ∧
        truth τ' l (0 :: p) = b ∧ truth τ' k.1 k.2 = truth τ k.1 k.2 := by
      intro τ b
      obtain ⟨τ', h1, h2⟩ := truth_free l (0 :: p) τ b
      exact ⟨τ', h1, (h1.sibling (by decide) r).symm, h2, (h1.part (by decide) hk).symm⟩
    by_cases hf : Forces ctx (.bin i op l r, p) (r, 1 :: p)
    · obtain ⟨τ, h1, h2, h3⟩ := ih (fun m hm => hv m (.right ho hm)) fun h => hj (.step hf h)
      have hlf := (forces_conn ho hl hr (r, 1 :: p)).1 hf
      obtain ⟨τ', g1, g2, g3, g4⟩ := set τ (if op = .or then false else true)
      refine ⟨τ', h1.up.trans g1.up, g4.trans h2, ?_⟩
      simp only [] at h3
      rw [h3] at g2
      rcases ho with rfl | rfl | rfl <;> simp_all [truth]
    · have hlf := fun h => hf ((forces_conn ho hl hr (r, 1 :: p)).2 (.inr ⟨rfl, h⟩))
      obtain ⟨τ', g1, g2, g3, g4⟩ := set σ (!truth σ l (0 :: p))
      refine ⟨τ', g1.up, g4, ?_⟩
      rcases ho with rfl | rfl | rfl <;> simp_all [truth]

theorem part_self {n k : Node} (h : Part n k) (hp : k.2 = n.2) : k = n := by
  cases h with
  | self => rfl
  | not h | left _ h | right _ h =>
    have := (part_path h).length_le
    rw [hp] at this
    simp at this
    omega

theorem part_unique {n k k' : Node} (h : Part n k) : Part n k' → k.2 = k'.2 → k = k' := by
  induction h with
  | self n => intro h' hp; exact (part_self h' hp.symm).symm
  | not h ih =>
    intro h' hp
    cases h' with
    | self => exact part_self (.not h) hp
    | not h' => exact ih h' hp
  | left ho h ih =>
    intro h' hp
    cases h' with
    | self => exact part_self (.left ho h) hp
    | left _ h' => exact ih h' hp
    | right _ h' => exact (disjoint_paths (by decide) (part_path h) (hp ▸ part_path h')).elim
  | right ho h ih =>
    intro h' hp
    cases h' with
    | self => exact part_self (.right ho h) hp
    | right _ h' => exact ih h' hp
    | left _ h' => exact (disjoint_paths (by decide) (part_path h) (hp ▸ part_path h')).elim

/-- If atoms are independent, sufficient parts are on justifying paths. -/
theorem sufficient_justifies {C : EvalCtx → Prop} {ctx : EvalCtx} {n k : Node} (hc : C ctx) (hd : Defined C n)
    (hi : Independent C n) (hk : Part n k) (hs : Sufficient C ctx n.1 k.1) : Justifies ctx n k := by
  by_cases hj : Justifies ctx n k
  · exact hj
  classical
  -- the values of the atoms in `ctx`
  have hex : ∃ σ : Path → Bool, ∀ m, Part n m → Atomic m.1 → Val ctx m.1 (σ m.2) := by
    refine ⟨fun q => decide (∃ m, Part n m ∧ m.2 = q ∧ Val ctx m.1 true), fun m hm _ => ?_⟩
    obtain ⟨v, hv⟩ := hd ctx hc m hm
    by_cases h : ∃ m', Part n m' ∧ m'.2 = m.2 ∧ Val ctx m'.1 true
    · show Val ctx m.1 (decide _)
      rw [decide_eq_true h]
      obtain ⟨m', h1, h2, h3⟩ := h
      rw [← part_unique h1 hm h2]
      exact h3
    · show Val ctx m.1 (decide _)
      rw [decide_eq_false h]
      cases v with
      | false => exact hv
      | true => exact (h ⟨m, hm, rfl, hv⟩).elim
  obtain ⟨σ, hσ⟩ := hex
  have hv : ∀ m, Part n m → Val ctx m.1 (truth σ m.1 m.2) := fun m hm =>
    val_truth m.1 m.2 (fun k' hk' => hd ctx hc k' (part_trans hm hk')) fun k' hk' => hσ k' (part_trans hm hk')
  obtain ⟨τ, _, h2, h3⟩ := flip hk hv hj
  obtain ⟨ctx', hc', ha⟩ := hi τ
  have hv' : ∀ m, Part n m → Val ctx' m.1 (truth τ m.1 m.2) := fun m hm =>
    val_truth m.1 m.2 (fun k' hk' => hd ctx' hc' k' (part_trans hm hk')) fun k' hk' => ha k' (part_trans hm hk')
  have h4 := hs _ _ (hv k hk) (hv n (.self _)) ctx' hc' (h2 ▸ hv' k hk)
  have h5 := val_unique h4 (hv' n (.self _))
  rw [h3] at h5
  simp at h5

theorem forces_part {ctx : EvalCtx} {n k : Node} (h : Forces ctx n k) : Part n k := by
  cases h with
  | not => exact .not (.self _)
  | andLeft | orLeft | impliesLeft => exact .left (by simp) (.self _)
  | andRight | orRight | impliesRight => exact .right (by simp) (.self _)

theorem justifies_part {ctx : EvalCtx} {n k : Node} (h : Justifies ctx n k) : Part n k := by
  induction h with
  | self => exact .self _
  | step h _ ih => exact part_trans (forces_part h) ih

end P4C
