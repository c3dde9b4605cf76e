import Verif.Proofs.Violation
/-!
# Explanations of violations
-/
namespace P4C
open Spec

theorem Spec.Valued.unique {Γ : Sig} {ρ : Env} {e : Expr} {a b : Bool} (h : Valued Γ ρ e a) (h' : Valued Γ ρ e b) : a = b := by
  obtain ⟨s, h1, h2⟩ := h
  obtain ⟨s', h1', h2'⟩ := h'
  rw [h1] at h1'
  cases h1'
  cases (evaluates_unique h2 h2').2
  rfl

theorem Spec.Valued.conn {Γ : Sig} {ρ : Env} {i : Info} {op : BinOp} {o : Spec.Conn} {l r : Expr} {b : Bool}
    (h : Valued Γ ρ (.bin i op l r) b) (ho : connOf op = some o) :
    ∃ a, Valued Γ ρ l a ∧ ((DecidedLeft o a ∧ ∀ x, b = o.apply a x) ∨ ∃ c, Valued Γ ρ r c ∧ b = o.apply a c) := by
  obtain ⟨s, ha, he⟩ := h
  simp only [abs, Option.bind_eq_some_iff] at ha
  obtain ⟨sl, hl, sr, hr, hs⟩ := ha
  have : s = .conn o sl sr := by
    cases op <;> cases ho <;> (cases hs; rfl)
  subst this
  cases he with
  | @decided _ _ _ a b h1 h2 =>
    refine ⟨a, ⟨sl, hl, h1⟩, .inl ⟨h2, fun x => ?_⟩⟩
    unfold DecidedLeft at h2
    cases x <;> cases b <;> simp [h2]
  | @conn _ _ _ a c h1 h2 => exact ⟨a, ⟨sl, hl, h1⟩, .inr ⟨c, ⟨sr, hr, h2⟩, rfl⟩⟩

theorem Spec.Valued.neg {Γ : Sig} {ρ : Env} {i : Info} {e : Expr} {b : Bool} (h : Valued Γ ρ (.boolNeg i e) b) :
    Valued Γ ρ e (!b) := by
  obtain ⟨s, ha, he⟩ := h
  simp only [abs, Option.map_eq_some_iff] at ha
  obtain ⟨s', h1, rfl⟩ := ha
  cases he with
  | not h => exact ⟨s', h1, by rw [Bool.not_not]; exact h⟩

theorem decidedLeft_apply {o : Spec.Conn} {a : Bool} (h : DecidedLeft o a) (x y : Bool) : o.apply a x = o.apply a y := by
  unfold DecidedLeft at h
  cases x <;> cases y <;> simp [h]

theorem decidedRight_apply {o : Spec.Conn} {b : Bool} (h : DecidedRight o b) (x y : Bool) : o.apply x b = o.apply y b := by
  unfold DecidedRight at h
  cases x <;> cases y <;> simp [h]

/-- The value of the constraint is that of its explanation. -/
theorem Spec.Explained.sufficient {Γ : Sig} {ρ : Env} {e y : Expr} (h : Explained Γ ρ e y) {ρ' : Env} {v b b' : Bool}
    (h1 : Valued Γ ρ e b) (h2 : Valued Γ ρ y v) (h3 : Valued Γ ρ' y v) (h4 : Valued Γ ρ' e b') : b' = b := by
  have leftCase : ∀ {i : Info} {op : BinOp} {o : Spec.Conn} {l r : Expr} {a b b' : Bool}, connOf op = some o →
      Valued Γ ρ l a → DecidedLeft o a → Valued Γ ρ (.bin i op l r) b → Valued Γ ρ' (.bin i op l r) b' →
      (∀ {b b'}, Valued Γ ρ l b → Valued Γ ρ' l b' → b' = b) → b' = b := by
    intro i op o l r a b b' ho ha hd h1 h4 ih
    obtain ⟨a1, k1, k2⟩ := h1.conn ho
    obtain ⟨a2, k3, k4⟩ := h4.conn ho
    cases k1.unique ha
    cases ih k1 k3
    have e1 : ∀ x, b = o.apply a x := by
      rcases k2 with ⟨_, k2⟩ | ⟨c, _, rfl⟩
      · exact k2
      · exact fun x => decidedLeft_apply hd _ _
    rcases k4 with ⟨_, k4⟩ | ⟨c, _, rfl⟩
    · rw [k4 true, e1 true]
    · exact (e1 c).symm
  have rightCase : ∀ {i : Info} {op : BinOp} {o : Spec.Conn} {l r : Expr} {c b b' : Bool}, connOf op = some o →
      Valued Γ ρ r c → DecidedRight o c → Valued Γ ρ (.bin i op l r) b → Valued Γ ρ' (.bin i op l r) b' →
      (∀ {b b'}, Valued Γ ρ r b → Valued Γ ρ' r b' → b' = b) → b' = b := by
    intro i op o l r c b b' ho hc hd h1 h4 ih
    obtain ⟨a1, k1, k2⟩ := h1.conn ho
    obtain ⟨a2, k3, k4⟩ := h4.conn ho
    have e1 : ∀ x, b = o.apply x c := by
      rcases k2 with ⟨_, k2⟩ | ⟨c', k2, rfl⟩
      · exact fun x => by rw [k2 c]; exact decidedRight_apply hd _ _
      · cases k2.unique hc
        exact fun x => decidedRight_apply hd _ _
    rcases k4 with ⟨_, k4⟩ | ⟨c', k4, rfl⟩
    · rw [k4 c, e1 a2]
    · rw [ih hc k4, e1 a2]
  induction h generalizing b b' with
  | const | cmp | neither =>
    cases h1.unique h2
    exact h4.unique h3
  | not _ ih =>
    have := ih h1.neg h2 h3 h4.neg
    exact Bool.not_inj this
  | left ho ha hb d1 d2 _ ih => exact leftCase ho ha d1 h1 h4 fun k1 k2 => ih k1 h2 h3 k2
  | right ho ha hb d1 d2 _ ih => exact rightCase ho hb d2 h1 h4 fun k1 k2 => ih k1 h2 h3 k2
  | bothLeft ho ha hb d1 d2 _ _ _ _ _ ih _ => exact leftCase ho ha d1 h1 h4 fun k1 k2 => ih k1 h2 h3 k2
  | bothRight ho ha hb d1 d2 _ _ _ _ _ _ ih => exact rightCase ho hb d2 h1 h4 fun k1 k2 => ih k1 h2 h3 k2

theorem skeleton_weight {x e : Expr} (h : Skeleton x e) : weight x ≤ weight e := by
  induction h with
  | self => exact Nat.le_refl _
  | not _ ih | left _ _ ih | right _ _ ih => simp only [weight]; omega

theorem cmp_not_conn {op : BinOp} {o : Cmp} {o' : Spec.Conn} (h : cmpOf op = some o) (h' : connOf op = some o') : False := by
  cases op <;> first | (cases h; done) | (cases h'; done)

/-- Explanations are smallest. -/
theorem Spec.Explained.least {Γ : Sig} {ρ : Env} {e y : Expr} (h : Explained Γ ρ e y) :
    Considered Γ ρ e y ∧ Explains y ∧ ∀ z, Considered Γ ρ e z → Explains z → weight y ≤ weight z := by
  have noLeft : ∀ {i : Info} {op : BinOp} {o : Spec.Conn} {l r z : Expr} {a b : Bool}, connOf op = some o → Valued Γ ρ l a →
      Valued Γ ρ r b → Considered Γ ρ (.bin i op l r) z → z = .bin i op l r ∨ (DecidedLeft o a ∧ Considered Γ ρ l z) ∨
      (DecidedRight o b ∧ Considered Γ ρ r z) := by
    intro i op o l r z a b ho ha hb hz
    cases hz with
    | self => exact .inl rfl
    | left ho' k1 k2 k3 k4 =>
      rw [ho] at ho'
      cases ho'
      cases ha.unique ⟨_, k1, k2⟩
      exact .inr (.inl ⟨k3, k4⟩)
    | right ho' k1 k2 k3 k4 =>
      rw [ho] at ho'
      cases ho'
      cases hb.unique ⟨_, k1, k2⟩
      exact .inr (.inr ⟨k3, k4⟩)
  have conn_explains : ∀ {i : Info} {op : BinOp} {o : Spec.Conn} {l r : Expr}, connOf op = some o → Explains (.bin i op l r) := by
    intro i op o l r ho he
    rw [he] at ho
    cases ho
  induction h with
  | const i b =>
    refine ⟨.self _, trivial, fun z hz _ => ?_⟩
    cases hz
    exact Nat.le_refl _
  | @cmp i op o l r ho =>
    refine ⟨.self _, (show op ≠ .unknown from fun he => by rw [he] at ho; cases ho), fun z hz _ => ?_⟩
    cases hz with
    | self => exact Nat.le_refl _
    | left h | right h => exact (cmp_not_conn ho h).elim
  | not _ ih =>
    refine ⟨.not ih.1, ih.2.1, fun z hz he => ?_⟩
    cases hz with
    | self => exact he.elim
    | not h => exact ih.2.2 z h he
  | neither ho ha hb d1 d2 =>
    refine ⟨.self _, conn_explains ho, fun z hz _ => ?_⟩
    rcases noLeft ho ha hb hz with rfl | ⟨h, _⟩ | ⟨h, _⟩
    · exact Nat.le_refl _
    · exact (d1 h).elim
    · exact (d2 h).elim
  | left ho ha hb d1 d2 h ih =>
    obtain ⟨s, ha1, ha2⟩ := id ha
    refine ⟨.left ho ha1 ha2 d1 ih.1, ih.2.1, fun z hz he => ?_⟩
    rcases noLeft ho ha hb hz with rfl | ⟨_, h'⟩ | ⟨h', _⟩
    · have := skeleton_weight h.skeleton
      simp only [weight]; omega
    · exact ih.2.2 z h' he
    · exact (d2 h').elim
  | right ho ha hb d1 d2 h ih =>
    obtain ⟨s, hb1, hb2⟩ := id hb
    refine ⟨.right ho hb1 hb2 d2 ih.1, ih.2.1, fun z hz he => ?_⟩
    rcases noLeft ho ha hb hz with rfl | ⟨h', _⟩ | ⟨_, h'⟩
    · have := skeleton_weight h.skeleton
      simp only [weight]; omega
    · exact (d1 h').elim
    · exact ih.2.2 z h' he
  | bothLeft ho ha hb d1 d2 h h' _ _ hle ih ih' =>
    obtain ⟨s, ha1, ha2⟩ := id ha
    refine ⟨.left ho ha1 ha2 d1 ih.1, ih.2.1, fun z hz he => ?_⟩
    rcases noLeft ho ha hb hz with rfl | ⟨_, k⟩ | ⟨_, k⟩
    · have := skeleton_weight h.skeleton
      simp only [weight]; omega
    · exact ih.2.2 z k he
    · exact Nat.le_trans hle (ih'.2.2 z k he)
  | bothRight ho ha hb d1 d2 h h' _ _ hlt ih ih' =>
    obtain ⟨s, hb1, hb2⟩ := id hb
    refine ⟨.right ho hb1 hb2 d2 ih'.1, ih'.2.1, fun z hz he => ?_⟩
    rcases noLeft ho ha hb hz with rfl | ⟨_, k⟩ | ⟨_, k⟩
    · have := skeleton_weight h'.skeleton
      simp only [weight]; omega
    · have := ih.2.2 z k he
      omega
    · exact ih'.2.2 z k he

end P4C
