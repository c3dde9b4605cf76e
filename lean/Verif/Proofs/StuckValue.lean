import Verif.Proofs.Stuck
import Verif.Proofs.TypeFault

/-
Constraints have at most one value, and none if they are stuck.
-/

namespace P4C

open Spec

/-! ### Values are unique -/

theorem decided_apply {o : Spec.Conn} {a b c : Bool} (h : DecidedLeft o a) : o.apply a b = o.apply a c := by
  unfold DecidedLeft at h
  cases b <;> cases c <;> simp [h]

theorem evaluates_unique {Γ : Sig} {ρ : Env} {s : SExpr} {t u : Ty} {v w : Value} (h : Evaluates Γ ρ s t v)
    (h' : Evaluates Γ ρ s u w) : t = u ∧ v = w := by
  induction h generalizing u w with
  | bool | int => cases h'; simp
  | priority hp =>
    cases h' with | priority hp' => rw [hp] at hp'; cases hp'; simp
  | key hk hv =>
    cases h' with
    | key hk' hv' => rw [hk] at hk'; rw [hv] at hv'; cases hk'; cases hv'; simp
  | param hk hv =>
    cases h' with
    | param hk' hv' => rw [hk] at hk'; rw [hv] at hv'; cases hk'; cases hv'; simp
  | not _ ih => cases h' with | not h => have := ih h; simp_all
  | neg _ ih => cases h' with | neg h => have := ih h; simp_all
  | decided _ hd ih =>
    cases h' with
    | decided hl hd' =>
      have h1 := ih hl
      simp at h1
      subst h1
      exact ⟨rfl, by rw [decided_apply hd]⟩
    | conn hl _ =>
      have h1 := ih hl
      simp at h1
      subst h1
      exact ⟨rfl, by rw [decided_apply hd]⟩
  | conn _ _ ihl ihr =>
    cases h' with
    | decided hl hd' =>
      have h1 := ihl hl
      simp at h1
      subst h1
      exact ⟨rfl, by rw [decided_apply hd']⟩
    | conn hl hr =>
      have h1 := ihl hl
      have h2 := ihr hr
      simp at h1 h2
      subst h1; subst h2; simp
  | cmp _ _ hj _ hc ihl ihr =>
    cases h' with
    | cmp hl hr hj' _ hc' =>
      obtain ⟨rfl, rfl⟩ := ihl hl
      obtain ⟨rfl, rfl⟩ := ihr hr
      cases isJoin_unique hj hj'
      rw [hc] at hc'
      cases hc'
      simp
  | field _ hf hv ih =>
    cases h' with
    | field h hf' hv' =>
      obtain ⟨rfl, rfl⟩ := ih h
      cases fieldTy_unique hf hf'
      cases fieldVal_unique hv hv'
      simp

/-- Where both are defined, they agree. -/
theorem evaluates_means {Γ : Sig} {ρ : Env} {s : SExpr} {t u : Ty} {v w : Value} (h : Evaluates Γ ρ s t v)
    (h' : Means Γ ρ s u w) : t = u ∧ v = w := by
  induction h generalizing u w with
  | bool | int => cases h'; simp
  | priority hp =>
    cases h' with | priority hp' => rw [hp] at hp'; cases hp'; simp
  | key hk hv =>
    cases h' with
    | key hk' hv' => rw [hk] at hk'; rw [hv] at hv'; cases hk'; cases hv'; simp
  | param hk hv =>
    cases h' with
    | param hk' hv' => rw [hk] at hk'; rw [hv] at hv'; cases hk'; cases hv'; simp
  | not _ ih => cases h' with | not h => have := ih h; simp_all
  | neg _ ih => cases h' with | neg h => have := ih h; simp_all
  | decided _ hd ih =>
    cases h' with
    | conn hl _ =>
      have h1 := ih hl
      simp at h1
      subst h1
      exact ⟨rfl, by rw [decided_apply hd]⟩
  | conn _ _ ihl ihr =>
    cases h' with
    | conn hl hr =>
      have h1 := ihl hl
      have h2 := ihr hr
      simp at h1 h2
      subst h1; subst h2; simp
  | cmp _ _ hj _ hc ihl ihr =>
    cases h' with
    | cmp hl hr hj' hc' =>
      obtain ⟨rfl, rfl⟩ := ihl hl
      obtain ⟨rfl, rfl⟩ := ihr hr
      cases isJoin_unique hj hj'
      rw [hc] at hc'
      cases hc'
      simp
  | field _ hf hv ih =>
    cases h' with
    | field h hf' hv' =>
      obtain ⟨rfl, rfl⟩ := ih h
      cases fieldTy_unique hf hf'
      cases fieldVal_unique hv hv'
      simp

theorem evaluates_hasTy {Γ : Sig} {ρ : Env} {s : SExpr} {t : Ty} {v : Value} (h : Evaluates Γ ρ s t v) :
    ∀ u, HasTy Γ s u → u = t := by
  induction h with
  | bool | int | priority => intro u hu; cases hu; rfl
  | key hk _ => intro u hu; cases hu with | key h _ => rw [hk] at h; exact (Option.some.inj h).symm
  | param hk _ => intro u hu; cases hu with | param h _ => rw [hk] at h; exact (Option.some.inj h).symm
  | not | neg | conn | decided | cmp => intro u hu; cases hu; rfl
  | field _ hf _ ih =>
    intro u hu
    cases hu with
    | field h hf' => rw [ih _ h] at hf'; exact fieldTy_unique hf' hf

theorem binop_cmp {op : BinOp} {o : Cmp} {l r : SExpr} (h : cmpOf op = some o) : binop op l r = some (.cmp o l r) := by
  cases op <;> cases h <;> rfl

theorem binop_conn {op : BinOp} {o : Spec.Conn} {l r : SExpr} (h : connOf op = some o) : binop op l r = some (.conn o l r) := by
  cases op <;> cases h <;> rfl

theorem abs_bin {i : Info} {op : BinOp} {l r : Expr} {s : SExpr} :
    abs (.bin i op l r) = some s ↔ ∃ sl sr, abs l = some sl ∧ abs r = some sr ∧ binop op sl sr = some s := by
  simp [abs, Option.bind_eq_some_iff]

/-- A constraint that is stuck has no value. -/
theorem stuck_no_value {name : Str} {Γ : Sig} {ρ : Env} {e : Expr} {a b : Loc} {text : Str} (h : Stuck name Γ ρ e a b text) :
    ∀ {s : SExpr} {t : Ty} {v : Value}, abs e = some s → ¬ Evaluates Γ ρ s t v := by
  induction h with
  | param hn =>
    intro s t v ha hv
    simp [abs] at ha; subst ha
    cases hv with | param _ h => rw [hn] at h; cases h
  | priority hn =>
    intro s t v ha hv
    simp [abs] at ha; subst ha
    cases hv with | priority h => rw [hn] at h; cases h
  | exact hop ho hl hr hev hty hj =>
    intro s t v ha hv
    obtain ⟨sl, sr, h1, h2, h3⟩ := abs_bin.1 ha
    rw [hl] at h1; rw [hr] at h2; cases h1; cases h2
    rw [binop_cmp hop] at h3; cases h3
    cases hv with
    | cmp h1 h2 h3 h4 =>
      obtain ⟨rfl, rfl⟩ := evaluates_unique hev h1
      have := evaluates_hasTy h2 _ hty
      subst this
      exact h4 ho _ (isJoin_unique h3 hj)
  | not _ ih =>
    intro s t v ha hv
    simp [abs] at ha; obtain ⟨s', ha, rfl⟩ := ha
    cases hv with | not h => exact ih ha h
  | neg _ ih =>
    intro s t v ha hv
    simp [abs] at ha; obtain ⟨s', ha, rfl⟩ := ha
    cases hv with | neg h => exact ih ha h
  | field _ ih =>
    intro s t v ha hv
    simp [abs] at ha; obtain ⟨s', ha, rfl⟩ := ha
    cases hv with | field h => exact ih ha h
  | left _ ih =>
    intro s t v ha hv
    obtain ⟨sl, sr, h1, h2, h3⟩ := abs_bin.1 ha
    rcases binop_cases h3 with ⟨_, _, o, rfl, _⟩ | ⟨_, _, o, rfl, _⟩
    · cases hv with
      | decided h => exact ih h1 h
      | conn h => exact ih h1 h
    · cases hv with
      | cmp h => exact ih h1 h
  | right hop hl hr hev hty hj _ ih =>
    intro s t v ha hv
    obtain ⟨sl, sr, h1, h2, h3⟩ := abs_bin.1 ha
    rw [binop_cmp hop] at h3; cases h3
    cases hv with
    | cmp _ h => exact ih h2 h
  | second hop hl hev hd _ ih =>
    intro s t v ha hv
    obtain ⟨sl, sr, h1, h2, h3⟩ := abs_bin.1 ha
    rw [hl] at h1; cases h1
    rw [binop_conn hop] at h3; cases h3
    cases hv with
    | decided h hd' =>
      have := (evaluates_unique hev h).2
      simp at this
      subst this
      exact hd hd'
    | conn _ h => exact ih h2 h

theorem op_disjoint {op : BinOp} {o : Cmp} {o' : Spec.Conn} (h : cmpOf op = some o) (h' : connOf op = some o') : False := by
  cases op <;> simp_all [cmpOf, connOf]

theorem stuck_unique {name : Str} {Γ : Sig} {ρ : Env} {e : Expr} {a b : Loc} {text : Str} (h : Stuck name Γ ρ e a b text) :
    ∀ {a' b' : Loc} {text' : Str}, Stuck name Γ ρ e a' b' text' → a = a' ∧ b = b' ∧ text = text' := by
  induction h with
  | param _ => intro a' b' t' h'; cases h'; exact ⟨rfl, rfl, rfl⟩
  | priority _ => intro a' b' t' h'; cases h'; exact ⟨rfl, rfl, rfl⟩
  | not _ ih | neg _ ih | field _ ih => intro a' b' t' h'; cases h' with | _ h' => exact ih h'
  | exact h1 h2 h3 h4 h5 h6 h7 =>
    intro a' b' t' h'
    cases h' with
    | exact => exact ⟨rfl, rfl, rfl⟩
    | left g => exact (stuck_no_value g h3 h5).elim
    | right g1 g2 g3 g4 g5 g6 g7 =>
      rw [h1] at g1; cases g1
      rw [h3] at g2; cases g2
      rw [h4] at g3; cases g3
      rw [← (evaluates_unique h5 g4).1, ← hasTy_unique h6 g5] at g6
      exact (g6 h2 _ h7).elim
    | second g1 => cases op_disjoint h1 g1
  | left h ih =>
    intro a' b' t' h'
    cases h' with
    | exact g1 g2 g3 g4 g5 => exact (stuck_no_value h g3 g5).elim
    | left g => obtain ⟨rfl, rfl, rfl⟩ := ih g; exact ⟨rfl, rfl, rfl⟩
    | right g1 g2 g3 g4 => exact (stuck_no_value h g2 g4).elim
    | second g1 g2 g3 => exact (stuck_no_value h g2 g3).elim
  | right h1 h2 h3 h4 h5 h6 h7 ih =>
    intro a' b' t' h'
    cases h' with
    | exact g1 g2 g3 g4 g5 g6 g7 =>
      rw [h1] at g1; cases g1
      rw [h2] at g3; cases g3
      rw [h3] at g4; cases g4
      rw [(evaluates_unique h4 g5).1, hasTy_unique h5 g6] at h6
      exact (h6 g2 _ g7).elim
    | left g => exact (stuck_no_value g h2 h4).elim
    | right g1 g2 g3 g4 g5 g6 g => obtain ⟨rfl, rfl, rfl⟩ := ih g; exact ⟨rfl, rfl, rfl⟩
    | second g1 => cases op_disjoint h1 g1
  | second h1 h2 h3 h4 h5 ih =>
    intro a' b' t' h'
    cases h' with
    | exact g1 => cases op_disjoint g1 h1
    | left g => exact (stuck_no_value g h2 h3).elim
    | right g1 => cases op_disjoint g1 h1
    | second g1 g2 g3 g4 g => exact ih g

/-- What is quoted is a node of the constraint. -/
theorem stuck_node {name : Str} {Γ : Sig} {ρ : Env} {e : Expr} {a b : Loc} {text : Str} (h : Stuck name Γ ρ e a b text) :
    ∃ u, NodeOf u e ∧ a = u.start ∧ b = u.stop := by
  induction h with
  | param | priority => exact ⟨_, .self _, rfl, rfl⟩
  | exact => exact ⟨_, .left (.self _), rfl, rfl⟩
  | not _ ih => obtain ⟨u, h1, h2⟩ := ih; exact ⟨u, .boolNeg h1, h2⟩
  | neg _ ih => obtain ⟨u, h1, h2⟩ := ih; exact ⟨u, .arithNeg h1, h2⟩
  | field _ ih => obtain ⟨u, h1, h2⟩ := ih; exact ⟨u, .field h1, h2⟩
  | left _ ih => obtain ⟨u, h1, h2⟩ := ih; exact ⟨u, .left h1, h2⟩
  | right _ _ _ _ _ _ _ ih => obtain ⟨u, h1, h2⟩ := ih; exact ⟨u, .right h1, h2⟩
  | second _ _ _ _ _ ih => obtain ⟨u, h1, h2⟩ := ih; exact ⟨u, .right h1, h2⟩

theorem considered_node {Γ : Sig} {ρ : Env} {e k : Expr} (h : Considered Γ ρ e k) : NodeOf k e := by
  induction h with
  | self => exact .self _
  | not _ ih => exact .boolNeg ih
  | left _ _ _ _ _ ih => exact .left ih
  | right _ _ _ _ _ ih => exact .right ih

end P4C
