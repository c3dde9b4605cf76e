import Verif.Proofs.Explain
/-!
# Sufficiency and minimality of explanations
-/
namespace P4C
open Spec

/-! ### Values of connectives -/

theorem chkP_bool {ctx : EvalCtx} {e : Expr} {r : Res Value} {b : Bool} (h : evalP ctx e = chkP ctx e r)
    (hv : Val ctx e b) : r = .ok (.bool b) := by
  rw [← evalP_val, h, chkP_ok] at hv
  exact hv.1

theorem val_not {ctx : EvalCtx} {i : Info} {e : Expr} {b : Bool} (h : Val ctx (.boolNeg i e) b) : Val ctx e (!b) := by
  have := chkP_bool (by rw [evalP]) h
  simp only [Res.bind_eq_ok, toBoolP_ok, Res.ok.injEq, Value.bool.injEq] at this
  obtain ⟨a, h1, rfl⟩ := this
  rw [← evalP_val]
  simpa using h1

theorem val_and {ctx : EvalCtx} {i : Info} {l r : Expr} {b : Bool} (h : Val ctx (.bin i .and l r) b) :
    (Val ctx l false ∧ b = false) ∨ (Val ctx l true ∧ Val ctx r b) := by
  have := chkP_bool (by rw [evalP]) h
  simp only [Res.bind_eq_ok, toBoolP_ok] at this
  obtain ⟨a, h1, h2⟩ := this
  cases a with
  | false =>
    simp only [Bool.false_eq_true, if_false, Res.ok.injEq, Value.bool.injEq] at h2
    exact .inl ⟨evalP_val.1 h1, h2.symm⟩
  | true =>
    simp only [if_true, Res.bind_eq_ok, toBoolP_ok, Res.ok.injEq, Value.bool.injEq] at h2
    obtain ⟨c, h3, rfl⟩ := h2
    exact .inr ⟨evalP_val.1 h1, evalP_val.1 h3⟩

theorem val_or {ctx : EvalCtx} {i : Info} {l r : Expr} {b : Bool} (h : Val ctx (.bin i .or l r) b) :
    (Val ctx l true ∧ b = true) ∨ (Val ctx l false ∧ Val ctx r b) := by
  have := chkP_bool (by rw [evalP]) h
  simp only [Res.bind_eq_ok, toBoolP_ok] at this
  obtain ⟨a, h1, h2⟩ := this
  cases a with
  | true =>
    simp only [if_true, Res.ok.injEq, Value.bool.injEq] at h2
    exact .inl ⟨evalP_val.1 h1, h2.symm⟩
  | false =>
    simp only [Bool.false_eq_true, if_false, Res.bind_eq_ok, toBoolP_ok, Res.ok.injEq, Value.bool.injEq] at h2
    obtain ⟨c, h3, rfl⟩ := h2
    exact .inr ⟨evalP_val.1 h1, evalP_val.1 h3⟩

theorem val_implies {ctx : EvalCtx} {i : Info} {l r : Expr} {b : Bool} (h : Val ctx (.bin i .implies l r) b) :
    (Val ctx l false ∧ b = true) ∨ (Val ctx l true ∧ Val ctx r b) := by
  have := chkP_bool (by rw [evalP]) h
  simp only [Res.bind_eq_ok, toBoolP_ok] at this
  obtain ⟨a, h1, h2⟩ := this
  cases a with
  | false =>
    simp only [Bool.false_eq_true, if_false, Res.ok.injEq, Value.bool.injEq] at h2
    exact .inl ⟨evalP_val.1 h1, h2.symm⟩
  | true =>
    simp only [if_true, Res.bind_eq_ok, toBoolP_ok, Res.ok.injEq, Value.bool.injEq] at h2
    obtain ⟨c, h3, rfl⟩ := h2
    exact .inr ⟨evalP_val.1 h1, evalP_val.1 h3⟩

/-! ### Sufficiency -/

theorem forces_val {ctx : EvalCtx} {n m : Node} {b : Bool} (h : Forces ctx n m) (hb : Val ctx n.1 b) :
    ∃ v, Val ctx m.1 v := by
  cases h with
  | not => exact ⟨_, val_not hb⟩
  | andLeft h | andRight h | orLeft h | orRight h | impliesLeft h | impliesRight h => exact ⟨_, h⟩

theorem justifies_val {ctx : EvalCtx} {n m : Node} {b : Bool} (h : Justifies ctx n m) (hb : Val ctx n.1 b) :
    ∃ v, Val ctx m.1 v := by
  induction h generalizing b with
  | self => exact ⟨b, hb⟩
  | step h _ ih =>
    obtain ⟨v, hv⟩ := forces_val h hb
    exact ih hv

/-- A node that justifies another one determines its value. -/
theorem justifies_sufficient {ctx ctx' : EvalCtx} {n m : Node} {b b' v : Bool} (h : Justifies ctx n m)
    (hb : Val ctx n.1 b) (hv : Val ctx m.1 v) (hv' : Val ctx' m.1 v) (hb' : Val ctx' n.1 b') : b' = b := by
  induction h generalizing b b' with
  | self =>
    rw [val_unique hb hv, val_unique hb' hv']
  | step h _ ih =>
    cases h with
    | not =>
      have := ih (val_not hb) hv hv' (val_not hb')
      simpa using this
    | andLeft h =>
      have e : b = false := by
        rcases val_and hb with ⟨_, e⟩ | ⟨e, _⟩
        · exact e
        · cases val_unique h e
      rcases val_and hb' with ⟨_, e'⟩ | ⟨h', _⟩
      · rw [e, e']
      · cases ih h hv hv' h'
    | andRight h =>
      have e : b = false := by
        rcases val_and hb with ⟨_, e⟩ | ⟨_, e⟩
        · exact e
        · exact val_unique e h
      rcases val_and hb' with ⟨_, e'⟩ | ⟨_, h'⟩
      · rw [e, e']
      · rw [e]; exact ih h hv hv' h'
    | orLeft h =>
      have e : b = true := by
        rcases val_or hb with ⟨_, e⟩ | ⟨e, _⟩
        · exact e
        · cases val_unique h e
      rcases val_or hb' with ⟨_, e'⟩ | ⟨h', _⟩
      · rw [e, e']
      · cases ih h hv hv' h'
    | orRight h =>
      have e : b = true := by
        rcases val_or hb with ⟨_, e⟩ | ⟨_, e⟩
        · exact e
        · exact val_unique e h
      rcases val_or hb' with ⟨_, e'⟩ | ⟨_, h'⟩
      · rw [e, e']
      · rw [e]; exact ih h hv hv' h'
    | impliesLeft h =>
      have e : b = true := by
        rcases val_implies hb with ⟨_, e⟩ | ⟨e, _⟩
        · exact e
        · cases val_unique h e
      rcases val_implies hb' with ⟨_, e'⟩ | ⟨h', _⟩
      · rw [e, e']
      · cases ih h hv hv' h'
    | impliesRight h =>
      have e : b = true := by
        rcases val_implies hb with ⟨_, e⟩ | ⟨_, e⟩
        · exact e
        · exact val_unique e h
      rcases val_implies hb' with ⟨_, e'⟩ | ⟨_, h'⟩
      · rw [e, e']
      · rw [e]; exact ih h hv hv' h'

/-! ### Minimality -/

theorem forces_weight {ctx : EvalCtx} {n m : Node} (h : Forces ctx n m) : weight m.1 < weight n.1 := by
  cases h <;> simp only [weight] <;> omega

theorem forces_path {ctx : EvalCtx} {n m : Node} (h : Forces ctx n m) : ∃ k, m.2 = k :: n.2 := by
  cases h <;> exact ⟨_, rfl⟩

theorem justifies_path {ctx : EvalCtx} {n m : Node} (h : Justifies ctx n m) : ∃ y, m.2 = y ++ n.2 := by
  induction h with
  | self => exact ⟨[], rfl⟩
  | step h _ ih =>
    obtain ⟨y, hy⟩ := ih
    obtain ⟨k, hk⟩ := forces_path h
    exact ⟨y ++ [k], by rw [hy, hk]; simp⟩

/-- The four cases of the search at a connective. -/
theorem minP_conn {ctx : EvalCtx} {i : Info} {op : BinOp} {l r : Expr} {p : Path} {n : Node}
    (hop : op = .and ∨ op = .or ∨ op = .implies) (h : minP ctx (.bin i op l r) p = .ok n) :
    ∃ lb rb, Val ctx l lb ∧ Val ctx r rb ∧
      match (if op = .or then lb else !lb), (if op = .and then !rb else rb) with
      | false, false => n = (.bin i op l r, p)
      | true, false => minP ctx l (0 :: p) = .ok n
      | false, true => minP ctx r (1 :: p) = .ok n
      | true, true => ∃ n0 n1, minP ctx l (0 :: p) = .ok n0 ∧ minP ctx r (1 :: p) = .ok n1 ∧
          n = if weight n0.1 ≤ weight n1.1 then n0 else n1 := by
  have key : (evalBoolP ctx l >>= fun lb => evalBoolP ctx r >>= fun rb =>
      match (if op = .or then lb else !lb), (if op = .and then !rb else rb) with
      | false, false => .ok (.bin i op l r, p)
      | true, false => minP ctx l (0 :: p)
      | false, true => minP ctx r (1 :: p)
      | true, true => do
        let n0 ← minP ctx l (0 :: p)
        let n1 ← minP ctx r (1 :: p)
        let s0 ← size n0.1
        let s1 ← size n1.1
        .ok (if s0 ≤ s1 then n0 else n1)) = .ok n := by
    unfold minP at h
    rcases hop with rfl | rfl | rfl <;> exact h
  simp only [Res.bind_eq_ok] at key
  obtain ⟨lb, h1, rb, h2, h3⟩ := key
  refine ⟨lb, rb, val_boolP.1 h1, val_boolP.1 h2, ?_⟩
  revert h3
  generalize (if op = .or then lb else !lb) = x
  generalize (if op = .and then !rb else rb) = y
  intro h3
  cases x <;> cases y <;> dsimp only at h3 ⊢
  · cases h3; rfl
  · exact h3
  · exact h3
  · simp only [Res.bind_eq_ok] at h3
    obtain ⟨n0, g0, n1, g1, s0, k0, s1, k1, h3⟩ := h3
    rw [size_weight] at k0 k1
    cases h3
    exact ⟨n0, n1, g0, g1, by rw [k0.1, k1.1]⟩

/-- Left and right operands of a connective that force its value. -/
theorem forces_conn {ctx : EvalCtx} {i : Info} {op : BinOp} {l r : Expr} {p : Path} {lb rb : Bool}
    (hop : op = .and ∨ op = .or ∨ op = .implies) (hl : Val ctx l lb) (hr : Val ctx r rb) (m : Node) :
    Forces ctx (.bin i op l r, p) m ↔
      (m = (l, 0 :: p) ∧ (if op = .or then lb else !lb) = true) ∨
      (m = (r, 1 :: p) ∧ (if op = .and then !rb else rb) = true) := by
  constructor
  · intro h
    cases h with
    | andLeft h => cases val_unique hl h; exact .inl ⟨rfl, rfl⟩
    | andRight h => cases val_unique hr h; exact .inr ⟨rfl, rfl⟩
    | orLeft h => cases val_unique hl h; exact .inl ⟨rfl, rfl⟩
    | orRight h => cases val_unique hr h; exact .inr ⟨rfl, rfl⟩
    | impliesLeft h => cases val_unique hl h; exact .inl ⟨rfl, rfl⟩
    | impliesRight h => cases val_unique hr h; exact .inr ⟨rfl, rfl⟩
  · rintro (⟨rfl, h⟩ | ⟨rfl, h⟩)
    · rcases hop with rfl | rfl | rfl
      · cases lb with
        | true => cases h
        | false => exact .andLeft hl
      · cases lb with
        | false => cases h
        | true => exact .orLeft hl
      · cases lb with
        | true => cases h
        | false => exact .impliesLeft hl
    · rcases hop with rfl | rfl | rfl
      · cases rb with
        | true => cases h
        | false => exact .andRight hr
      · cases rb with
        | false => cases h
        | true => exact .orRight hr
      · cases rb with
        | false => cases h
        | true => exact .impliesRight hr

theorem justifies_inv {ctx : EvalCtx} {n m : Node} (h : Justifies ctx n m) :
    m = n ∨ ∃ k, Forces ctx n k ∧ Justifies ctx k m := by
  cases h with
  | self => exact .inl rfl
  | step h h' => exact .inr ⟨_, h, h'⟩

/-- What the search returns. -/
def Best (ctx : EvalCtx) (e n : Node) : Prop :=
  Justifies ctx e n ∧ Explains n.1 ∧
    ∀ m, Justifies ctx e m → weight n.1 ≤ weight m.1 ∧ (weight m.1 = weight n.1 → m = n ∨ LeftOf n.2 m.2)

theorem Best.step {ctx : EvalCtx} {e k n : Node} (h : Best ctx k n) (hf : ∀ m, Forces ctx e m ↔ m = k) : Best ctx e n := by
  obtain ⟨h1, h2, h3⟩ := h
  have hk := (hf k).2 rfl
  refine ⟨.step hk h1, h2, fun m hm => ?_⟩
  rcases justifies_inv hm with rfl | ⟨x, hx, hxm⟩
  · have := forces_weight hk
    have := (h3 k (.self k)).1
    exact ⟨by omega, fun e => by omega⟩
  · rw [hf] at hx
    subst hx
    exact h3 m hxm

theorem minP_best {ctx : EvalCtx} : ∀ (e : Expr) (p : Path) (n : Node), minP ctx e p = .ok n → Best ctx (e, p) n := by
  have leaf : ∀ {n : Node}, Explains n.1 → (∀ m, ¬ Forces ctx n m) → Best ctx n n := by
    intro n hx hf
    refine ⟨.self n, hx, fun m hm => ?_⟩
    rcases justifies_inv hm with rfl | ⟨x, h, _⟩
    · exact ⟨Nat.le_refl _, fun _ => .inl rfl⟩
    · exact absurd h (hf x)
  intro e
  induction e with
  | boolConst =>
    intro p n h
    cases h
    exact leaf trivial fun m h => by cases h
  | boolNeg i e ih =>
    intro p n h
    refine (ih _ n h).step fun m => ?_
    constructor
    · intro h; cases h; rfl
    · rintro rfl; exact .not
  | bin i op l r ihl ihr =>
    intro p n h
    have conn : op = .and ∨ op = .or ∨ op = .implies → Best ctx (.bin i op l r, p) n := by
      intro hop
      obtain ⟨lb, rb, hl, hr, h⟩ := minP_conn hop h
      have hf := forces_conn (i := i) (p := p) hop hl hr
      revert h hf
      generalize (if op = .or then lb else !lb) = x
      generalize (if op = .and then !rb else rb) = y
      intro h hf
      cases x <;> cases y <;> dsimp only at h
      · subst h
        refine leaf (by rcases hop with rfl | rfl | rfl <;> simp [Explains]) fun m hm => ?_
        rw [hf] at hm
        simp at hm
      · exact (ihr _ n h).step fun m => by rw [hf]; simp
      · exact (ihl _ n h).step fun m => by rw [hf]; simp
      · obtain ⟨n0, n1, h0, h1, rfl⟩ := h
        obtain ⟨j0, x0, b0⟩ := ihl _ n0 h0
        obtain ⟨j1, x1, b1⟩ := ihr _ n1 h1
        have f0 : Forces ctx (.bin i op l r, p) (l, 0 :: p) := (hf _).2 (.inl ⟨rfl, rfl⟩)
        have f1 : Forces ctx (.bin i op l r, p) (r, 1 :: p) := (hf _).2 (.inr ⟨rfl, rfl⟩)
        have w0 := forces_weight f0
        have w1 := forces_weight f1
        have v0 := (b0 _ (.self _)).1
        have v1 := (b1 _ (.self _)).1
        by_cases hle : weight n0.1 ≤ weight n1.1
        · rw [if_pos hle]
          refine ⟨.step f0 j0, x0, fun m hm => ?_⟩
          rcases justifies_inv hm with rfl | ⟨x, hx, hxm⟩
          · exact ⟨by omega, fun e => by omega⟩
          · rw [hf] at hx
            rcases hx with ⟨rfl, _⟩ | ⟨rfl, _⟩
            · exact b0 m hxm
            · have := (b1 m hxm).1
              refine ⟨by omega, fun _ => .inr ?_⟩
              obtain ⟨y0, e0⟩ := justifies_path j0
              obtain ⟨y1, e1⟩ := justifies_path hxm
              exact ⟨p, y0, y1, e0, e1⟩
        · rw [if_neg hle]
          refine ⟨.step f1 j1, x1, fun m hm => ?_⟩
          rcases justifies_inv hm with rfl | ⟨x, hx, hxm⟩
          · exact ⟨by omega, fun e => by omega⟩
          · rw [hf] at hx
            rcases hx with ⟨rfl, _⟩ | ⟨rfl, _⟩
            · have := (b0 m hxm).1
              exact ⟨by omega, fun e => by omega⟩
            · exact b1 m hxm
    cases op with
    | eq | ne | gt | ge | lt | le =>
      cases h
      exact leaf (by simp [Explains]) fun m h => by cases h
    | and => exact conn (.inl rfl)
    | or => exact conn (.inr (.inl rfl))
    | implies => exact conn (.inr (.inr rfl))
    | unknown => cases h
  | _ => intro p n h; cases h

/-! ### Success of the search -/

/-- The shape of boolean expressions after type checking. -/
def BoolShape : Expr → Prop
  | .boolConst _ _ => True
  | .boolNeg _ e => BoolShape e
  | .bin _ op l r =>
    match op with
    | .and | .or | .implies => BoolShape l ∧ BoolShape r
    | .unknown => False
    | _ => True
  | _ => False

theorem minP_ok {ctx : EvalCtx} : ∀ (e : Expr) (p : Path), BoolShape e → (∀ x, Skeleton x e → ∃ b, Val ctx x b) →
    CorrectSizes.NoBareParam e → ∃ n, minP ctx e p = .ok n ∧ CorrectSizes.NoBareParam n.1 := by
  intro e
  induction e with
  | boolConst => exact fun p _ _ hn => ⟨_, rfl, hn⟩
  | boolNeg i e ih => exact fun p hb hv hn => ih _ hb (fun x hx => hv x (.not hx)) hn
  | bin i op l r ihl ihr =>
    intro p hb hv hn
    have conn : op = .and ∨ op = .or ∨ op = .implies → ∃ n, minP ctx (.bin i op l r) p = .ok n ∧ CorrectSizes.NoBareParam n.1 := by
      intro hop
      have hb' : BoolShape l ∧ BoolShape r := by rcases hop with rfl | rfl | rfl <;> exact hb
      obtain ⟨lb, hl⟩ := hv l (.left hop (.self l))
      obtain ⟨rb, hr⟩ := hv r (.right hop (.self r))
      obtain ⟨n0, h0, g0⟩ := ihl (0 :: p) hb'.1 (fun x hx => hv x (.left hop hx)) hn.1
      obtain ⟨n1, h1, g1⟩ := ihr (1 :: p) hb'.2 (fun x hx => hv x (.right hop hx)) hn.2
      have key : minP ctx (.bin i op l r) p = (evalBoolP ctx l >>= fun lb => evalBoolP ctx r >>= fun rb =>
          match (if op = .or then lb else !lb), (if op = .and then !rb else rb) with
          | false, false => .ok (.bin i op l r, p)
          | true, false => minP ctx l (0 :: p)
          | false, true => minP ctx r (1 :: p)
          | true, true => do
            let n0 ← minP ctx l (0 :: p)
            let n1 ← minP ctx r (1 :: p)
            let s0 ← size n0.1
            let s1 ← size n1.1
            .ok (if s0 ≤ s1 then n0 else n1)) := by
        rcases hop with rfl | rfl | rfl <;> rfl
      rw [key, val_boolP.2 hl, val_boolP.2 hr, Res.ok_bind, Res.ok_bind]
      generalize (if op = .or then lb else !lb) = x
      generalize (if op = .and then !rb else rb) = y
      cases x <;> cases y <;> dsimp only
      · exact ⟨_, rfl, hn⟩
      · exact ⟨n1, h1, g1⟩
      · exact ⟨n0, h0, g0⟩
      · rw [h0, h1, Res.ok_bind, Res.ok_bind, size_weight.2 ⟨rfl, g0⟩, size_weight.2 ⟨rfl, g1⟩, Res.ok_bind, Res.ok_bind]
        refine ⟨_, rfl, ?_⟩
        split
        · exact g0
        · exact g1
    cases op with
    | eq | ne | gt | ge | lt | le => exact ⟨_, rfl, hn⟩
    | and => exact conn (.inl rfl)
    | or => exact conn (.inr (.inl rfl))
    | implies => exact conn (.inr (.inr rfl))
    | unknown => exact hb.elim
  | _ => intro p hb _ _; exact hb.elim

/-- The search succeeds, or fails on the size of an action parameter. -/
theorem minP_or {ctx : EvalCtx} : ∀ (e : Expr) (p : Path), BoolShape e → (∀ x, Skeleton x e → ∃ b, Val ctx x b) →
    (∃ n, minP ctx e p = .ok n) ∨ minP ctx e p = .err .invalidArgument := by
  intro e
  induction e with
  | boolConst => exact fun p _ _ => .inl ⟨_, rfl⟩
  | boolNeg i e ih => exact fun p hb hv => ih _ hb (fun x hx => hv x (.not hx))
  | bin i op l r ihl ihr =>
    intro p hb hv
    have conn : op = .and ∨ op = .or ∨ op = .implies →
        (∃ n, minP ctx (.bin i op l r) p = .ok n) ∨ minP ctx (.bin i op l r) p = .err .invalidArgument := by
      intro hop
      have hb' : BoolShape l ∧ BoolShape r := by rcases hop with rfl | rfl | rfl <;> exact hb
      obtain ⟨lb, hl⟩ := hv l (.left hop (.self l))
      obtain ⟨rb, hr⟩ := hv r (.right hop (.self r))
      have h0 := ihl (0 :: p) hb'.1 (fun x hx => hv x (.left hop hx))
      have h1 := ihr (1 :: p) hb'.2 (fun x hx => hv x (.right hop hx))
      have key : minP ctx (.bin i op l r) p = (evalBoolP ctx l >>= fun lb => evalBoolP ctx r >>= fun rb =>
          match (if op = .or then lb else !lb), (if op = .and then !rb else rb) with
          | false, false => .ok (.bin i op l r, p)
          | true, false => minP ctx l (0 :: p)
          | false, true => minP ctx r (1 :: p)
          | true, true => do
            let n0 ← minP ctx l (0 :: p)
            let n1 ← minP ctx r (1 :: p)
            let s0 ← size n0.1
            let s1 ← size n1.1
            .ok (if s0 ≤ s1 then n0 else n1)) := by
        rcases hop with rfl | rfl | rfl <;> rfl
      rw [key, val_boolP.2 hl, val_boolP.2 hr, Res.ok_bind, Res.ok_bind]
      generalize (if op = .or then lb else !lb) = x
      generalize (if op = .and then !rb else rb) = y
      have sz : ∀ e : Expr, (∃ s, size e = .ok s) ∨ size e = .err .invalidArgument := by
        intro e
        by_cases h : CorrectSizes.NoBareParam e
        · exact .inl ⟨_, size_weight.2 ⟨rfl, h⟩⟩
        · exact .inr (size_fails h)
      cases x <;> cases y <;> dsimp only
      · exact .inl ⟨_, rfl⟩
      · exact h1
      · exact h0
      · rcases h0 with ⟨n0, h0⟩ | h0
        · rw [h0, Res.ok_bind]
          rcases h1 with ⟨n1, h1⟩ | h1
          · rw [h1, Res.ok_bind]
            rcases sz n0.1 with ⟨s0, k0⟩ | k0
            · rw [k0, Res.ok_bind]
              rcases sz n1.1 with ⟨s1, k1⟩ | k1
              · rw [k1]; exact .inl ⟨_, rfl⟩
              · rw [k1]; exact .inr rfl
            · rw [k0]; exact .inr rfl
          · rw [h1]; exact .inr rfl
        · rw [h0]; exact .inr rfl
    cases op with
    | eq | ne | gt | ge | lt | le => exact .inl ⟨_, rfl⟩
    | and => exact conn (.inl rfl)
    | or => exact conn (.inr (.inl rfl))
    | implies => exact conn (.inr (.inr rfl))
    | unknown => exact hb.elim
  | _ => intro p hb _; exact hb.elim

end P4C
