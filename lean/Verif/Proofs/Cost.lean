import Verif.Model.Cost
import Verif.Spec.ParseCost
import Verif.Proofs.EvalPure

/-
The counting interpreter: same results, and the number of calls.
-/

namespace P4C

@[simp] theorem res_call : call.res = .ok () := rfl
@[simp] theorem res_deeper {α : Type} (x : Counted α) : (deeper x).res = x.res := rfl
@[simp] theorem res_free {α : Type} (r : Res α) : (free r).res = r := rfl

theorem Res.bind_congr' {α β : Type} {x : Res α} {f g : α → Res β} (h : ∀ a, f a = g a) : (x >>= f) = (x >>= g) := by
  rw [funext h]

theorem res_evalToBoolWithT {ctx : EvalCtx} {e : Expr} {p : Path} {run : Cache → Counted (Value × Cache)}
    {run' : Cache → Res (Value × Cache)} (h : ∀ c, (run c).res = run' c) (c : Cache) :
    (evalToBoolWithT ctx e p run c).res = evalToBoolWith ctx e p run' c := by
  simp only [evalToBoolWithT, evalToBoolWith, res_deeper, Counted.res_bind, res_call, Res.ok_bind]
  cases c.bind (lookup p) with
  | some b => rfl
  | none =>
    simp only [Counted.res_bind, h]
    refine Res.bind_congr' ?_
    rintro ⟨v, c⟩
    cases v <;> rfl

theorem res_evalToIntWithT {ctx : EvalCtx} {e : Expr} {run : Cache → Counted (Value × Cache)}
    {run' : Cache → Res (Value × Cache)} (h : ∀ c, (run c).res = run' c) (c : Cache) :
    (evalToIntWithT ctx e run c).res = evalToIntWith ctx e run' c := by
  simp only [evalToIntWithT, evalToIntWith, res_deeper, Counted.res_bind, res_call, Res.ok_bind, h]
  refine Res.bind_congr' ?_
  rintro ⟨v, c⟩
  cases v <;> rfl

theorem res_dynCheckT {ctx : EvalCtx} {e : Expr} {r : Counted (Value × Cache)} {r' : Res (Value × Cache)}
    (h : r.res = r') : (dynCheckT ctx e r).res = dynCheck ctx e r' := by
  simp only [dynCheckT, dynCheck, res_deeper, Counted.res_bind, res_call, Res.ok_bind, h]
  refine Res.bind_congr' ?_
  rintro ⟨v, c⟩
  simp only []
  by_cases hm : valueMatchesTy e.ty v = true
  · rw [if_pos hm, if_pos hm]; rfl
  · rw [if_neg hm, if_neg hm]; rfl

theorem res_evalT (ctx : EvalCtx) (e : Expr) : ∀ p c, (evalT ctx e p c).res = eval ctx e p c := by
  induction e with
  | boolConst | intConst | key | actionParam | attr | notSet => intro p c; rfl
  | boolNeg i e ih =>
    intro p c
    refine res_dynCheckT ?_
    rw [Counted.res_bind, res_evalToBoolWithT (ih (0 :: p))]
    exact Res.bind_congr' fun _ => rfl
  | arithNeg i e ih =>
    intro p c
    refine res_dynCheckT ?_
    rw [Counted.res_bind, res_evalToIntWithT (ih (0 :: p))]
    exact Res.bind_congr' fun _ => rfl
  | typeCast i e ih =>
    intro p c
    refine res_dynCheckT ?_
    rw [Counted.res_bind, ih]
    refine Res.bind_congr' ?_
    rintro ⟨v, c⟩
    simp only [Counted.res_bind, res_free]
  | field i e f ih =>
    intro p c
    refine res_dynCheckT ?_
    rw [Counted.res_bind, ih]
    refine Res.bind_congr' ?_
    rintro ⟨v, c⟩
    simp only []
    cases evalFieldAccess f v <;> rfl
  | bin i op l r ihl ihr =>
    intro p c
    refine res_dynCheckT ?_
    cases op with
    | eq | ne =>
      simp only [Counted.res_bind, ihl, ihr, res_free]
    | gt | ge | lt | le =>
      simp only [Counted.res_bind, res_evalToIntWithT (ihl (0 :: p)), res_evalToIntWithT (ihr (1 :: p)), res_free]
    | and | or | implies =>
      simp only [Counted.res_bind, res_evalToBoolWithT (ihl (0 :: p))]
      refine Res.bind_congr' ?_
      rintro ⟨b, c⟩
      cases b <;> simp [res_evalToBoolWithT (ihr (1 :: p))]
    | unknown => rfl

theorem res_evalToBoolT (ctx : EvalCtx) (e : Expr) (p : Path) (c : EvalCache) :
    (evalToBoolT ctx e p c).res = evalToBoolC ctx e p c := by
  simp only [evalToBoolT, evalToBoolC, evalToBool, Counted.res_bind, res_evalToBoolWithT (res_evalT ctx e p), res_free]

theorem res_sizeT (e : Expr) : ∀ p c, (sizeT e p c).res = sizeC e p c := by
  induction e with
  | boolConst | intConst | key | actionParam | attr | notSet | arithNeg | typeCast | field =>
    intro p c
    rw [sizeT, sizeC, res_deeper, Counted.res_bind, res_call, Res.ok_bind]
    cases lookup p c <;> rfl
  | boolNeg i e ih =>
    intro p c
    rw [sizeT, sizeC, res_deeper, Counted.res_bind, res_call, Res.ok_bind]
    cases lookup p c with
    | some n => rfl
    | none => simp [ih]
  | bin i op l r ihl ihr =>
    intro p c
    rw [sizeT, sizeC, res_deeper, Counted.res_bind, res_call, Res.ok_bind]
    cases lookup p c with
    | some n => rfl
    | none => simp [ihl, ihr]

theorem res_minimalSubT (ctx : EvalCtx) (e : Expr) : ∀ p cs, (minimalSubT ctx e p cs).res = minimalSub ctx e p cs := by
  induction e with
  | boolConst | intConst | key | actionParam | attr | notSet | arithNeg | typeCast | field => intro p cs; rfl
  | boolNeg i e ih =>
    intro p cs
    show ((call >>= fun _ => minimalSubT ctx e (0 :: p) cs) : Counted _).res = _
    rw [Counted.res_bind, res_call, Res.ok_bind, ih, minimalSub]
  | bin i op l r ihl ihr =>
    intro p cs
    cases op with
    | eq | ne | gt | ge | lt | le | unknown => rfl
    | and | or | implies =>
      simp only [minimalSubT, minimalSub, res_deeper, Counted.res_bind, res_call, Res.ok_bind, res_evalToBoolT]
      refine Res.bind_congr' ?_
      rintro ⟨lb, ec⟩
      refine Res.bind_congr' ?_
      rintro ⟨rb, ec⟩
      cases lb <;> cases rb <;> simp [ihl, ihr, res_sizeT]

theorem res_addVariablesT (e : Expr) : ∀ s, (addVariablesT e s).res = .ok (addVariables e s) := by
  induction e with
  | boolConst | intConst | key | actionParam | attr | notSet => intro s; rfl
  | boolNeg i e ih | arithNeg i e ih | typeCast i e ih | field i e f ih => intro s; exact ih s
  | bin i op l r ihl ihr =>
    intro s
    show ((call >>= fun _ => addVariablesT l s >>= fun s => addVariablesT r s) : Counted _).res = _
    rw [Counted.res_bind, res_call, Res.ok_bind, Counted.res_bind, ihl, Res.ok_bind, ihr]
    rfl

theorem res_explainViolationT (ctx : EvalCtx) (e : Expr) (ec : EvalCache) :
    (explainViolationT ctx e ec).res = explainViolation ctx e ec := by
  simp only [explainViolationT, explainViolation, Counted.res_bind, res_minimalSubT, res_evalToBoolT, res_free,
    res_addVariablesT, Res.ok_bind, getVariables]

theorem res_checkConstraintT (e : Expr) (parse : Res EvalCtx) :
    (checkConstraintT e parse).res = checkConstraint e parse := by
  rw [checkConstraintT, checkConstraint]
  by_cases h : e.ty ≠ .boolean
  · rw [if_pos h, if_pos h]; rfl
  · rw [if_neg h, if_neg h]
    simp only [Counted.res_bind, res_evalToBoolT, res_free]
    refine Res.bind_congr' fun ctx => Res.bind_congr' ?_
    rintro ⟨b, ec⟩
    cases b <;> simp [res_explainViolationT]

theorem res_reasonActionT (a : RtAction) (ci : ConstraintInfo) : (reasonActionT a ci).res = reasonAction a ci := by
  rw [reasonActionT, reasonAction]
  cases getActionInfo ci a.actionId with
  | none => rfl
  | some ai =>
    dsimp only
    cases ai.constraint with
    | none => rfl
    | some e => exact res_checkConstraintT _ _

theorem res_reasonActionSetT (ci : ConstraintInfo) (as : List RtAction) :
    (reasonActionSetT ci as).res = reasonActionSet ci as := by
  induction as with
  | nil => rfl
  | cons a as ih =>
    rw [reasonActionSetT, reasonActionSet, Counted.res_bind, res_reasonActionT]
    refine Res.bind_congr' fun r => ?_
    by_cases h : r ≠ []
    · rw [if_pos h, if_pos h]; rfl
    · rw [if_neg h, if_neg h, ih]

theorem res_reasonTableActionT (ci : ConstraintInfo) (a : Option TableAction) :
    (reasonTableActionT ci a).res = reasonTableAction ci a := by
  cases a with
  | none => rfl
  | some a => cases a <;> simp [reasonTableActionT, reasonTableAction, res_reasonActionT, res_reasonActionSetT]

theorem res_reasonEntryT (entry : RtEntry) (ci : ConstraintInfo) :
    (reasonEntryT entry ci).res = reasonEntryViolatesConstraint entry ci := by
  rw [reasonEntryT, reasonEntryViolatesConstraint]
  cases getTableInfo ci entry.tableId with
  | none => rfl
  | some ti =>
    dsimp only
    have k : ∀ r : Str, (if r ≠ [] then free (Res.ok r) else reasonTableActionT ci entry.action).res =
        if r ≠ [] then .ok r else reasonTableAction ci entry.action := by
      intro r
      by_cases h : r ≠ []
      · rw [if_pos h, if_pos h]; rfl
      · rw [if_neg h, if_neg h, res_reasonTableActionT]
    cases ti.constraint with
    | none => simp only [Counted.res_bind, res_free, k]
    | some e => simp only [Counted.res_bind, res_checkConstraintT, k]


/-! ### Budgets -/

/-- Costs the budget `n`, of which `post a` remains if the result is `a`; results satisfy `Q`. -/
def Costs {α : Type} (x : Counted α) (Q : α → Prop) (post : α → Nat) (n : Nat) : Prop :=
  match x.res with
  | .ok a => Q a ∧ x.calls + post a ≤ n
  | _ => x.calls ≤ n

theorem Costs.bind {α β : Type} {x : Counted α} {f : α → Counted β} {Q : α → Prop} {Q' : β → Prop} {post : α → Nat}
    {post' : β → Nat} {n : Nat} (h : Costs x Q post n) (hf : ∀ a, Q a → Costs (f a) Q' post' (post a)) :
    Costs (x >>= f) Q' post' n := by
  obtain ⟨k, d, r⟩ := x
  cases r with
  | ok a =>
    obtain ⟨hq, hn⟩ := h
    have := hf a hq
    simp only [] at hn
    show Costs ⟨k + (f a).calls, max d (f a).depth, (f a).res⟩ Q' post' n
    unfold Costs at this ⊢
    cases hr : (f a).res with
    | ok b => rw [hr] at this; exact ⟨this.1, by have := this.2; simp only []; omega⟩
    | err | crash | oof => rw [hr] at this; simp only [] at this ⊢; omega
  | err | crash | oof => exact h

theorem Costs.call {k : Nat} : Costs call (fun _ => True) (fun _ => k) (k + 1) := by
  refine ⟨trivial, ?_⟩
  show 1 + k ≤ k + 1
  omega

theorem Costs.deeper {α : Type} {x : Counted α} {Q : α → Prop} {post : α → Nat} {n : Nat} (h : Costs x Q post n) :
    Costs (deeper x) Q post n := h

theorem Costs.ok {α : Type} {a : α} {Q : α → Prop} {post : α → Nat} {n : Nat} (hq : Q a) (hn : post a ≤ n) :
    Costs (free (.ok a)) Q post n := ⟨hq, by show 0 + post a ≤ n; omega⟩

theorem Costs.free {α : Type} {r : Res α} {Q : α → Prop} {post : α → Nat} {n : Nat}
    (h : ∀ a, r = .ok a → Q a ∧ post a ≤ n) : Costs (free r) Q post n := by
  cases r with
  | ok a => exact Costs.ok (h a rfl).1 (h a rfl).2
  | err | crash | oof => exact Nat.zero_le _

theorem Costs.rtError {α : Type} {ctx : EvalCtx} {e : Expr} {Q : α → Prop} {post : α → Nat} {n : Nat} :
    Costs (P4C.free (rtError ctx e : Res α)) Q post n :=
  Costs.free fun a h => by
    have : ∀ r : Res α, r = P4C.rtError ctx e → r ≠ .ok a := by
      rintro r rfl
      rw [P4C.rtError, runtimeTypeError]
      split <;> simp
    exact (this _ rfl h).elim

theorem Costs.mono {α : Type} {x : Counted α} {Q Q' : α → Prop} {post post' : α → Nat} {n n' : Nat}
    (h : Costs x Q post n) (hq : ∀ a, Q a → Q' a) (hp : ∀ a, Q a → post' a ≤ post a) (hn : n ≤ n') :
    Costs x Q' post' n' := by
  obtain ⟨k, d, r⟩ := x
  cases r with
  | ok a => exact ⟨hq a h.1, by have := h.2; have := hp a h.1; simp only [] at *; omega⟩
  | err | crash | oof => exact Nat.le_trans h hn

theorem Costs.calls_le {α : Type} {x : Counted α} {Q : α → Prop} {post : α → Nat} {n : Nat} (h : Costs x Q post n) :
    x.calls ≤ n := by
  obtain ⟨k, d, r⟩ := x
  cases r with
  | ok a => have := h.2; simp only [] at *; omega
  | err | crash | oof => exact h

/-- What the nodes of `L` that are not in the cache may still cost. -/
def due {α : Type} (L : List (Path × Nat)) (c : List (Path × α)) : Nat :=
  (L.map fun x => if hasKey x.1 c then 0 else x.2).sum

theorem hasKey_cons {α : Type} {q p : Path} {a : α} {c : List (Path × α)} :
    hasKey q ((p, a) :: c) = (decide (q = p) || hasKey q c) := by
  unfold hasKey
  rw [lookup_cons]
  by_cases h : p = q
  · simp [h]
  · have : q ≠ p := fun e => h e.symm
    simp [h, this]

/-- Nothing is removed from the cache. -/
def Grows {α : Type} (c m : List (Path × α)) : Prop := ∀ q, hasKey q c = true → hasKey q m = true

theorem Grows.refl {α : Type} {c : List (Path × α)} : Grows c c := fun _ h => h

theorem Grows.trans {α : Type} {a b c : List (Path × α)} (h : Grows a b) (h' : Grows b c) : Grows a c :=
  fun q hq => h' q (h q hq)

theorem Grows.cons {α : Type} {c : List (Path × α)} {p : Path} {a : α} : Grows c ((p, a) :: c) :=
  fun q hq => by rw [hasKey_cons, hq, Bool.or_true]

theorem due_grows {α : Type} (L : List (Path × Nat)) {c m : List (Path × α)} (h : Grows c m) : due L m ≤ due L c := by
  induction L with
  | nil => exact Nat.le_refl _
  | cons x L ih =>
    simp only [due, List.map_cons, List.sum_cons] at ih ⊢
    refine Nat.add_le_add ?_ ih
    cases hc : hasKey x.1 c with
    | true => simp [h _ hc]
    | false => split <;> simp

theorem due_append {α : Type} (L L' : List (Path × Nat)) (c : List (Path × α)) :
    due (L ++ L') c = due L c + due L' c := by
  simp [due]

theorem due_cons {α : Type} (x : Path × Nat) (L : List (Path × Nat)) (c : List (Path × α)) :
    due (x :: L) c = (if hasKey x.1 c then 0 else x.2) + due L c := by
  simp [due]

/-! ### Evaluation -/

/-- What evaluating a node costs, apart from operands of boolean operators. -/
def region : Expr → Nat
  | .arithNeg _ e | .typeCast _ e | .field _ e _ => 2 + region e
  | .bin _ .and _ _ | .bin _ .or _ _ | .bin _ .implies _ _ | .boolNeg .. => 3
  | .bin _ _ l r => 3 + region l + region r
  | _ => 1

/-- The operands of boolean operators strictly below a node, with their costs. -/
def below : Expr → Path → List (Path × Nat)
  | .arithNeg _ e, p | .typeCast _ e, p | .field _ e _, p => below e (0 :: p)
  | .boolNeg _ e, p => (0 :: p, region e) :: below e (0 :: p)
  | .bin _ .and l r, p | .bin _ .or l r, p | .bin _ .implies l r, p =>
    ((0 :: p, region l) :: below l (0 :: p)) ++ ((1 :: p, region r) :: below r (1 :: p))
  | .bin _ _ l r, p => below l (0 :: p) ++ below r (1 :: p)
  | _, _ => []

/-- As `due`, of a cache that may be missing. -/
def dueO (L : List (Path × Nat)) : Cache → Nat
  | some c => due L c
  | none => 0

/-- There is still a cache. -/
def GrowsO (c : EvalCache) (c' : Cache) : Prop := ∃ m, c' = some m ∧ Grows c m

/-- The bound for `Eval`. -/
def EvalBound (e : Expr) (p : Path) (run : Cache → Counted (Value × Cache)) : Prop :=
  ∀ c k, Costs (run (some c)) (fun r => GrowsO c r.2) (fun r => k + dueO (below e p) r.2)
    (k + region e + due (below e p) c)

theorem costs_toBool {ctx : EvalCtx} {e : Expr} {p : Path} {run : Cache → Counted (Value × Cache)}
    (h : EvalBound e p run) (c : EvalCache) (k : Nat) :
    Costs (evalToBoolWithT ctx e p run (some c)) (fun r => GrowsO c r.2)
      (fun r => k + dueO ((p, region e) :: below e p) r.2) (k + due ((p, region e) :: below e p) c + 1) := by
  refine Costs.bind Costs.call fun _ _ => ?_
  cases hl : lookup p c with
  | some b =>
    simp only [Option.bind_some, hl]
    exact Costs.ok ⟨c, rfl, Grows.refl⟩ (Nat.le_refl _)
  | none =>
    simp only [Option.bind_some, hl]
    have hk : hasKey p c = false := by simp [hasKey, hl]
    rw [due_cons, if_neg (by simp [hk])]
    refine Costs.bind ((h c k).mono (fun _ => id) (fun _ _ => Nat.le_refl _) (by simp only []; omega)) ?_
    rintro ⟨v, c'⟩ ⟨m, hm, hg⟩
    simp only [] at hm
    subst hm
    cases v with
    | bool b =>
      have hi : hasKey p ((insertNew p b m).getD m) = true ∧ Grows m ((insertNew p b m).getD m) := by
        unfold insertNew
        cases hm : hasKey p m with
        | true => simpa using ⟨hm, Grows.refl⟩
        | false =>
          refine ⟨?_, Grows.cons⟩
          simp [hasKey_cons]
      refine Costs.ok ⟨_, rfl, hg.trans hi.2⟩ ?_
      simp only [Option.map_some, dueO, due_cons, hi.1, if_true]
      have := due_grows (below e p) hi.2
      omega
    | _ => exact Costs.rtError

theorem costs_toInt {ctx : EvalCtx} {e : Expr} {p : Path} {run : Cache → Counted (Value × Cache)}
    (h : EvalBound e p run) (c : EvalCache) (k : Nat) :
    Costs (evalToIntWithT ctx e run (some c)) (fun r => GrowsO c r.2)
      (fun r => k + dueO (below e p) r.2) (k + region e + due (below e p) c + 1) := by
  refine Costs.bind Costs.call fun _ _ => Costs.bind (h c k) ?_
  rintro ⟨v, c'⟩ hc
  cases v with
  | int z => exact Costs.ok hc (Nat.le_refl _)
  | _ => exact Costs.rtError

theorem costs_dynCheck {ctx : EvalCtx} {e : Expr} {r : Counted (Value × Cache)} {Q : Value × Cache → Prop}
    {post : Value × Cache → Nat} {n : Nat} (h : Costs r Q post n) : Costs (dynCheckT ctx e r) Q post (n + 1) := by
  refine Costs.bind Costs.call fun _ _ => Costs.bind h ?_
  rintro ⟨v, c⟩ hq
  simp only []
  split
  · exact Costs.ok hq (Nat.le_refl _)
  · exact Costs.rtError

theorem dynCheck_ok {ctx : EvalCtx} {e : Expr} {r : Res (Value × Cache)} {x : Value × Cache}
    (h : dynCheck ctx e r = .ok x) : r = .ok x := by
  cases r with
  | ok a =>
    simp only [dynCheck, Res.ok_bind] at h
    split at h
    · exact h
    · rw [rtError, runtimeTypeError] at h
      split at h <;> cases h
  | err | crash | oof => cases h

theorem rtError_ok {α : Type} {ctx : EvalCtx} {e : Expr} {a : α} (h : rtError ctx e = .ok a) : False := by
  rw [rtError, runtimeTypeError] at h
  split at h <;> cases h

theorem costs_leaf {r : Res (Value × Cache)} {c : EvalCache} {k : Nat} (h : ∀ x, r = .ok x → x.2 = some c) :
    Costs (leafT r) (fun r => GrowsO c r.2) (fun r => k + dueO [] r.2) (k + 1 + due [] c) := by
  refine Costs.bind (Costs.call (k := k + due [] c) |>.mono (fun _ => id) (fun _ _ => Nat.le_refl _) (by omega)) fun _ _ =>
    Costs.free fun x hx => ?_
  rw [h x hx]
  exact ⟨⟨c, rfl, Grows.refl⟩, Nat.le_refl _⟩

theorem costs_evalT (ctx : EvalCtx) (e : Expr) : ∀ p, EvalBound e p (evalT ctx e p) := by
  induction e with
  | boolConst | notSet =>
    intro p c k
    exact costs_leaf fun x hx => by
      have := dynCheck_ok hx
      cases this <;> rfl
  | intConst =>
    intro p c k
    exact costs_leaf fun x hx => by
      have := dynCheck_ok hx
      split at this <;> cases this
      rfl
  | key | actionParam =>
    intro p c k
    exact costs_leaf fun x hx => by
      have := dynCheck_ok hx
      split at this
      · exact (rtError_ok this).elim
      · split at this
        · cases this; rfl
        · exact (rtError_ok this).elim
  | attr =>
    intro p c k
    exact costs_leaf fun x hx => by
      have := dynCheck_ok hx
      split at this
      · exact (rtError_ok this).elim
      · split at this
        · cases this; rfl
        · exact (rtError_ok this).elim
  | boolNeg i e ih =>
    intro p c k
    refine (costs_dynCheck (n := k + due ((0 :: p, region e) :: below e (0 :: p)) c + 1) ?_).mono (fun _ => id)
      (fun _ _ => Nat.le_refl _) (by simp only [region, below]; omega)
    refine Costs.bind (costs_toBool (ih _) c k) ?_
    rintro ⟨b, c'⟩ hc
    exact Costs.ok hc (Nat.le_refl _)
  | arithNeg i e ih =>
    intro p c k
    refine (costs_dynCheck (n := k + region e + due (below e (0 :: p)) c + 1) ?_).mono (fun _ => id)
      (fun _ _ => Nat.le_refl _) (by simp only [region, below]; omega)
    refine Costs.bind (costs_toInt (ih _) c k) ?_
    rintro ⟨b, c'⟩ hc
    exact Costs.ok hc (Nat.le_refl _)
  | typeCast i e ih =>
    intro p c k
    refine (costs_dynCheck (n := k + region e + due (below e (0 :: p)) c) ?_).mono (fun _ => id)
      (fun _ _ => Nat.le_refl _) (by simp only [region, below]; omega)
    refine Costs.bind (ih _ c k) ?_
    rintro ⟨v, c'⟩ hc
    refine Costs.bind (Q := fun _ => True) (post := fun _ => k + dueO (below e (0 :: p)) c')
      (Costs.free fun _ _ => ⟨trivial, Nat.le_refl _⟩) fun v _ => Costs.ok hc (Nat.le_refl _)
  | field i e f ih =>
    intro p c k
    refine (costs_dynCheck (n := k + region e + due (below e (0 :: p)) c) ?_).mono (fun _ => id)
      (fun _ _ => Nat.le_refl _) (by simp only [region, below]; omega)
    refine Costs.bind (ih _ c k) ?_
    rintro ⟨v, c'⟩ hc
    simp only []
    cases evalFieldAccess f v with
    | some v => exact Costs.ok hc (Nat.le_refl _)
    | none => exact Costs.rtError
  | bin i op l r ihl ihr =>
    intro p c k
    cases op with
    | eq | ne =>
      refine (costs_dynCheck (n := k + (region l + region r) + due (below l (0 :: p) ++ below r (1 :: p)) c) ?_).mono (fun _ => id)
        (fun _ _ => Nat.le_refl _) (by simp only [region, below]; omega)
      refine Costs.bind ((ihl _ c (k + region r + due (below r (1 :: p)) c)).mono (fun _ => id) (fun _ _ => Nat.le_refl _)
        (by rw [due_append]; omega)) ?_
      rintro ⟨lv, c1⟩ ⟨m1, rfl, g1⟩
      refine Costs.bind ((ihr _ m1 (k + due (below l (0 :: p)) m1)).mono (fun _ => id) (fun _ _ => Nat.le_refl _) (by
        have := due_grows (below r (1 :: p)) g1
        simp only [dueO]
        omega)) ?_
      rintro ⟨rv, c2⟩ ⟨m2, rfl, g2⟩
      refine Costs.ok ⟨m2, rfl, g1.trans g2⟩ ?_
      have := due_grows (below l (0 :: p)) g2
      simp only [below, dueO, due_append]
      omega
    | gt | ge | lt | le =>
      refine (costs_dynCheck (n := k + (region l + region r + 2) + due (below l (0 :: p) ++ below r (1 :: p)) c) ?_).mono (fun _ => id)
        (fun _ _ => Nat.le_refl _) (by simp only [region, below]; omega)
      refine Costs.bind ((costs_toInt (ihl _) c (k + region r + 1 + due (below r (1 :: p)) c)).mono (fun _ => id) (fun _ _ => Nat.le_refl _)
        (by rw [due_append]; omega)) ?_
      rintro ⟨lv, c1⟩ ⟨m1, rfl, g1⟩
      refine Costs.bind ((costs_toInt (ihr _) m1 (k + due (below l (0 :: p)) m1)).mono (fun _ => id) (fun _ _ => Nat.le_refl _) (by
        have := due_grows (below r (1 :: p)) g1
        simp only [dueO]
        omega)) ?_
      rintro ⟨rv, c2⟩ ⟨m2, rfl, g2⟩
      refine Costs.ok ⟨m2, rfl, g1.trans g2⟩ ?_
      have := due_grows (below l (0 :: p)) g2
      simp only [below, dueO, due_append]
      omega
    | and | or | implies =>
      generalize hl : (0 :: p, region l) :: below l (0 :: p) = Ll
      generalize hr : (1 :: p, region r) :: below r (1 :: p) = Lr
      have hb : ∀ i, below (.bin i .and l r) p = Ll ++ Lr ∧ below (.bin i .or l r) p = Ll ++ Lr ∧
          below (.bin i .implies l r) p = Ll ++ Lr := by
        intro i
        subst hl hr
        exact ⟨rfl, rfl, rfl⟩
      obtain ⟨h1, h2, h3⟩ := hb i
      have hl' := fun c k => costs_toBool (ctx := ctx) (ihl (0 :: p)) c k
      have hr' := fun c k => costs_toBool (ctx := ctx) (ihr (1 :: p)) c k
      simp only [hl] at hl'
      simp only [hr] at hr'
      simp only [h1, h2, h3]
      refine (costs_dynCheck (n := k + 2 + due (Ll ++ Lr) c) ?_).mono (fun _ => id)
        (fun _ _ => Nat.le_refl _) (by simp only [region]; omega)
      refine Costs.bind ((hl' c (k + 1 + due Lr c)).mono (fun _ => id) (fun _ _ => Nat.le_refl _)
        (by rw [due_append]; omega)) ?_
      rintro ⟨lb, c1⟩ ⟨m1, rfl, g1⟩
      have hg := due_grows Lr g1
      have stop : ∀ b : Bool, Costs (free (.ok (.bool b, some m1))) (fun r : Value × Cache => GrowsO c r.2)
          (fun r => k + dueO (Ll ++ Lr) r.2) (k + 1 + due Lr c + due Ll m1) := by
        intro b
        refine Costs.ok ⟨m1, rfl, g1⟩ ?_
        simp only [dueO, due_append]
        omega
      have go : Costs (evalToBoolWithT ctx r (1 :: p) (fun c => evalT ctx r (1 :: p) c) (some m1) >>= fun r =>
            match r with
            | (rb, c) => free (.ok (.bool rb, c))) (fun r : Value × Cache => GrowsO c r.2)
          (fun r => k + dueO (Ll ++ Lr) r.2) (k + 1 + due Lr c + due Ll m1) := by
        refine Costs.bind ((hr' m1 (k + due Ll m1)).mono (fun _ => id) (fun _ _ => Nat.le_refl _) (by omega)) ?_
        rintro ⟨rb, c2⟩ ⟨m2, rfl, g2⟩
        refine Costs.ok ⟨m2, rfl, g1.trans g2⟩ ?_
        have := due_grows Ll g2
        simp only [dueO, due_append]
        omega
      cases lb
      · first | exact stop _ | exact go
      · first | exact stop _ | exact go
    | unknown =>
      exact costs_dynCheck (n := k + 2 + region l + region r + due (below l (0 :: p) ++ below r (1 :: p)) c)
        (Costs.free fun _ h => by cases h) |>.mono (fun _ => id) (fun _ _ => Nat.le_refl _)
        (by simp only [region, below]; omega)

/-- An operand of a boolean operator, with those below it. -/
def operands (e : Expr) (p : Path) : List (Path × Nat) := (p, region e) :: below e p

theorem costs_evalToBoolT (ctx : EvalCtx) (e : Expr) (p : Path) (c : EvalCache) (k : Nat) :
    Costs (evalToBoolT ctx e p c) (fun r => Grows c r.2) (fun r => k + due (operands e p) r.2)
      (k + due (operands e p) c + 1) := by
  refine Costs.bind (costs_toBool (costs_evalT ctx e p) c k) ?_
  rintro ⟨b, c'⟩ ⟨m, rfl, hg⟩
  exact Costs.ok hg (Nat.le_refl _)

/-! ### Size -/

/-- The nodes whose size is cached. -/
def sized : Expr → Path → List (Path × Nat)
  | .bin _ _ l r, p => (p, 2) :: (sized l (0 :: p) ++ sized r (1 :: p))
  | .boolNeg _ e, p => (p, 2) :: sized e (0 :: p)
  | _, _ => []

theorem costs_sizeT (e : Expr) : ∀ (p : Path) (c : SizeCache) (k : Nat),
    Costs (sizeT e p c) (fun r => Grows c r.2) (fun r => k + due (sized e p) r.2) (k + due (sized e p) c + 1) := by
  have hit : ∀ (e : Expr) p c k n, lookup p c = some n →
      Costs (sizeT e p c) (fun r => Grows c r.2) (fun r => k + due (sized e p) r.2) (k + due (sized e p) c + 1) := by
    intro e p c k n h
    rw [sizeT.eq_def]
    refine Costs.bind Costs.call fun _ _ => ?_
    rw [h]
    exact Costs.ok Grows.refl (Nat.le_refl _)
  induction e with
  | boolConst | intConst | key | arithNeg | typeCast | field | attr =>
    intro p c k
    cases h : lookup p c with
    | some n => exact hit _ p c k n h
    | none =>
      rw [sizeT]
      refine Costs.bind Costs.call fun _ _ => ?_
      rw [h]
      exact Costs.ok Grows.refl (Nat.le_refl _)
  | actionParam | notSet =>
    intro p c k
    cases h : lookup p c with
    | some n => exact hit _ p c k n h
    | none =>
      rw [sizeT]
      refine Costs.bind Costs.call fun _ _ => ?_
      rw [h]
      exact Costs.free fun _ h => by cases h
  | boolNeg i e ih =>
    intro p c k
    cases h : lookup p c with
    | some n => exact hit _ p c k n h
    | none =>
      rw [sizeT]
      refine Costs.bind Costs.call fun _ _ => ?_
      rw [h]
      have hk : hasKey p c = false := by simp [hasKey, h]
      refine Costs.bind ((ih (0 :: p) c k).mono (fun _ => id) (fun _ _ => Nat.le_refl _) (by
        simp only [sized, due_cons, hk]
        simp
        omega)) ?_
      rintro ⟨n, m⟩ hg
      refine Costs.ok (hg.trans Grows.cons) ?_
      have := due_grows (sized e (0 :: p)) (Grows.cons (c := m) (p := p) (a := 1 + n))
      simp only [sized, due_cons, hasKey_cons]
      simp
      omega
  | bin i op l r ihl ihr =>
    intro p c k
    cases h : lookup p c with
    | some n => exact hit _ p c k n h
    | none =>
      rw [sizeT]
      refine Costs.bind Costs.call fun _ _ => ?_
      rw [h]
      have hk : hasKey p c = false := by simp [hasKey, h]
      refine Costs.bind ((ihl (0 :: p) c (k + 1 + due (sized r (1 :: p)) c)).mono (fun _ => id) (fun _ _ => Nat.le_refl _) (by
        simp only [sized, due_cons, due_append, hk]
        simp
        omega)) ?_
      rintro ⟨n, m⟩ hg
      have h1 := due_grows (sized r (1 :: p)) hg
      simp only [] at h1 ⊢
      refine Costs.bind ((ihr (1 :: p) m (k + due (sized l (0 :: p)) m)).mono (fun _ => id) (fun _ _ => Nat.le_refl _) (by
        omega)) ?_
      rintro ⟨n', m'⟩ hg'
      refine Costs.ok ((hg.trans hg').trans Grows.cons) ?_
      have h2 := due_grows (sized l (0 :: p)) hg'
      have h3 := due_grows (sized l (0 :: p) ++ sized r (1 :: p)) (Grows.cons (c := m') (p := p) (a := 1 + n + n'))
      simp only [sized, due_cons, due_append, hasKey_cons] at h2 h3 ⊢
      simp
      omega

/-! ### The search for an explanation -/

/-- The node `n` is `e` or an operand of a boolean operator of `e`. -/
def PartOf (n : Node) (e : Expr) (p : Path) : Prop :=
  operands n.1 n.2 <:+: operands e p ∧ sized n.1 n.2 <:+: sized e p

theorem due_infix {α : Type} {L L' : List (Path × Nat)} (h : L <:+: L') : ∃ d : List (Path × α) → Nat,
    (∀ c, due L' c = due L c + d c) ∧ ∀ c m, Grows c m → d m ≤ d c := by
  obtain ⟨a, b, rfl⟩ := h
  refine ⟨fun c => due a c + due b c, fun c => ?_, fun c m hg => ?_⟩
  · rw [due_append, due_append]
    dsimp only
    omega
  · have := due_grows a hg
    have := due_grows b hg
    dsimp only
    omega

theorem PartOf.refl {e : Expr} {p : Path} : PartOf (e, p) e p := ⟨List.infix_refl _, List.infix_refl _⟩

theorem PartOf.trans {n : Node} {e e' : Expr} {p p' : Path} (h : PartOf n e p) (h' : PartOf (e, p) e' p') :
    PartOf n e' p' := ⟨h.1.trans h'.1, h.2.trans h'.2⟩

theorem partOf_left {i : Info} {op : BinOp} {l r : Expr} {p : Path} (h : op = .and ∨ op = .or ∨ op = .implies) :
    PartOf (l, 0 :: p) (.bin i op l r) p := by
  constructor
  · refine ⟨[(p, region (.bin i op l r))], operands r (1 :: p), ?_⟩
    rcases h with rfl | rfl | rfl <;> rfl
  · exact ⟨[(p, 2)], sized r (1 :: p), rfl⟩

theorem partOf_right {i : Info} {op : BinOp} {l r : Expr} {p : Path} (h : op = .and ∨ op = .or ∨ op = .implies) :
    PartOf (r, 1 :: p) (.bin i op l r) p := by
  constructor
  · refine ⟨(p, region (.bin i op l r)) :: operands l (0 :: p), [], ?_⟩
    rw [List.append_nil]
    rcases h with rfl | rfl | rfl <;> rfl
  · exact ⟨(p, 2) :: sized l (0 :: p), [], by rw [List.append_nil]; rfl⟩

theorem partOf_neg {i : Info} {e : Expr} {p : Path} : PartOf (e, 0 :: p) (.boolNeg i e) p :=
  ⟨⟨[(p, 3)], [], by rw [List.append_nil]; rfl⟩, ⟨[(p, 2)], [], by rw [List.append_nil]; rfl⟩⟩

theorem costs_eval_in {ctx : EvalCtx} {n : Node} {L : List (Path × Nat)} (h : operands n.1 n.2 <:+: L) (c : EvalCache) (k : Nat) :
    Costs (evalToBoolT ctx n.1 n.2 c) (fun r => Grows c r.2) (fun r => k + due L r.2) (k + due L c + 1) := by
  obtain ⟨d, h1, h2⟩ := due_infix (α := Bool) h
  refine (costs_evalToBoolT ctx n.1 n.2 c (k + d c)).mono (fun _ => id) (fun r hr => ?_) ?_
  · have := h2 _ _ hr
    rw [h1]
    omega
  · rw [h1]
    omega

theorem costs_size_in {n : Node} {L : List (Path × Nat)} (h : sized n.1 n.2 <:+: L) (c : SizeCache) (k : Nat) :
    Costs (sizeT n.1 n.2 c) (fun r => Grows c r.2) (fun r => k + due L r.2) (k + due L c + 1) := by
  obtain ⟨d, h1, h2⟩ := due_infix (α := Nat) h
  refine (costs_sizeT n.1 n.2 c (k + d c)).mono (fun _ => id) (fun r hr => ?_) ?_
  · have := h2 _ _ hr
    rw [h1]
    omega
  · rw [h1]
    omega

/-- The bound for the search at a node. -/
def MinBound (ctx : EvalCtx) (e : Expr) (p : Path) (e' : Expr) (p' : Path) : Prop := ∀ (cs : Caches) (k : Nat),
  Costs (minimalSubT ctx e p cs)
    (fun r => PartOf r.1 e' p' ∧ Grows cs.1 r.2.1 ∧ Grows cs.2 r.2.2)
    (fun r => k + due (operands e' p') r.2.1 + due (sized e' p') r.2.2)
    (k + due (operands e' p') cs.1 + due (sized e' p') cs.2 + 5 * Spec.nodes e)

theorem MinBound.lift {ctx : EvalCtx} {e e' : Expr} {p p' : Path} (h : MinBound ctx e p e p) (hn : PartOf (e, p) e' p') :
    MinBound ctx e p e' p' := by
  intro cs k
  obtain ⟨d, h1, h2⟩ := due_infix (α := Bool) hn.1
  obtain ⟨d', h1', h2'⟩ := due_infix (α := Nat) hn.2
  refine (h cs (k + d cs.1 + d' cs.2)).mono (fun r hr => ⟨hr.1.trans hn, hr.2⟩) (fun r hr => ?_) ?_
  · have := h2 _ _ hr.2.1
    have := h2' _ _ hr.2.2
    rw [h1, h1']
    dsimp only
    omega
  · rw [h1, h1']
    dsimp only
    omega

theorem costs_minimalSubT (ctx : EvalCtx) (e : Expr) : ∀ p, MinBound ctx e p e p := by
  have ret : ∀ (e : Expr) p (cs : Caches) k, Costs (call >>= fun _ => free (.ok ((e, p), cs)))
      (fun r => PartOf r.1 e p ∧ Grows cs.1 r.2.1 ∧ Grows cs.2 r.2.2)
      (fun r : Node × Caches => k + due (operands e p) r.2.1 + due (sized e p) r.2.2)
      (k + due (operands e p) cs.1 + due (sized e p) cs.2 + 1) := fun e p cs k =>
    Costs.bind Costs.call fun _ _ => Costs.ok ⟨PartOf.refl, Grows.refl, Grows.refl⟩ (Nat.le_refl _)
  induction e with
  | boolConst i b =>
    intro p cs k
    exact (ret _ p cs k).mono (fun _ => id) (fun _ _ => Nat.le_refl _) (by simp only [Spec.nodes]; omega)
  | intConst | key | actionParam | attr | notSet | arithNeg | typeCast | field =>
    intro p cs k
    exact Costs.deeper (Costs.bind (Costs.call (k := 0) |>.mono (fun _ => id) (fun _ _ => Nat.le_refl _)
      (by simp only [Spec.nodes]; omega)) fun _ _ => Costs.free fun _ h => by cases h)
  | boolNeg i e ih =>
    intro p cs k
    refine Costs.bind (Costs.call.mono (fun _ => id) (fun _ _ => Nat.le_refl _) ?_) fun _ _ =>
      (ih (0 :: p)).lift partOf_neg cs k
    simp only [Spec.nodes]
    omega
  | bin i op l r ihl ihr =>
    intro p cs k
    have conn : (op = .and ∨ op = .or ∨ op = .implies) →
        Costs (minimalSubT ctx (.bin i op l r) p cs)
          (fun r' => PartOf r'.1 (.bin i op l r) p ∧ Grows cs.1 r'.2.1 ∧ Grows cs.2 r'.2.2)
          (fun r' => k + due (operands (.bin i op l r) p) r'.2.1 + due (sized (.bin i op l r) p) r'.2.2)
          (k + due (operands (.bin i op l r) p) cs.1 + due (sized (.bin i op l r) p) cs.2 + 5 * Spec.nodes (.bin i op l r)) := by
      intro hop
      have wl : PartOf (l, 0 :: p) (.bin i op l r) p := partOf_left hop
      have wr : PartOf (r, 1 :: p) (.bin i op l r) p := partOf_right hop
      have ml := (ihl (0 :: p)).lift wl
      have mr := (ihr (1 :: p)).lift wr
      have el := costs_eval_in (ctx := ctx) wl.1
      have er := costs_eval_in (ctx := ctx) wr.1
      have key : Costs (call >>= fun _ => do
          let (lb, ec) ← evalToBoolT ctx l (0 :: p) cs.1
          let (rb, ec) ← evalToBoolT ctx r (1 :: p) ec
          let cs := (ec, cs.2)
          let lc := if op = .or then lb else !lb
          let rc := if op = .and then !rb else rb
          match lc, rc with
          | false, false => free (.ok ((.bin i op l r, p), cs))
          | true, false => minimalSubT ctx l (0 :: p) cs
          | false, true => minimalSubT ctx r (1 :: p) cs
          | true, true => do
            let (n0, cs) ← minimalSubT ctx l (0 :: p) cs
            let (n1, cs) ← minimalSubT ctx r (1 :: p) cs
            let (s0, sc) ← sizeT n0.1 n0.2 cs.2
            let (s1, sc) ← sizeT n1.1 n1.2 sc
            free (.ok (if s0 ≤ s1 then n0 else n1, (cs.1, sc))))
          (fun r' : Node × Caches => PartOf r'.1 (.bin i op l r) p ∧ Grows cs.1 r'.2.1 ∧ Grows cs.2 r'.2.2)
          (fun r' => k + due (operands (.bin i op l r) p) r'.2.1 + due (sized (.bin i op l r) p) r'.2.2)
          (k + due (operands (.bin i op l r) p) cs.1 + due (sized (.bin i op l r) p) cs.2 + 5 * Spec.nodes (.bin i op l r)) := by
        have hn : Spec.nodes (.bin i op l r) = 1 + Spec.nodes l + Spec.nodes r := rfl
        rw [hn]
        let O := operands (.bin i op l r) p
        let S := sized (.bin i op l r) p
        refine Costs.bind (Costs.call.mono (fun _ => id) (fun _ _ => Nat.le_refl _)
          (n := (k + due S cs.2 + 5 * Spec.nodes l + 5 * Spec.nodes r + 3) + due O cs.1 + 1 + 1) (by dsimp only [O, S]; omega)) fun _ _ => ?_
        refine Costs.bind (el cs.1 _) ?_
        rintro ⟨lb, m1⟩ g1
        refine Costs.bind ((er m1 (k + due S cs.2 + 5 * Spec.nodes l + 5 * Spec.nodes r + 2)).mono (fun _ => id)
          (fun _ _ => Nat.le_refl _) (by dsimp only [O, S]; omega)) ?_
        rintro ⟨rb, m2⟩ g2
        dsimp only
        have g := g1.trans g2
        cases (if op = .or then lb else !lb) <;> cases (if op = .and then !rb else rb)
        · exact Costs.ok ⟨PartOf.refl, g, Grows.refl⟩ (by dsimp only [O, S]; omega)
        · exact (mr (m2, cs.2) k).mono (fun r hr => ⟨hr.1, g.trans hr.2.1, hr.2.2⟩) (fun _ _ => Nat.le_refl _) (by dsimp only [O, S]; omega)
        · exact (ml (m2, cs.2) k).mono (fun r hr => ⟨hr.1, g.trans hr.2.1, hr.2.2⟩) (fun _ _ => Nat.le_refl _) (by dsimp only [O, S]; omega)
        · refine Costs.bind ((ml (m2, cs.2) (k + 5 * Spec.nodes r + 2)).mono (fun _ => id) (fun _ _ => Nat.le_refl _)
            (by dsimp only [O, S]; omega)) ?_
          rintro ⟨n0, m3, s3⟩ ⟨w0, g3, g3'⟩
          refine Costs.bind ((mr (m3, s3) (k + 2)).mono (fun _ => id) (fun _ _ => Nat.le_refl _)
            (by dsimp only [O, S]; omega)) ?_
          rintro ⟨n1, m4, s4⟩ ⟨w1, g4, g4'⟩
          refine Costs.bind ((costs_size_in w0.2 s4 (k + 1 + due O m4)).mono (fun _ => id) (fun _ _ => Nat.le_refl _)
            (by dsimp only [O, S]; omega)) ?_
          rintro ⟨z0, s5⟩ g5
          refine Costs.bind ((costs_size_in w1.2 s5 (k + due O m4)).mono (fun _ => id) (fun _ _ => Nat.le_refl _)
            (by dsimp only [O, S]; omega)) ?_
          rintro ⟨z1, s6⟩ g6
          refine Costs.ok ⟨?_, (g.trans g3).trans g4, ((g3'.trans g4').trans g5).trans g6⟩ (by dsimp only [O, S]; omega)
          dsimp only
          split
          · exact w0
          · exact w1
      rcases hop with rfl | rfl | rfl <;> exact key
    cases op with
    | eq | ne | gt | ge | lt | le =>
      exact (ret _ p cs k).mono (fun _ => id) (fun _ _ => Nat.le_refl _) (by simp only [Spec.nodes]; omega)
    | and | or | implies => exact conn (by simp)
    | unknown =>
      exact Costs.deeper (Costs.bind (Costs.call (k := 0) |>.mono (fun _ => id) (fun _ _ => Nat.le_refl _)
        (by simp only [Spec.nodes]; omega)) fun _ _ => Costs.free fun _ h => by cases h)

/-- No larger and no higher. -/
def Inside (n e : Expr) : Prop := Spec.nodes n ≤ Spec.nodes e ∧ Spec.height n ≤ Spec.height e

theorem Inside.left {n l r : Expr} {i : Info} {op : BinOp} (h : Inside n l) : Inside n (.bin i op l r) := by
  obtain ⟨h1, h2⟩ := h
  constructor <;> simp only [Spec.nodes, Spec.height] <;> omega

theorem Inside.right {n l r : Expr} {i : Info} {op : BinOp} (h : Inside n r) : Inside n (.bin i op l r) := by
  obtain ⟨h1, h2⟩ := h
  constructor <;> simp only [Spec.nodes, Spec.height] <;> omega

theorem minimalSub_within {ctx : EvalCtx} {e : Expr} : ∀ {p : Path} {cs : Caches} {r : Node × Caches},
    minimalSub ctx e p cs = .ok r → Inside r.1.1 e := by
  induction e with
  | boolConst i b =>
    intro p cs r h
    cases h
    exact ⟨Nat.le_refl _, Nat.le_refl _⟩
  | intConst | key | actionParam | attr | notSet | arithNeg | typeCast | field => intro p cs r h; cases h
  | boolNeg i e ih =>
    intro p cs r h
    obtain ⟨h1, h2⟩ := ih (show minimalSub ctx e (0 :: p) cs = .ok r from h)
    constructor <;> simp only [Spec.nodes, Spec.height] <;> omega
  | bin i op l r ihl ihr =>
    intro p cs res h
    have conn : (op = .and ∨ op = .or ∨ op = .implies) → Inside res.1.1 (.bin i op l r) := by
      intro hop
      have h : (do
          let (lb, ec) ← evalToBoolC ctx l (0 :: p) cs.1
          let (rb, ec) ← evalToBoolC ctx r (1 :: p) ec
          let cs := (ec, cs.2)
          let lc := if op = BinOp.or then lb else !lb
          let rc := if op = BinOp.and then !rb else rb
          match lc, rc with
          | false, false => (.ok ((.bin i op l r, p), cs) : Res (Node × Caches))
          | true, false => minimalSub ctx l (0 :: p) cs
          | false, true => minimalSub ctx r (1 :: p) cs
          | true, true => do
            let (n0, cs) ← minimalSub ctx l (0 :: p) cs
            let (n1, cs) ← minimalSub ctx r (1 :: p) cs
            let (s0, sc) ← sizeC n0.1 n0.2 cs.2
            let (s1, sc) ← sizeC n1.1 n1.2 sc
            .ok (if s0 ≤ s1 then n0 else n1, (cs.1, sc))) = .ok res := by
        rcases hop with rfl | rfl | rfl <;> exact h
      simp only [Res.bind_eq_ok] at h
      obtain ⟨⟨lb, ec⟩, -, ⟨rb, ec'⟩, -, h⟩ := h
      dsimp only at h
      revert h
      cases (if op = BinOp.or then lb else !lb) <;> cases (if op = BinOp.and then !rb else rb)
      · intro h; cases h; exact ⟨Nat.le_refl _, Nat.le_refl _⟩
      · intro h; exact (ihr h).right
      · intro h; exact (ihl h).left
      · intro h
        simp only [Res.bind_eq_ok] at h
        obtain ⟨x0, h0, x1, h1, y0, -, y1, -, h⟩ := h
        cases h
        dsimp only
        split
        · exact (ihl h0).left
        · exact (ihr h1).right
    cases op with
    | eq | ne | gt | ge | lt | le => cases h; exact ⟨Nat.le_refl _, Nat.le_refl _⟩
    | and | or | implies => exact conn (by simp)
    | unknown => cases h

theorem costs_addVariablesT (e : Expr) : ∀ s k, Costs (addVariablesT e s) (fun _ => True) (fun _ => k) (k + Spec.nodes e) := by
  induction e with
  | boolConst | intConst | key | actionParam | attr | notSet =>
    intro s k
    exact Costs.deeper (Costs.bind Costs.call fun _ _ => Costs.ok trivial (Nat.le_refl _))
  | boolNeg i e ih | arithNeg i e ih | typeCast i e ih | field i e f ih =>
    intro s k
    exact Costs.deeper (Costs.bind (Costs.call.mono (fun _ => id) (fun _ _ => Nat.le_refl _)
      (by simp only [Spec.nodes]; omega)) fun _ _ => ih s k)
  | bin i op l r ihl ihr =>
    intro s k
    exact Costs.deeper (Costs.bind (Costs.call.mono (fun _ => id) (fun _ _ => Nat.le_refl _)
      (by simp only [Spec.nodes]; omega)) fun _ _ => Costs.bind (ihl s (k + Spec.nodes r)) fun s' _ => ihr s' k)

/-- The result of a computation that costs. -/
theorem Costs.with {α : Type} {x : Counted α} {Q : α → Prop} {post : α → Nat} {n : Nat} (h : Costs x Q post n) :
    Costs x (fun a => Q a ∧ x.res = .ok a) post n := by
  obtain ⟨k, d, r⟩ := x
  cases r with
  | ok a => exact ⟨⟨h.1, rfl⟩, h.2⟩
  | err | crash | oof => exact h

/-! ### Totals -/

theorem due_le {α : Type} (L : List (Path × Nat)) (c : List (Path × α)) : due L c ≤ (L.map Prod.snd).sum := by
  induction L with
  | nil => exact Nat.le_refl _
  | cons x L ih =>
    rw [due_cons, List.map_cons, List.sum_cons]
    split <;> omega

theorem sum_below (e : Expr) : ∀ p, ((below e p).map Prod.snd).sum + region e ≤ 3 * Spec.nodes e := by
  induction e with
  | boolConst | intConst | key | actionParam | attr | notSet => intro p; simp [below, region, Spec.nodes]
  | boolNeg i e ih | arithNeg i e ih | typeCast i e ih | field i e f ih =>
    intro p
    have := ih (0 :: p)
    simp [below, region, Spec.nodes]
    omega
  | bin i op l r ihl ihr =>
    intro p
    have := ihl (0 :: p)
    have := ihr (1 :: p)
    cases op <;> simp [below, region, Spec.nodes] <;> omega

theorem sum_sized (e : Expr) : ∀ p, ((sized e p).map Prod.snd).sum ≤ 2 * Spec.nodes e := by
  induction e with
  | boolConst | intConst | key | actionParam | attr | notSet | arithNeg | typeCast | field =>
    intro p; simp [sized]
  | boolNeg i e ih =>
    intro p
    have := ih (0 :: p)
    simp [sized, Spec.nodes]
    omega
  | bin i op l r ihl ihr =>
    intro p
    have := ihl (0 :: p)
    have := ihr (1 :: p)
    simp [sized, Spec.nodes]
    omega

theorem due_operands {α : Type} (e : Expr) (p : Path) (c : List (Path × α)) : due (operands e p) c ≤ 3 * Spec.nodes e := by
  have := due_le (operands e p) c
  have := sum_below e p
  simp only [operands, List.map_cons, List.sum_cons] at *
  omega

theorem due_sized {α : Type} (e : Expr) (p : Path) (c : List (Path × α)) : due (sized e p) c ≤ 2 * Spec.nodes e :=
  Nat.le_trans (due_le _ _) (sum_sized e p)

theorem costs_checkConstraintT (e : Expr) (parse : Res EvalCtx) :
    (checkConstraintT e parse).calls ≤ 11 * Spec.nodes e + 2 := by
  refine Costs.calls_le (Q := fun _ => True) (post := fun _ => 0) ?_
  rw [checkConstraintT]
  split
  · exact Costs.free fun _ h => by cases h
  · refine Costs.bind (Q := fun _ => True) (post := fun _ => 11 * Spec.nodes e + 2)
      (Costs.free fun _ _ => ⟨trivial, Nat.le_refl _⟩) fun ctx _ => ?_
    refine Costs.bind ((costs_evalToBoolT ctx e [] [] (8 * Spec.nodes e + 1)).mono (fun _ => id)
      (fun _ _ => Nat.le_refl _) ?_) ?_
    · have := due_operands e [] ([] : EvalCache)
      omega
    rintro ⟨b, c⟩ -
    dsimp only
    split
    · exact Costs.ok trivial (Nat.zero_le _)
    refine Costs.bind ((costs_minimalSubT ctx e [] (c, []) (Spec.nodes e + 1)).with.mono (fun _ => id) (fun _ _ => Nat.le_refl _) ?_) ?_
    · have := due_sized e [] ([] : SizeCache)
      dsimp only
      omega
    rintro ⟨n, m, sc⟩ ⟨⟨hw, -, -⟩, hr⟩
    rw [res_minimalSubT] at hr
    have hn := (minimalSub_within hr).1
    refine Costs.bind ((costs_eval_in hw.1 m (Spec.nodes e)).mono (fun _ => id) (fun _ _ => Nat.le_add_right _ _) ?_) ?_
    · dsimp only
      omega
    rintro ⟨t, m'⟩ -
    refine Costs.bind (Q := fun _ => True) (post := fun _ => Spec.nodes e) (Costs.free fun _ _ => ⟨trivial, Nat.le_refl _⟩) fun _ _ =>
      Costs.bind ((costs_addVariablesT n.1 [] 0).mono (fun _ => id) (fun _ _ => Nat.le_refl _) (by dsimp only at hn ⊢; omega))
        fun _ _ => Costs.ok trivial (Nat.le_refl _)

theorem nodes_pos (e : Expr) : 1 ≤ Spec.nodes e := by
  cases e <;> simp only [Spec.nodes] <;> omega

theorem reasonActionT_calls (a : RtAction) (ci : ConstraintInfo) :
    (reasonActionT a ci).calls ≤ 13 * Spec.nodesOf ((lookup a.actionId ci.actions).bind (·.constraint)) := by
  rw [reasonActionT, getActionInfo]
  cases lookup a.actionId ci.actions with
  | none => exact Nat.zero_le _
  | some ai =>
    simp only [Option.bind_some]
    cases ai.constraint with
    | none => exact Nat.zero_le _
    | some e =>
      have := costs_checkConstraintT e (parseAction a ai)
      have := nodes_pos e
      simp only [Spec.nodesOf]
      omega

theorem bind_calls {α β : Type} {x : Counted α} {f : α → Counted β} {n m : Nat} (hx : x.calls ≤ n)
    (hf : ∀ a, (f a).calls ≤ m) : (x >>= f).calls ≤ n + m := by
  obtain ⟨k, d, r⟩ := x
  cases r with
  | ok a => exact Nat.add_le_add hx (hf a)
  | err | crash | oof => exact Nat.le_trans hx (Nat.le_add_right _ _)

theorem reasonActionSetT_calls (ci : ConstraintInfo) (as : List RtAction) : (reasonActionSetT ci as).calls ≤
    13 * (as.map fun a => Spec.nodesOf ((lookup a.actionId ci.actions).bind (·.constraint))).sum := by
  induction as with
  | nil => exact Nat.zero_le _
  | cons a as ih =>
    rw [List.map_cons, List.sum_cons, Nat.mul_add]
    refine bind_calls (reasonActionT_calls a ci) fun r => ?_
    by_cases h : r ≠ []
    · rw [if_pos h]
      exact Nat.zero_le _
    · rw [if_neg h]
      exact ih

theorem reasonEntryT_calls (entry : RtEntry) (ci : ConstraintInfo) :
    (reasonEntryT entry ci).calls ≤ 13 * Spec.nodesFor ci entry := by
  rw [reasonEntryT, getTableInfo, Spec.nodesFor]
  cases lookup entry.tableId ci.tables with
  | none => exact Nat.zero_le _
  | some ti =>
    rw [Nat.mul_add]
    have ha : ∀ r : Str, (if r ≠ [] then free (Res.ok r) else reasonTableActionT ci entry.action).calls ≤
        13 * (((Spec.actionsOf entry.action).getD []).map fun a => Spec.nodesOf ((lookup a.actionId ci.actions).bind (·.constraint))).sum := by
      intro r
      split
      · exact Nat.zero_le _
      · cases entry.action with
        | none => exact Nat.zero_le _
        | some a =>
          cases a with
          | action a => simpa [reasonTableActionT, Spec.actionsOf] using reasonActionT_calls a ci
          | actionSet as => exact reasonActionSetT_calls ci as
          | memberId | groupId | notSet => exact Nat.zero_le _
    simp only [Option.bind_some]
    cases ti.constraint with
    | none => exact bind_calls (Nat.zero_le _) ha
    | some e =>
      refine bind_calls ?_ ha
      have := costs_checkConstraintT e (parseTableEntry entry ti)
      have := nodes_pos e
      simp only [Spec.nodesOf]
      omega

end P4C
