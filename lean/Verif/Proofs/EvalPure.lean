import Verif.Proofs.Typing

/-
A cache-free evaluator, and the proof that the evaluator of the model computes the same.
-/

namespace P4C

open Spec

/-- `Eval` around `Eval_`, without cache. -/
def chkP (ctx : EvalCtx) (e : Expr) (r : Res Value) : Res Value := do
  let v ← r
  if valueMatchesTy e.ty v then .ok v else rtError ctx e

/-- `EvalToBool` without cache. -/
def toBoolP (ctx : EvalCtx) (e : Expr) (r : Res Value) : Res Bool := do
  let v ← r
  match v with
  | .bool b => .ok b
  | _ => rtError ctx e

/-- `EvalToInt` without cache. -/
def toIntP (ctx : EvalCtx) (e : Expr) (r : Res Value) : Res Int := do
  let v ← r
  match v with
  | .int z => .ok z
  | _ => rtError ctx e

/-- Evaluation without cache. -/
def evalP (ctx : EvalCtx) : Expr → Res Value
  | .boolConst i b => chkP ctx (.boolConst i b) (.ok (.bool b))
  | .intConst i s => chkP ctx (.intConst i s)
      (match setStr 10 s with
       | some z => .ok (.int z)
       | none => .err .internal)
  | .key i n => chkP ctx (.key i n)
      (match ctx.vals with
       | .action _ => rtError ctx (.key i n)
       | .table t =>
         match lookup n t.keys with
         | some v => .ok v
         | none => rtError ctx (.key i n))
  | .actionParam i n => chkP ctx (.actionParam i n)
      (match ctx.vals with
       | .table _ => rtError ctx (.actionParam i n)
       | .action a =>
         match lookup n a.params with
         | some z => .ok (.int z)
         | none => rtError ctx (.actionParam i n))
  | .attr i n => chkP ctx (.attr i n)
      (match ctx.vals with
       | .action _ => rtError ctx (.attr i n)
       | .table t =>
         if n = c!"priority" then .ok (.int t.priority)
         else rtError ctx (.attr i n))
  | .boolNeg i e => chkP ctx (.boolNeg i e) (do
      let b ← toBoolP ctx e (evalP ctx e)
      .ok (.bool (!b)))
  | .arithNeg i e => chkP ctx (.arithNeg i e) (do
      let z ← toIntP ctx e (evalP ctx e)
      .ok (.int (-z)))
  | .typeCast i e => chkP ctx (.typeCast i e) (do
      let v ← evalP ctx e
      castValue ctx e i.ty v)
  | .bin i op l r => chkP ctx (.bin i op l r)
      (match op with
       | .eq | .ne => do
         let lv ← evalP ctx l
         let rv ← evalP ctx r
         .ok (.bool (if op = .eq then lv = rv else !(lv = rv)))
       | .gt | .ge | .lt | .le => do
         let lv ← toIntP ctx l (evalP ctx l)
         let rv ← toIntP ctx r (evalP ctx r)
         .ok (.bool (match op with
           | .gt => lv > rv
           | .ge => lv ≥ rv
           | .lt => lv < rv
           | _ => lv ≤ rv))
       | .and => do
         let lb ← toBoolP ctx l (evalP ctx l)
         if lb then do
           let rb ← toBoolP ctx r (evalP ctx r)
           .ok (.bool rb)
         else .ok (.bool false)
       | .or => do
         let lb ← toBoolP ctx l (evalP ctx l)
         if lb then .ok (.bool true)
         else do
           let rb ← toBoolP ctx r (evalP ctx r)
           .ok (.bool rb)
       | .implies => do
         let lb ← toBoolP ctx l (evalP ctx l)
         if lb then do
           let rb ← toBoolP ctx r (evalP ctx r)
           .ok (.bool rb)
         else .ok (.bool true)
       | .unknown => .err .internal)
  | .field i e f => chkP ctx (.field i e f) (do
      let v ← evalP ctx e
      match evalFieldAccess f v with
      | some v => .ok v
      | none => rtError ctx (.field i e f))
  | .notSet i => chkP ctx (.notSet i) (.err .invalidArgument)

/-- `EvalToBool` without cache. -/
def evalBoolP (ctx : EvalCtx) (e : Expr) : Res Bool := toBoolP ctx e (evalP ctx e)

/-- A computation with a cache `x` does the same as the computation `a` without, and establishes `P` of
the cache. -/
def Agrees {α : Type} (P : Cache → Prop) (a : Res α) (x : Res (α × Cache)) : Prop :=
  match a with
  | .ok v => ∃ c, x = .ok (v, c) ∧ P c
  | .err e => x = .err e
  | .crash => x = .crash
  | .oof => x = .oof

theorem Agrees.bind {α β : Type} {P : Cache → Prop} {a : Res α} {x : Res (α × Cache)} {f : α → Res β}
    {g : α × Cache → Res (β × Cache)} (h : Agrees P a x)
    (hf : ∀ v c, P c → Agrees P (f v) (g (v, c))) : Agrees P (a >>= f) (x >>= g) := by
  cases a with
  | ok v => obtain ⟨c, rfl, hc⟩ := h; simpa using hf v c hc
  | err e => simp [Agrees] at h; subst h; simp [Agrees]
  | crash => simp [Agrees] at h; subst h; simp [Agrees]
  | oof => simp [Agrees] at h; subst h; simp [Agrees]

theorem Agrees.ok {α : Type} {P : Cache → Prop} {v : α} {c : Cache} (h : P c) :
    Agrees P (.ok v) (.ok (v, c)) := ⟨c, rfl, h⟩

theorem Agrees.rtError {α : Type} {P : Cache → Prop} {ctx : EvalCtx} {e : Expr} :
    Agrees P (rtError ctx e : Res α) (P4C.rtError ctx e) := by
  unfold P4C.rtError runtimeTypeError
  split <;> simp [Agrees]

theorem Agrees.dynCheck {P : Cache → Prop} {ctx : EvalCtx} {e : Expr} {a : Res Value}
    {x : Res (Value × Cache)} (h : Agrees P a x) : Agrees P (chkP ctx e a) (dynCheck ctx e x) := by
  unfold chkP P4C.dynCheck
  refine h.bind ?_
  intro v c hc
  dsimp only
  split
  · exact .ok hc
  · exact .rtError

theorem Agrees.toInt {P : Cache → Prop} {ctx : EvalCtx} {e : Expr} {a : Res Value}
    {run : Cache → Res (Value × Cache)} {c : Cache} (h : Agrees P a (run c)) :
    Agrees P (toIntP ctx e a) (evalToIntWith ctx e run c) := by
  unfold toIntP evalToIntWith
  refine h.bind ?_
  intro v c hc
  cases v <;> dsimp only <;> first | exact .ok hc | exact .rtError

/-- Addresses: `Sub root e p` means that the node of `root` with address `p` is `e`. -/
inductive Sub (root : Expr) : Expr → Path → Prop where
  | root : Sub root root []
  | boolNeg {i : Info} {e : Expr} {p : Path} : Sub root (.boolNeg i e) p → Sub root e (0 :: p)
  | arithNeg {i : Info} {e : Expr} {p : Path} : Sub root (.arithNeg i e) p → Sub root e (0 :: p)
  | typeCast {i : Info} {e : Expr} {p : Path} : Sub root (.typeCast i e) p → Sub root e (0 :: p)
  | field {i : Info} {e : Expr} {f : Str} {p : Path} : Sub root (.field i e f) p → Sub root e (0 :: p)
  | left {i : Info} {op : BinOp} {l r : Expr} {p : Path} : Sub root (.bin i op l r) p →
      Sub root l (0 :: p)
  | right {i : Info} {op : BinOp} {l r : Expr} {p : Path} : Sub root (.bin i op l r) p →
      Sub root r (1 :: p)

theorem Sub.unique {root e e' : Expr} {p : Path} (h : Sub root e p) (h' : Sub root e' p) : e = e' := by
  induction h generalizing e' with
  | root => cases h'; rfl
  | boolNeg _ ih => cases h' <;> rename_i h <;> cases ih h <;> rfl
  | arithNeg _ ih => cases h' <;> rename_i h <;> cases ih h <;> rfl
  | typeCast _ ih => cases h' <;> rename_i h <;> cases ih h <;> rfl
  | field _ ih => cases h' <;> rename_i h <;> cases ih h <;> rfl
  | left _ ih => cases h' <;> rename_i h <;> cases ih h <;> rfl
  | right _ ih => cases h' <;> rename_i h <;> cases ih h <;> rfl

/-- Every cached result is the result of evaluating the node at that address. -/
def CacheOk (ctx : EvalCtx) (root : Expr) (c : Cache) : Prop :=
  ∀ m, c = some m → ∀ p b, lookup p m = some b → ∃ e, Sub root e p ∧ evalP ctx e = .ok (.bool b)

/-- The cache pointer is null iff it was. -/
def SameKind (c₀ : Cache) (c : Cache) : Prop := c₀.isSome = c.isSome

theorem lookup_cons {κ α : Type} [DecidableEq κ] (k k' : κ) (a : α) (m : List (κ × α)) :
    lookup k ((k', a) :: m) = if k' = k then some a else lookup k m := rfl

theorem Agrees.toBool {c₀ : Cache} {ctx : EvalCtx} {root e : Expr} {p : Path}
    {run : Cache → Res (Value × Cache)} {c : Cache} (hs : Sub root e p)
    (hc : CacheOk ctx root c ∧ SameKind c₀ c)
    (h : Agrees (fun c => CacheOk ctx root c ∧ SameKind c₀ c) (evalP ctx e) (run c)) :
    Agrees (fun c => CacheOk ctx root c ∧ SameKind c₀ c) (toBoolP ctx e (evalP ctx e))
      (evalToBoolWith ctx e p run c) := by
  unfold evalToBoolWith
  split
  · rename_i b hb
    rw [Option.bind_eq_some_iff] at hb
    obtain ⟨m, hm, hb⟩ := hb
    obtain ⟨e', hs', he⟩ := hc.1 m hm p b hb
    cases hs.unique hs'
    rw [he]
    exact .ok hc
  · unfold toBoolP
    cases hev : evalP ctx e with
    | ok v =>
      rw [hev] at h
      obtain ⟨c', h1, h2⟩ := h
      rw [h1]
      simp only [Res.ok_bind]
      cases v <;> dsimp only <;> first | exact .rtError | skip
      rename_i b
      refine ⟨_, rfl, ?_, ?_⟩
      · intro m hm q b' hq
        cases c' with
        | none => simp at hm
        | some m' =>
          simp at hm
          subst hm
          unfold insertNew at hq
          split at hq
          · exact h2.1 m' rfl q b' hq
          · simp only [Option.getD_some, lookup_cons] at hq
            split at hq
            · rename_i hpq
              subst hpq
              cases hq
              exact ⟨e, hs, hev⟩
            · exact h2.1 m' rfl q b' hq
      · have := h2.2
        cases c' <;> simpa [SameKind] using this
    | err _ => rw [hev] at h; simp [Agrees] at h; simp [Agrees, h]
    | crash => rw [hev] at h; simp [Agrees] at h; simp [Agrees, h]
    | oof => rw [hev] at h; simp [Agrees] at h; simp [Agrees, h]

theorem eval_agrees (c₀ : Cache) (ctx : EvalCtx) (root : Expr) :
    ∀ (e : Expr) (p : Path) (c : Cache), Sub root e p → (CacheOk ctx root c ∧ SameKind c₀ c) →
      Agrees (fun c => CacheOk ctx root c ∧ SameKind c₀ c) (evalP ctx e) (eval ctx e p c) := by
  intro e
  induction e with
  | notSet i => intro p c _ hc; simp only [eval, evalP]; exact .dynCheck (by simp [Agrees])
  | boolConst i b => intro p c _ hc; simp only [eval, evalP]; exact .dynCheck (.ok hc)
  | intConst i s =>
    intro p c _ hc; simp only [eval, evalP]; refine .dynCheck ?_
    cases setStr 10 s
    · simp [Agrees]
    · exact .ok hc
  | key i n =>
    intro p c _ hc; simp only [eval, evalP]; refine .dynCheck ?_
    cases ctx.vals with
    | action a => exact .rtError
    | table t =>
      dsimp only
      cases lookup n t.keys with
      | none => exact .rtError
      | some v => exact .ok hc
  | actionParam i n =>
    intro p c _ hc; simp only [eval, evalP]; refine .dynCheck ?_
    cases ctx.vals with
    | table a => exact .rtError
    | action t =>
      dsimp only
      cases lookup n t.params with
      | none => exact .rtError
      | some v => exact .ok hc
  | attr i n =>
    intro p c _ hc; simp only [eval, evalP]; refine .dynCheck ?_
    cases ctx.vals with
    | action a => exact .rtError
    | table t =>
      dsimp only
      by_cases h : n = c!"priority"
      · rw [if_pos h, if_pos h]; exact .ok hc
      · rw [if_neg h, if_neg h]; exact .rtError
  | boolNeg i e ih =>
    intro p c hs hc; simp only [eval, evalP]; refine .dynCheck ?_
    refine (Agrees.toBool hs.boolNeg hc (ih _ _ hs.boolNeg hc)).bind ?_
    intro v c hc; exact .ok hc
  | arithNeg i e ih =>
    intro p c hs hc; simp only [eval, evalP]; refine .dynCheck ?_
    refine (Agrees.toInt (run := fun c => eval ctx e (0 :: p) c) (ih _ _ hs.arithNeg hc)).bind ?_
    intro v c hc; exact .ok hc
  | typeCast i e ih =>
    intro p c hs hc; simp only [eval, evalP]; refine .dynCheck ?_
    refine (ih _ _ hs.typeCast hc).bind ?_
    intro v c hc
    dsimp only
    cases castValue ctx e i.ty v <;> simp [Agrees]
    exact hc
  | field i e f ih =>
    intro p c hs hc; simp only [eval, evalP]; refine .dynCheck ?_
    refine (ih _ _ hs.field hc).bind ?_
    intro v c hc
    dsimp only
    cases evalFieldAccess f v with
    | some v => exact .ok hc
    | none => exact .rtError
  | bin i op l r ihl ihr =>
    intro p c hs hc; simp only [eval, evalP]; refine .dynCheck ?_
    have hl : ∀ c, (CacheOk ctx root c ∧ SameKind c₀ c) →
        Agrees (fun c => CacheOk ctx root c ∧ SameKind c₀ c) (toBoolP ctx l (evalP ctx l))
          (evalToBoolWith ctx l (0 :: p) (fun c => eval ctx l (0 :: p) c) c) :=
      fun c hc => Agrees.toBool hs.left hc (ihl _ _ hs.left hc)
    have hr : ∀ c, (CacheOk ctx root c ∧ SameKind c₀ c) →
        Agrees (fun c => CacheOk ctx root c ∧ SameKind c₀ c) (toBoolP ctx r (evalP ctx r))
          (evalToBoolWith ctx r (1 :: p) (fun c => eval ctx r (1 :: p) c) c) :=
      fun c hc => Agrees.toBool hs.right hc (ihr _ _ hs.right hc)
    have hli : ∀ c, (CacheOk ctx root c ∧ SameKind c₀ c) →
        Agrees (fun c => CacheOk ctx root c ∧ SameKind c₀ c) (toIntP ctx l (evalP ctx l))
          (evalToIntWith ctx l (fun c => eval ctx l (0 :: p) c) c) :=
      fun c hc => Agrees.toInt (ihl _ _ hs.left hc)
    have hri : ∀ c, (CacheOk ctx root c ∧ SameKind c₀ c) →
        Agrees (fun c => CacheOk ctx root c ∧ SameKind c₀ c) (toIntP ctx r (evalP ctx r))
          (evalToIntWith ctx r (fun c => eval ctx r (1 :: p) c) c) :=
      fun c hc => Agrees.toInt (ihr _ _ hs.right hc)
    cases op <;> dsimp only
    case unknown => simp [Agrees]
    case eq | ne =>
      refine (ihl _ _ hs.left hc).bind ?_
      intro v c hc
      refine (ihr _ _ hs.right hc).bind ?_
      intro v c hc
      exact .ok hc
    case gt | ge | lt | le =>
      refine (hli _ hc).bind ?_
      intro v c hc
      refine (hri _ hc).bind ?_
      intro v c hc
      exact .ok hc
    all_goals
      refine (hl _ hc).bind ?_
      intro v c hc
      dsimp only
      split
      all_goals first
        | exact .ok hc
        | (refine (hr _ hc).bind ?_
           intro v c hc
           exact .ok hc)

theorem evalToBool_agrees {c₀ : Cache} {ctx : EvalCtx} {root e : Expr} {p : Path} {c : Cache}
    (hs : Sub root e p) (hc : CacheOk ctx root c ∧ SameKind c₀ c) :
    Agrees (fun c => CacheOk ctx root c ∧ SameKind c₀ c) (evalBoolP ctx e) (evalToBool ctx e p c) :=
  Agrees.toBool hs hc (eval_agrees c₀ ctx root e p c hs hc)

theorem evalToBoolC_agrees {ctx : EvalCtx} {root e : Expr} {p : Path} {m : EvalCache}
    (hs : Sub root e p) (hc : CacheOk ctx root (some m)) :
    (∀ b, evalBoolP ctx e = .ok b →
      ∃ m', evalToBoolC ctx e p m = .ok (b, m') ∧ CacheOk ctx root (some m')) ∧
    (∀ x, evalBoolP ctx e = .err x → evalToBoolC ctx e p m = .err x) ∧
    (evalBoolP ctx e = .crash → evalToBoolC ctx e p m = .crash) ∧
    (evalBoolP ctx e = .oof → evalToBoolC ctx e p m = .oof) := by
  have h := evalToBool_agrees (c₀ := some []) hs ⟨hc, rfl⟩
  unfold evalToBoolC
  refine ⟨?_, ?_, ?_, ?_⟩
  · intro b hb
    rw [hb] at h
    obtain ⟨c', h1, h2, h3⟩ := h
    rw [h1]
    cases c' with
    | none => simp [SameKind] at h3
    | some m' => exact ⟨m', rfl, h2⟩
  · intro x hb
    rw [hb] at h
    simp only [Agrees] at h
    rw [h]; rfl
  · intro hb
    rw [hb] at h
    simp only [Agrees] at h
    rw [h]; rfl
  · intro hb
    rw [hb] at h
    simp only [Agrees] at h
    rw [h]; rfl

end P4C
