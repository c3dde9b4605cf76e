import Verif.Proofs.Cost
import Verif.Proofs.ParseCost
import Verif.Proofs.Negative
import Verif.Spec.EvalDepth

/-
The depth of the recursion while an entry is checked.
-/

namespace P4C

open Spec

theorem depth_bind {α β : Type} {x : Counted α} {f : α → Counted β} {n : Nat} (hx : x.depth ≤ n)
    (hf : ∀ a, x.res = .ok a → (f a).depth ≤ n) : (x >>= f).depth ≤ n := by
  obtain ⟨k, d, r⟩ := x
  cases r with
  | ok a => exact Nat.max_le.2 ⟨hx, hf a rfl⟩
  | err | crash | oof => exact hx

theorem depth_deeper {α : Type} {x : Counted α} {n : Nat} (h : x.depth ≤ n) : (deeper x).depth ≤ n + 1 := Nat.succ_le_succ h

theorem depth_call {α : Type} {f : Unit → Counted α} {n : Nat} (h : (f ()).depth ≤ n) : (call >>= f).depth ≤ n :=
  Nat.max_le.2 ⟨Nat.zero_le _, h⟩

theorem depth_free {α : Type} {r : Res α} {n : Nat} : (free r).depth ≤ n := Nat.zero_le _

theorem depth_toBool {ctx : EvalCtx} {e : Expr} {p : Path} {run : Cache → Counted (Value × Cache)} {n : Nat}
    (h : ∀ c, (run c).depth ≤ n) (c : Cache) : (evalToBoolWithT ctx e p run c).depth ≤ n + 1 := by
  unfold evalToBoolWithT
  refine depth_deeper (depth_call ?_)
  dsimp only
  split
  · exact depth_free
  · refine depth_bind (h c) ?_
    rintro ⟨v, c'⟩ -
    dsimp only
    split <;> exact depth_free

theorem depth_toInt {ctx : EvalCtx} {e : Expr} {run : Cache → Counted (Value × Cache)} {n : Nat}
    (h : ∀ c, (run c).depth ≤ n) (c : Cache) : (evalToIntWithT ctx e run c).depth ≤ n + 1 := by
  unfold evalToIntWithT
  refine depth_deeper (depth_call (depth_bind (h c) ?_))
  rintro ⟨v, c'⟩ -
  dsimp only
  split <;> exact depth_free

theorem depth_dynCheck {ctx : EvalCtx} {e : Expr} {r : Counted (Value × Cache)} {n : Nat} (h : r.depth ≤ n) :
    (dynCheckT ctx e r).depth ≤ n + 1 := by
  unfold dynCheckT
  refine depth_deeper (depth_call (depth_bind h ?_))
  rintro ⟨v, c'⟩ -
  dsimp only
  split <;> exact depth_free

theorem height_pos (e : Expr) : 1 ≤ height e := by
  cases e <;> simp only [height] <;> omega

theorem depth_evalT (ctx : EvalCtx) (e : Expr) : ∀ p c, (evalT ctx e p c).depth + 1 ≤ 2 * height e := by
  induction e with
  | boolConst | intConst | key | actionParam | attr | notSet => intro p c; exact Nat.le_refl _
  | boolNeg i e ih =>
    intro p c
    refine Nat.le_trans (Nat.succ_le_succ (depth_dynCheck (n := 2 * height e) (depth_bind ?_ fun _ _ => depth_free))) (by
      simp only [height]; omega)
    have := height_pos e
    exact Nat.le_trans (depth_toBool (n := 2 * height e - 1) (fun c => by have := ih (0 :: p) c; omega) c) (by omega)
  | arithNeg i e ih =>
    intro p c
    refine Nat.le_trans (Nat.succ_le_succ (depth_dynCheck (n := 2 * height e) (depth_bind ?_ fun _ _ => depth_free))) (by
      simp only [height]; omega)
    have := height_pos e
    exact Nat.le_trans (depth_toInt (n := 2 * height e - 1) (fun c => by have := ih (0 :: p) c; omega) c) (by omega)
  | typeCast i e ih =>
    intro p c
    refine Nat.le_trans (Nat.succ_le_succ (depth_dynCheck (n := 2 * height e) (depth_bind ?_ fun _ _ =>
      depth_bind depth_free fun _ _ => depth_free))) (by simp only [height]; omega)
    have := ih (0 :: p) c
    omega
  | field i e f ih =>
    intro p c
    refine Nat.le_trans (Nat.succ_le_succ (depth_dynCheck (n := 2 * height e) (depth_bind ?_ ?_))) (by
      simp only [height]; omega)
    · have := ih (0 :: p) c
      omega
    · rintro ⟨v, c'⟩ -
      dsimp only
      split <;> exact depth_free
  | bin i op l r ihl ihr =>
    intro p c
    have hl := height_pos l
    have hr := height_pos r
    have bl : ∀ c, (evalT ctx l (0 :: p) c).depth ≤ 2 * max (height l) (height r) - 1 := fun c => by
      have := ihl (0 :: p) c; omega
    have br : ∀ c, (evalT ctx r (1 :: p) c).depth ≤ 2 * max (height l) (height r) - 1 := fun c => by
      have := ihr (1 :: p) c; omega
    have tl : ∀ c, (evalToBoolWithT ctx l (0 :: p) (fun c => evalT ctx l (0 :: p) c) c).depth ≤ 2 * max (height l) (height r) :=
      fun c => Nat.le_trans (depth_toBool bl c) (by omega)
    have tr : ∀ c, (evalToBoolWithT ctx r (1 :: p) (fun c => evalT ctx r (1 :: p) c) c).depth ≤ 2 * max (height l) (height r) :=
      fun c => Nat.le_trans (depth_toBool br c) (by omega)
    refine Nat.le_trans (Nat.succ_le_succ (depth_dynCheck (n := 2 * max (height l) (height r)) ?_)) (by
      simp only [height]; omega)
    cases op with
    | eq | ne =>
      refine depth_bind (Nat.le_trans (bl c) (by omega)) fun _ _ => depth_bind (Nat.le_trans (br _) (by omega)) fun _ _ => depth_free
    | gt | ge | lt | le =>
      exact depth_bind (Nat.le_trans (depth_toInt bl c) (by omega)) fun _ _ =>
        depth_bind (Nat.le_trans (depth_toInt br _) (by omega)) fun _ _ => depth_free
    | and | or | implies =>
      refine depth_bind (tl c) ?_
      rintro ⟨b, c'⟩ -
      cases b
      all_goals first
        | exact depth_free
        | exact depth_bind (tr c') fun _ _ => depth_free
    | unknown => exact depth_free

theorem depth_evalToBoolT (ctx : EvalCtx) (e : Expr) (p : Path) (c : EvalCache) : (evalToBoolT ctx e p c).depth ≤ 2 * height e := by
  have := height_pos e
  refine depth_bind (Nat.le_trans (depth_toBool (n := 2 * height e - 1) (fun c => ?_) _) (by omega)) fun _ _ => depth_free
  have := depth_evalT ctx e p c
  omega

theorem depth_sizeT (e : Expr) : ∀ p c, (sizeT e p c).depth ≤ height e := by
  induction e with
  | boolConst | intConst | key | actionParam | attr | notSet | arithNeg | typeCast | field =>
    intro p c
    rw [sizeT]
    refine Nat.le_trans (depth_deeper (n := 0) (depth_call ?_)) (height_pos _)
    split <;> exact depth_free
  | boolNeg i e ih =>
    intro p c
    rw [sizeT]
    refine Nat.le_trans (depth_deeper (n := height e) (depth_call ?_)) (by simp only [height]; omega)
    dsimp only
    split
    · exact depth_free
    · exact depth_bind (ih _ _) fun _ _ => depth_free
  | bin i op l r ihl ihr =>
    intro p c
    rw [sizeT]
    refine Nat.le_trans (depth_deeper (n := max (height l) (height r)) (depth_call ?_)) (by simp only [height]; omega)
    dsimp only
    split
    · exact depth_free
    · exact depth_bind (Nat.le_trans (ihl _ _) (by omega)) fun _ _ =>
        depth_bind (Nat.le_trans (ihr _ _) (by omega)) fun _ _ => depth_free

theorem depth_addVariablesT (e : Expr) : ∀ s, (addVariablesT e s).depth ≤ height e := by
  induction e with
  | boolConst | intConst | key | actionParam | attr | notSet =>
    intro s
    exact Nat.le_refl _
  | boolNeg i e ih | arithNeg i e ih | typeCast i e ih | field i e f ih =>
    intro s
    exact Nat.le_trans (depth_deeper (n := height e) (depth_call (ih s))) (by simp only [height]; omega)
  | bin i op l r ihl ihr =>
    intro s
    exact Nat.le_trans (depth_deeper (n := max (height l) (height r)) (depth_call (depth_bind (Nat.le_trans (ihl _) (by omega))
      fun _ _ => Nat.le_trans (ihr _) (by omega)))) (by simp only [height]; omega)

theorem depth_minimalSubT (ctx : EvalCtx) (e : Expr) : ∀ p cs, (minimalSubT ctx e p cs).depth ≤ 2 * height e := by
  induction e with
  | boolConst | intConst | key | actionParam | attr | notSet | arithNeg | typeCast | field =>
    intro p cs
    refine Nat.le_trans (depth_deeper (n := 0) (depth_call depth_free)) ?_
    simp only [height]
    omega
  | boolNeg i e ih =>
    intro p cs
    refine Nat.le_trans (depth_deeper (n := 2 * height e) (depth_call (ih (0 :: p) cs))) ?_
    simp only [height]
    omega
  | bin i op l r ihl ihr =>
    intro p cs
    have hm : 2 * max (height l) (height r) + 1 ≤ 2 * height (.bin i op l r) := by simp only [height]; omega
    have conn : (op = .and ∨ op = .or ∨ op = .implies) → (minimalSubT ctx (.bin i op l r) p cs).depth ≤ 2 * height (.bin i op l r) := by
      intro hop
      have e : minimalSubT ctx (.bin i op l r) p cs = deeper (call >>= fun _ => do
          let (lb, ec) ← evalToBoolT ctx l (0 :: p) cs.1
          let (rb, ec) ← evalToBoolT ctx r (1 :: p) ec
          let cs := (ec, cs.2)
          let lc := if op = .or then lb else !lb
          let rc := if op = .and then !rb else rb
          match lc, rc with
          | false, false => free (.ok ((.bin i op l r, p), cs))
          | true, false => minimalSubT ctx l (0 :: p) cs
          | false, true => minimalSubT ctx r (1 :: p) cs
          | true, true => do
            let (n0, cs) ← minimalSubT ctx l (0 :: p) cs
            let (n1, cs) ← minimalSubT ctx r (1 :: p) cs
            let (s0, sc) ← sizeT n0.1 n0.2 cs.2
            let (s1, sc) ← sizeT n1.1 n1.2 sc
            free (.ok (if s0 ≤ s1 then n0 else n1, (cs.1, sc)))) := by
        rcases hop with rfl | rfl | rfl <;> rfl
      rw [e]
      refine Nat.le_trans (depth_deeper (n := 2 * max (height l) (height r)) (depth_call ?_)) hm
      refine depth_bind (Nat.le_trans (depth_evalToBoolT ..) (by omega)) ?_
      rintro ⟨lb, ec⟩ -
      refine depth_bind (Nat.le_trans (depth_evalToBoolT ..) (by omega)) ?_
      rintro ⟨rb, ec⟩ -
      dsimp only
      cases (if op = .or then lb else !lb) <;> cases (if op = .and then !rb else rb)
      · exact depth_free
      · exact Nat.le_trans (ihr _ _) (by omega)
      · exact Nat.le_trans (ihl _ _) (by omega)
      · refine depth_bind (Nat.le_trans (ihl _ _) (by omega)) ?_
        rintro ⟨n0, cs0⟩ h0
        rw [res_minimalSubT] at h0
        have w0 := (minimalSub_within h0).2
        refine depth_bind (Nat.le_trans (ihr _ _) (by omega)) ?_
        rintro ⟨n1, cs1⟩ h1
        rw [res_minimalSubT] at h1
        have w1 := (minimalSub_within h1).2
        dsimp only at w0 w1 ⊢
        exact depth_bind (Nat.le_trans (depth_sizeT ..) (by omega)) fun _ _ =>
          depth_bind (Nat.le_trans (depth_sizeT ..) (by omega)) fun _ _ => depth_free
    cases op with
    | eq | ne | gt | ge | lt | le | unknown =>
      exact Nat.le_trans (depth_deeper (n := 0) (depth_call depth_free)) (Nat.le_trans (by omega) hm)
    | and | or | implies => exact conn (by simp)

theorem depth_checkConstraintT (e : Expr) (parse : Res EvalCtx) : (checkConstraintT e parse).depth ≤ 2 * height e := by
  rw [checkConstraintT]
  split
  · exact depth_free
  · refine depth_bind depth_free fun ctx _ => depth_bind (depth_evalToBoolT ..) ?_
    rintro ⟨b, ec⟩ -
    dsimp only
    split
    · exact depth_free
    · refine depth_bind (depth_minimalSubT ..) ?_
      rintro ⟨n, cs⟩ h
      rw [res_minimalSubT] at h
      have w := (minimalSub_within h).2
      dsimp only at w ⊢
      exact depth_bind (Nat.le_trans (depth_evalToBoolT ..) (by omega)) fun _ _ => depth_bind depth_free fun _ _ =>
        depth_bind (Nat.le_trans (depth_addVariablesT ..) (by omega)) fun _ _ => depth_free

theorem depth_reasonActionT (a : RtAction) (ci : ConstraintInfo) :
    (reasonActionT a ci).depth ≤ 2 * heightOf ((lookup a.actionId ci.actions).bind (·.constraint)) := by
  rw [reasonActionT, getActionInfo]
  cases lookup a.actionId ci.actions with
  | none => exact Nat.zero_le _
  | some ai =>
    simp only [Option.bind_some]
    cases ai.constraint with
    | none => exact Nat.zero_le _
    | some e => exact depth_checkConstraintT e (parseAction a ai)

theorem depth_reasonActionSetT (ci : ConstraintInfo) (as : List RtAction) : (reasonActionSetT ci as).depth ≤
    2 * largest (as.map fun a => heightOf ((lookup a.actionId ci.actions).bind (·.constraint))) := by
  induction as with
  | nil => exact Nat.zero_le _
  | cons a as ih =>
    rw [List.map_cons, largest]
    refine depth_bind (Nat.le_trans (depth_reasonActionT a ci) (by omega)) fun r _ => ?_
    by_cases h : r ≠ []
    · rw [if_pos h]
      exact Nat.zero_le _
    · rw [if_neg h]
      exact Nat.le_trans ih (by omega)

theorem depth_reasonEntryT (entry : RtEntry) (ci : ConstraintInfo) : (reasonEntryT entry ci).depth ≤ 2 * heightFor ci entry := by
  rw [reasonEntryT, getTableInfo, heightFor]
  cases lookup entry.tableId ci.tables with
  | none => exact Nat.zero_le _
  | some ti =>
    simp only [Option.bind_some]
    have ha : ∀ r : Str, (if r ≠ [] then free (Res.ok r) else reasonTableActionT ci entry.action).depth ≤
        2 * largest (((actionsOf entry.action).getD []).map fun a => heightOf ((lookup a.actionId ci.actions).bind (·.constraint))) := by
      intro r
      split
      · exact Nat.zero_le _
      · cases entry.action with
        | none => exact Nat.zero_le _
        | some a =>
          cases a with
          | action a =>
            refine Nat.le_trans (depth_reasonActionT a ci) ?_
            simp only [Spec.actionsOf, Option.getD_some, List.map_cons, List.map_nil, largest]
            omega
          | actionSet as =>
            refine Nat.le_trans (depth_reasonActionSetT ci as) ?_
            simp only [Spec.actionsOf, Option.getD_some]
            omega
          | memberId | groupId | notSet => exact Nat.zero_le _
    cases ti.constraint with
    | none => exact depth_bind (Nat.zero_le _) fun r _ => Nat.le_trans (ha r) (by omega)
    | some e =>
      refine depth_bind ?_ fun r _ => Nat.le_trans (ha r) (by omega)
      refine Nat.le_trans (depth_checkConstraintT e (parseTableEntry entry ti)) ?_
      simp only [heightOf]
      omega

/-! ### Texts -/

theorem heightOf_text {sys : Sys} {k : ConstraintKind} {p : Preamble} {sc : Scope} {o : Option Expr} {src : ConstraintSource}
    (h : parseAndCheck sys k p sc = .ok (o, src)) : heightOf o ≤ src.str.length + 2 := by
  rcases parseAndCheck_iff.1 h with ⟨_, rfl, rfl⟩ | ⟨e, c, s, _, hc, _, hi, rfl⟩
  · exact Nat.zero_le _
  · have := Nat.le_trans (height_le_nodes e) (nodes_text hc)
    have := (height_infer hi).1
    simp only [heightOf]
    omega

theorem heightFor_text {sys : Sys} {p : P4Info} {ci : ConstraintInfo} (h : p4ToConstraintInfo sys p = .ok ci)
    (entry : RtEntry) : heightFor ci entry ≤ longestFor ci entry + 2 := by
  have h1 : heightOf ((lookup entry.tableId ci.tables).bind (·.constraint)) ≤
      ((lookup entry.tableId ci.tables).map (·.source.str.length)).getD 0 + 2 := by
    cases hl : lookup entry.tableId ci.tables with
    | none => exact Nat.zero_le _
    | some ti =>
      obtain ⟨d, _, _, hd⟩ := (table_of_info h).1 hl
      obtain ⟨_, _, _, _, hp⟩ := parseTableInfo_parts hd
      exact heightOf_text hp
  have h2 : ∀ as : List RtAction, largest (as.map fun a => heightOf ((lookup a.actionId ci.actions).bind (·.constraint))) ≤
      largest (as.map fun a => ((lookup a.actionId ci.actions).map (·.source.str.length)).getD 0) + 2 := by
    intro as
    induction as with
    | nil => exact Nat.zero_le _
    | cons a as ih =>
      have : heightOf ((lookup a.actionId ci.actions).bind (·.constraint)) ≤
          ((lookup a.actionId ci.actions).map (·.source.str.length)).getD 0 + 2 := by
        cases hl : lookup a.actionId ci.actions with
        | none => exact Nat.zero_le _
        | some ai =>
          obtain ⟨d, _, _, hd⟩ := (action_of_info h).1 hl
          obtain ⟨_, _, _, _, hp⟩ := parseActionInfo_parts hd
          exact heightOf_text hp
      simp only [List.map_cons, largest]
      omega
  have := h2 ((actionsOf entry.action).getD [])
  unfold heightFor longestFor
  omega

/-! ### Chains of negations -/

theorem depth_le_bind {α β : Type} {x : Counted α} {f : α → Counted β} : x.depth ≤ (x >>= f).depth := by
  obtain ⟨k, d, r⟩ := x
  cases r with
  | ok a => exact Nat.le_max_left _ _
  | err | crash | oof => exact Nat.le_refl _

theorem depth_bind_ok {α β : Type} {x : Counted α} {f : α → Counted β} {a : α} (h : x.res = .ok a) :
    (f a).depth ≤ (x >>= f).depth := by
  obtain ⟨k, d, r⟩ := x
  cases h
  exact Nat.le_max_right _ _

theorem depth_toBool_ge {ctx : EvalCtx} {e : Expr} {p : Path} {run : Cache → Counted (Value × Cache)} :
    (run (some [])).depth + 1 ≤ (evalToBoolWithT ctx e p run (some [])).depth := by
  unfold evalToBoolWithT
  refine Nat.succ_le_succ (Nat.le_trans ?_ (depth_bind_ok (x := call) (a := ()) rfl))
  exact depth_le_bind

theorem depth_dynCheck_ge {ctx : EvalCtx} {e : Expr} {r : Counted (Value × Cache)} : r.depth + 1 ≤ (dynCheckT ctx e r).depth := by
  unfold dynCheckT
  refine Nat.succ_le_succ (Nat.le_trans ?_ (depth_bind_ok (x := call) (a := ()) rfl))
  exact depth_le_bind

/-- What type checking makes of a chain of negations. -/
theorem negations_infer {src : ConstraintSource} {sc : Scope} : ∀ (n : Nat) {e c : Expr}, abs e = some (negations n) →
    inferAndCheck src sc e = .ok c → height c = n + 1 ∧ ∀ ctx p, 2 * n + 1 ≤ (evalT ctx c p (some [])).depth
  | 0, e, c, h, hi => by
    obtain ⟨i, rfl⟩ := abs_bool h
    cases hi
    exact ⟨rfl, fun _ _ => Nat.le_refl _⟩
  | n + 1, e, c, h, hi => by
    obtain ⟨i, a, rfl, ha⟩ := abs_not h
    simp only [inferAndCheck, Res.bind_eq_ok] at hi
    obtain ⟨a', hi', hi⟩ := hi
    obtain ⟨h1, h2⟩ := negations_infer n ha hi'
    split at hi
    · exact (quotingError_ne_ok.1 hi).elim
    cases hi
    refine ⟨by simp only [height, h1]; omega, fun ctx p => ?_⟩
    have h3 := h2 ctx (0 :: p)
    have h4 := depth_toBool_ge (ctx := ctx) (e := a') (p := 0 :: p) (run := fun c => evalT ctx a' (0 :: p) c)
    rw [evalT]
    refine Nat.le_trans ?_ depth_dynCheck_ge
    refine Nat.le_trans ?_ (Nat.succ_le_succ depth_le_bind)
    omega

theorem depth_reasonEntryT_ge {ci : ConstraintInfo} {entry : RtEntry} {ti : TableInfo} {c : Expr} {ctx : EvalCtx}
    (hl : lookup entry.tableId ci.tables = some ti) (hc : ti.constraint = some c) (hty : c.ty = .boolean)
    (hp : parseTableEntry entry ti = .ok ctx) : (evalT ctx c [] (some [])).depth + 1 ≤ (reasonEntryT entry ci).depth := by
  unfold reasonEntryT getTableInfo
  rw [hl]
  dsimp only
  rw [hc]
  dsimp only
  refine Nat.le_trans ?_ depth_le_bind
  unfold checkConstraintT
  rw [if_neg (by simpa using hty), hp]
  refine Nat.le_trans ?_ (depth_bind_ok (x := free (.ok ctx)) rfl)
  refine Nat.le_trans ?_ depth_le_bind
  unfold evalToBoolT
  exact Nat.le_trans depth_toBool_ge depth_le_bind

end P4C
