import Verif.Spec.Explain
import Verif.Proofs.Check
import Verif.Proofs.Elab
/-!
# Explanations
-/
namespace P4C
open Spec

/-! ### Bridges -/

theorem sub_nodeAt {root e : Expr} {p : Path} : Sub root e p ↔ nodeAt root p = some e := by
  constructor
  · intro h
    induction h with
    | root => rfl
    | _ _ ih => rw [nodeAt, ih]; rfl
  · induction p generalizing e with
    | nil => intro h; cases h; exact .root
    | cons k p ih =>
      intro h
      simp only [nodeAt, Option.bind_eq_some_iff] at h
      obtain ⟨x, h1, h2⟩ := h
      have hx := ih h1
      unfold child at h2
      split at h2 <;> first | (cases h2; first | exact .boolNeg hx | exact .arithNeg hx | exact .typeCast hx | exact .field hx | exact .left hx | exact .right hx) | cases h2

theorem evalP_val {ctx : EvalCtx} {e : Expr} {b : Bool} : evalP ctx e = .ok (.bool b) ↔ Val ctx e b :=
  evalToBool_none.symm

theorem val_boolP {ctx : EvalCtx} {e : Expr} {b : Bool} : evalBoolP ctx e = .ok b ↔ Val ctx e b :=
  evalBoolP_ok.trans evalP_val

theorem val_unique {ctx : EvalCtx} {e : Expr} {a b : Bool} (h : Val ctx e a) (h' : Val ctx e b) : a = b := by
  rw [← val_boolP] at h h'
  rw [h] at h'
  cases h'
  rfl

theorem correct_cacheOk {ctx : EvalCtx} {root : Expr} {m : EvalCache} :
    CorrectValues ctx root m ↔ CacheOk ctx root (some m) := by
  constructor
  · rintro h m' hm p b hl
    cases hm
    obtain ⟨e, h1, h2⟩ := h p b hl
    exact ⟨e, sub_nodeAt.2 h1, evalP_val.2 h2⟩
  · intro h p b hl
    obtain ⟨e, h1, h2⟩ := h m rfl p b hl
    exact ⟨e, sub_nodeAt.1 h1, evalP_val.1 h2⟩

/-! ### Sizes -/

open CorrectSizes (NoBareParam)

theorem size_weight {e : Expr} {n : Nat} : size e = .ok n ↔ weight e = n ∧ NoBareParam e := by
  induction e generalizing n with
  | bin i op l r ihl ihr =>
    unfold size
    simp only [Res.bind_eq_ok, ihl, ihr, Res.ok.injEq, weight, NoBareParam]
    constructor
    · rintro ⟨a, ⟨rfl, h1⟩, b, ⟨rfl, h2⟩, rfl⟩
      exact ⟨rfl, h1, h2⟩
    · rintro ⟨rfl, h1, h2⟩
      exact ⟨_, ⟨rfl, h1⟩, _, ⟨rfl, h2⟩, rfl⟩
  | boolNeg i e ih =>
    unfold size
    simp only [Res.bind_eq_ok, ih, Res.ok.injEq, weight, NoBareParam]
    constructor
    · rintro ⟨a, ⟨rfl, h1⟩, rfl⟩
      exact ⟨rfl, h1⟩
    · rintro ⟨rfl, h1⟩
      exact ⟨_, ⟨rfl, h1⟩, rfl⟩
  | _ => simp [size, weight, NoBareParam]

theorem size_fails {e : Expr} (h : ¬ NoBareParam e) : size e = .err .invalidArgument := by
  induction e with
  | bin i op l r ihl ihr =>
    unfold size
    by_cases hl : NoBareParam l
    · rw [(size_weight).2 ⟨rfl, hl⟩, Res.ok_bind, ihr fun hr => h ⟨hl, hr⟩]; rfl
    · rw [ihl hl]; rfl
  | boolNeg i e ih => unfold size; rw [ih h]; rfl
  | actionParam | notSet => rfl
  | _ => exact absurd trivial h

/-- Results with state. -/
def AgreesS {α σ : Type} (P : σ → Prop) (a : Res α) (x : Res (α × σ)) : Prop :=
  match a with
  | .ok v => ∃ c, x = .ok (v, c) ∧ P c
  | .err e => x = .err e
  | .crash => x = .crash
  | .oof => x = .oof

theorem AgreesS.bind {α β σ τ : Type} {P : σ → Prop} {Q : τ → Prop} {a : Res α} {x : Res (α × σ)} {f : α → Res β}
    {g : α × σ → Res (β × τ)} (h : AgreesS P a x)
    (hf : ∀ v c, P c → AgreesS Q (f v) (g (v, c))) : AgreesS Q (a >>= f) (x >>= g) := by
  cases a with
  | ok v =>
    obtain ⟨c, rfl, hc⟩ := h
    exact hf v c hc
  | err e => unfold AgreesS at h; subst h; rfl
  | crash => unfold AgreesS at h; subst h; rfl
  | oof => unfold AgreesS at h; subst h; rfl

theorem sizeC_agrees {root : Expr} : ∀ (e : Expr) (p : Path) (c : SizeCache), Sub root e p → CorrectSizes root c →
    AgreesS (CorrectSizes root) (size e) (sizeC e p c) := by
  have hit : ∀ {e : Expr} {p : Path} {c : SizeCache} {n : Nat}, Sub root e p → CorrectSizes root c → lookup p c = some n →
      AgreesS (CorrectSizes root) (size e) (.ok (n, c)) := by
    intro e p c n hs hc hl
    obtain ⟨e', h1, h2⟩ := hc p n hl
    rw [sub_nodeAt] at hs
    rw [hs] at h1
    cases h1
    rw [size_weight.2 h2]
    exact ⟨c, rfl, hc⟩
  have push : ∀ {e : Expr} {p : Path} {c : SizeCache} {n : Nat}, Sub root e p → CorrectSizes root c →
      size e = .ok n → CorrectSizes root ((p, n) :: c) := by
    intro e p c n hs hc he q k hl
    rw [lookup_cons] at hl
    split at hl
    · rename_i hpq
      subst hpq
      cases hl
      exact ⟨e, sub_nodeAt.1 hs, size_weight.1 he⟩
    · exact hc q k hl
  intro e
  induction e with
  | bin i op l r ihl ihr =>
    intro p c hs hc
    unfold sizeC
    cases hl : lookup p c with
    | some n => exact hit hs hc hl
    | none =>
      dsimp only
      cases h1 : size l with
      | ok a =>
        cases h2 : size r with
        | ok b =>
          have hsz : size (.bin i op l r) = .ok (1 + a + b) := by unfold size; rw [h1, h2]; rfl
          have g1 := ihl (0 :: p) c (.left hs) hc
          rw [h1] at g1
          obtain ⟨c1, e1, hc1⟩ := g1
          have g2 := ihr (1 :: p) c1 (.right hs) hc1
          rw [h2] at g2
          obtain ⟨c2, e2, hc2⟩ := g2
          rw [hsz, e1, Res.ok_bind]
          dsimp only
          rw [e2, Res.ok_bind]
          exact ⟨_, rfl, push hs hc2 hsz⟩
        | _ =>
          have g1 := ihl (0 :: p) c (.left hs) hc
          rw [h1] at g1
          obtain ⟨c1, e1, hc1⟩ := g1
          have g2 := ihr (1 :: p) c1 (.right hs) hc1
          rw [h2] at g2
          rw [e1, Res.ok_bind]
          dsimp only
          unfold AgreesS at g2
          rw [g2]
          unfold size
          rw [h1, h2]
          rfl
      | _ =>
        have g1 := ihl (0 :: p) c (.left hs) hc
        rw [h1] at g1
        unfold AgreesS at g1
        rw [g1]
        unfold size
        rw [h1]
        rfl
  | boolNeg i e ih =>
    intro p c hs hc
    unfold sizeC
    cases hl : lookup p c with
    | some n => exact hit hs hc hl
    | none =>
      dsimp only
      cases h1 : size e with
      | ok a =>
        have hsz : size (.boolNeg i e) = .ok (1 + a) := by unfold size; rw [h1]; rfl
        have g1 := ih (0 :: p) c (.boolNeg hs) hc
        rw [h1] at g1
        obtain ⟨c1, e1, hc1⟩ := g1
        rw [hsz, e1, Res.ok_bind]
        exact ⟨_, rfl, push hs hc1 hsz⟩
      | _ =>
        have g1 := ih (0 :: p) c (.boolNeg hs) hc
        rw [h1] at g1
        unfold AgreesS at g1
        rw [g1]
        unfold size
        rw [h1]
        rfl
  | actionParam | notSet =>
    intro p c hs hc
    unfold sizeC
    cases hl : lookup p c with
    | some n =>
      have := hit hs hc hl
      exact this
    | none => rfl
  | _ =>
    intro p c hs hc
    unfold sizeC
    cases hl : lookup p c with
    | some n => exact hit hs hc hl
    | none => exact ⟨c, rfl, hc⟩

/-! ### The search -/

/-- The search without caches. -/
def minP (ctx : EvalCtx) : Expr → Path → Res Node
  | .boolConst i b, p => .ok (.boolConst i b, p)
  | .boolNeg _ e, p => minP ctx e (0 :: p)
  | .bin i op l r, p =>
    match op with
    | .eq | .ne | .gt | .ge | .lt | .le => .ok (.bin i op l r, p)
    | .and | .or | .implies => do
      let lb ← evalBoolP ctx l
      let rb ← evalBoolP ctx r
      match (if op = .or then lb else !lb), (if op = .and then !rb else rb) with
      | false, false => .ok (.bin i op l r, p)
      | true, false => minP ctx l (0 :: p)
      | false, true => minP ctx r (1 :: p)
      | true, true => do
        let n0 ← minP ctx l (0 :: p)
        let n1 ← minP ctx r (1 :: p)
        let s0 ← size n0.1
        let s1 ← size n1.1
        .ok (if s0 ≤ s1 then n0 else n1)
    | .unknown => .err .internal
  | _, _ => .err .internal

/-- The invariant of the two caches. -/
def CachesOk (ctx : EvalCtx) (root : Expr) (cs : Caches) : Prop :=
  CorrectValues ctx root cs.1 ∧ CorrectSizes root cs.2

theorem evalC_agrees {ctx : EvalCtx} {root e : Expr} {p : Path} {m : EvalCache} (hs : Sub root e p)
    (hc : CorrectValues ctx root m) : AgreesS (CorrectValues ctx root) (evalBoolP ctx e) (evalToBoolC ctx e p m) := by
  obtain ⟨h1, h2, h3, h4⟩ := evalToBoolC_agrees hs (correct_cacheOk.1 hc)
  cases h : evalBoolP ctx e with
  | ok b =>
    obtain ⟨m', e1, e2⟩ := h1 b h
    exact ⟨m', e1, correct_cacheOk.2 e2⟩
  | err x => exact h2 x h
  | crash => exact h3 h
  | oof => exact h4 h

theorem minP_sub {ctx : EvalCtx} {root : Expr} : ∀ (e : Expr) (p : Path) (n : Node), Sub root e p → minP ctx e p = .ok n →
    Sub root n.1 n.2 := by
  intro e
  induction e with
  | boolConst => intro p n hs h; cases h; exact hs
  | boolNeg i e ih => exact fun p n hs h => ih _ n (.boolNeg hs) h
  | bin i op l r ihl ihr =>
    intro p n hs h
    unfold minP at h
    have conn : (evalBoolP ctx l >>= fun lb => evalBoolP ctx r >>= fun rb =>
      match (if op = .or then lb else !lb), (if op = .and then !rb else rb) with
      | false, false => .ok (.bin i op l r, p)
      | true, false => minP ctx l (0 :: p)
      | false, true => minP ctx r (1 :: p)
      | true, true => do
        let n0 ← minP ctx l (0 :: p)
        let n1 ← minP ctx r (1 :: p)
        let s0 ← size n0.1
        let s1 ← size n1.1
        .ok (if s0 ≤ s1 then n0 else n1)) = .ok n → Sub root n.1 n.2 := by
      intro h
      simp only [Res.bind_eq_ok] at h
      obtain ⟨lb, _, rb, _, h⟩ := h
      split at h
      · cases h; exact hs
      · exact ihl _ n (.left hs) h
      · exact ihr _ n (.right hs) h
      · simp only [Res.bind_eq_ok] at h
        obtain ⟨n0, h0, n1, h1, s0, _, s1, _, h⟩ := h
        cases h
        split
        · exact ihl _ n0 (.left hs) h0
        · exact ihr _ n1 (.right hs) h1
    cases op with
    | eq | ne | gt | ge | lt | le => cases h; exact hs
    | and | or | implies => exact conn h
    | unknown => cases h
  | _ => intro p n hs h; cases h

theorem minimalSub_agrees {ctx : EvalCtx} {root : Expr} : ∀ (e : Expr) (p : Path) (cs : Caches), Sub root e p →
    CachesOk ctx root cs → AgreesS (CachesOk ctx root) (minP ctx e p) (minimalSub ctx e p cs) := by
  intro e
  induction e with
  | boolConst => intro p cs hs hc; exact ⟨cs, rfl, hc⟩
  | boolNeg i e ih => exact fun p cs hs hc => ih _ cs (.boolNeg hs) hc
  | bin i op l r ihl ihr =>
    intro p cs hs hc
    have conn : AgreesS (CachesOk ctx root) (evalBoolP ctx l >>= fun lb => evalBoolP ctx r >>= fun rb =>
      match (if op = .or then lb else !lb), (if op = .and then !rb else rb) with
      | false, false => .ok (.bin i op l r, p)
      | true, false => minP ctx l (0 :: p)
      | false, true => minP ctx r (1 :: p)
      | true, true => do
        let n0 ← minP ctx l (0 :: p)
        let n1 ← minP ctx r (1 :: p)
        let s0 ← size n0.1
        let s1 ← size n1.1
        .ok (if s0 ≤ s1 then n0 else n1))
      (do
      let (lb, ec) ← evalToBoolC ctx l (0 :: p) cs.1
      let (rb, ec) ← evalToBoolC ctx r (1 :: p) ec
      let cs := (ec, cs.2)
      let lc := if op = .or then lb else !lb
      let rc := if op = .and then !rb else rb
      match lc, rc with
      | false, false => .ok ((.bin i op l r, p), cs)
      | true, false => minimalSub ctx l (0 :: p) cs
      | false, true => minimalSub ctx r (1 :: p) cs
      | true, true => do
        let (n0, cs) ← minimalSub ctx l (0 :: p) cs
        let (n1, cs) ← minimalSub ctx r (1 :: p) cs
        let (s0, sc) ← sizeC n0.1 n0.2 cs.2
        let (s1, sc) ← sizeC n1.1 n1.2 sc
        .ok (if s0 ≤ s1 then n0 else n1, (cs.1, sc))) := by
      refine AgreesS.bind (evalC_agrees (.left hs) hc.1) fun lb ec h1 => ?_
      refine AgreesS.bind (evalC_agrees (.right hs) h1) fun rb ec' h2 => ?_
      dsimp only
      generalize (if op = .or then lb else !lb) = lc
      generalize (if op = .and then !rb else rb) = rc
      have hcs : CachesOk ctx root (ec', cs.2) := ⟨h2, hc.2⟩
      cases lc <;> cases rc <;> dsimp only
      · exact ⟨_, rfl, hcs⟩
      · exact ihr _ _ (.right hs) hcs
      · exact ihl _ _ (.left hs) hcs
      · cases e0 : minP ctx l (0 :: p) with
        | ok n0 =>
          have g0 := ihl _ _ (.left hs) hcs
          rw [e0] at g0
          obtain ⟨c0, f0, hc0⟩ := g0
          rw [f0, Res.ok_bind, Res.ok_bind]
          dsimp only
          cases e1 : minP ctx r (1 :: p) with
          | ok n1 =>
            have g1 := ihr _ _ (.right hs) hc0
            rw [e1] at g1
            obtain ⟨c1, f1, hc1⟩ := g1
            rw [f1, Res.ok_bind, Res.ok_bind]
            dsimp only
            refine AgreesS.bind (sizeC_agrees _ _ _ (minP_sub _ _ _ (.left hs) e0) hc1.2) fun s0 sc h3 => ?_
            refine AgreesS.bind (sizeC_agrees _ _ _ (minP_sub _ _ _ (.right hs) e1) h3) fun s1 sc' h4 => ?_
            exact ⟨_, rfl, hc1.1, h4⟩
          | _ =>
            have g1 := ihr _ _ (.right hs) hc0
            rw [e1] at g1
            unfold AgreesS at g1
            rw [g1]
            rfl
        | _ =>
          have g0 := ihl _ _ (.left hs) hcs
          rw [e0] at g0
          unfold AgreesS at g0
          rw [g0]
          rfl
    unfold minP minimalSub
    cases op with
    | eq | ne | gt | ge | lt | le => exact ⟨cs, rfl, hc⟩
    | and | or | implies => exact conn
    | unknown => rfl
  | _ => intro p cs hs hc; rfl

end P4C
