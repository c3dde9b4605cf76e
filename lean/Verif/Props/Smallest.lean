import Verif.Proofs.Smallest
import Verif.Props.Explain

/-
The documentation of `MinimalSubexpressionLeadingToEvalResult` (interpreter.h:200-217): property C58.
-/

namespace P4C

open Spec

/-- C58, if every combination of values of the atomic parts of the constraint occurs in some context: the node found is
sufficient, and no sufficient part is smaller; those of the same size are to its right. -/
theorem C58_smallest_partial {C : EvalCtx → Prop} {ctx : EvalCtx} {root e : Expr} {p : Path} {m : EvalCache} {sz : SizeCache}
    {n : Node} {cs : Caches} (hp : nodeAt root p = some e) (hm : CorrectValues ctx root m)
    (hs : CorrectSizes root sz) (h : minimalSub ctx e p (m, sz) = .ok (n, cs)) (hc : C ctx) (hd : Defined C (e, p))
    (hi : Independent C (e, p)) :
    Part (e, p) n ∧ Sufficient C ctx e n.1 ∧
      ∀ k, Part (e, p) k → Sufficient C ctx e k.1 → weight n.1 ≤ weight k.1 ∧
        (weight k.1 = weight n.1 → k = n ∨ LeftOf n.2 k.2) := by
  obtain ⟨b, hb⟩ := hd ctx hc _ (.self _)
  have h6 := C06_minimal hp hm hs h hb
  refine ⟨?_, ?_, fun k hk hk' => h6.2.2.2.2 k (sufficient_justifies hc hd hi hk hk')⟩
  · exact justifies_part h6.2.2.2.1
  · intro v b' hv hb' ctx' hc' hv'
    obtain ⟨b'', hb''⟩ := hd ctx' hc' _ (.self _)
    rw [← C05_sufficient hp hm hs h hb' hv hv' hb'']
    exact hb''

/-- The parts of the constraint `ex == 5 && opt == 3`. -/
def Ex.tcI : Str := c!"ex == 5 && opt == 3"

def Ex.eI : Expr := (Ex.ti Ex.tcI).constraint.getD (.notSet {})

def Ex.operand (e : Expr) (k : Nat) : Expr := (child e k).getD (.notSet {})

/-- An entry with the given exact and optional keys. -/
def Ex.entry2 (n k : UInt8) : RtEntry :=
  { tableId := 1, matches_ := [⟨1, .exact [n]⟩, ⟨5, .optional [k]⟩], priority := 10 }

/-- Its context, if the two parts are to have the given values. -/
def Ex.ctxI (a b : Bool) : EvalCtx := Ex.ctx Ex.tcI (Ex.entry2 (if a then 5 else 4) (if b then 3 else 2))

/-- The hypotheses of `C58_smallest_partial` hold. -/
example : ∃ n cs, minimalSub (Ex.ctxI true false) Ex.eI [] ([], []) = .ok (n, cs) ∧ n.2 = [1] ∧
    Defined (fun c => ∃ a b, c = Ex.ctxI a b) (Ex.eI, []) ∧ Independent (fun c => ∃ a b, c = Ex.ctxI a b) (Ex.eI, []) := by
  have he : ∃ i i' i'' l l' r r', Ex.eI = .bin i .and (.bin i' .eq l l') (.bin i'' .eq r r') ∧
      Ex.operand Ex.eI 0 = .bin i' .eq l l' ∧ Ex.operand Ex.eI 1 = .bin i'' .eq r r' :=
    ⟨_, _, _, _, _, _, _, rfl, rfl, rfl⟩
  have hl : ∀ a b, Val (Ex.ctxI a b) (Ex.operand Ex.eI 0) a := by
    intro a b
    cases a <;> cases b <;> rfl
  have hr : ∀ a b, Val (Ex.ctxI a b) (Ex.operand Ex.eI 1) b := by
    intro a b
    cases a <;> cases b <;> rfl
  have hv : ∀ a b, Val (Ex.ctxI a b) Ex.eI (a && b) := by
    intro a b
    cases a <;> cases b <;> rfl
  have h : Ex.isOk (minimalSub (Ex.ctxI true false) Ex.eI [] ([], [])) = true := by decide +kernel
  refine ⟨_, _, Ex.get_of_isOk (d := (((.notSet {}), []), ([], []))) h, by decide +kernel, ?_⟩
  obtain ⟨i, i', i'', l, l', r, r', h1, h2, h3⟩ := he
  rw [h2] at hl
  rw [h3] at hr
  rw [h1] at hv ⊢
  constructor
  · rintro _ ⟨a, b, rfl⟩ k hk
    cases hk with
    | self => exact ⟨_, hv a b⟩
    | left _ hk =>
      cases hk with
      | self => exact ⟨_, hl a b⟩
      | left ho | right ho => simp at ho
    | right _ hk =>
      cases hk with
      | self => exact ⟨_, hr a b⟩
      | left ho | right ho => simp at ho
  · intro σ
    refine ⟨Ex.ctxI (σ [0]) (σ [1]), ⟨_, _, rfl⟩, fun k hk ha => ?_⟩
    cases hk with
    | self => exact (ha.1 rfl).elim
    | left _ hk =>
      cases hk with
      | self => exact hl _ _
      | left ho | right ho => simp at ho
    | right _ hk =>
      cases hk with
      | self => exact hr _ _
      | left ho | right ho => simp at ho

/-- The constraint of the counterexample. -/
def Ex.tcC : Str := c!"true -> ex == 5"

def Ex.eC : Expr := (Ex.ti Ex.tcC).constraint.getD (.notSet {})

/-- C58 in full is false: for `true -> ex == 5` and an entry with another key, the whole constraint is found, although the
value of `ex == 5`, which is smaller, determines that of the constraint. -/
theorem C58_fails : ∃ ctx e n cs k, minimalSub ctx e [] ([], []) = .ok (n, cs) ∧ Val ctx e false ∧
    Part (e, []) k ∧ Val ctx k.1 false ∧ (∀ C, (∀ c, C c → ∃ b, Val c e b) → Sufficient C ctx e k.1) ∧
    weight k.1 < weight n.1 := by
  have he : ∃ i i' r, Ex.eC = .bin i .implies (.boolConst i' true) r ∧ Ex.operand Ex.eC 1 = r :=
    ⟨_, _, _, rfl, rfl⟩
  have h : Ex.isOk (minimalSub (Ex.ctx Ex.tcC (Ex.entry 4)) Ex.eC [] ([], [])) = true := by decide +kernel
  have hv : Val (Ex.ctx Ex.tcC (Ex.entry 4)) Ex.eC false := by unfold Val; decide +kernel
  have hr : Val (Ex.ctx Ex.tcC (Ex.entry 4)) (Ex.operand Ex.eC 1) false := by unfold Val; decide +kernel
  refine ⟨_, Ex.eC, _, _, (Ex.operand Ex.eC 1, [1]), Ex.get_of_isOk (d := (((.notSet {}), []), ([], []))) h, hv, ?_, hr, ?_,
    by decide +kernel⟩
  · obtain ⟨i, i', r, h1, h2⟩ := he
    rw [h2, h1]
    exact .right (by simp) (.self _)
  · intro C hC v b hv' hb ctx' hc hv''
    cases val_unique hv' hr
    cases val_unique hb hv
    obtain ⟨b', hb'⟩ := hC ctx' hc
    obtain ⟨i, i', r, h1, h2⟩ := he
    rw [h2] at hv''
    rw [h1] at hb' ⊢
    rcases val_implies hb' with ⟨h3, rfl⟩ | ⟨_, h3⟩
    · have := chkP_bool rfl h3
      cases this
    · cases val_unique h3 hv''
      exact hb'

end P4C
