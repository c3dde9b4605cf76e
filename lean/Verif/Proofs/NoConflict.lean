import Verif.Spec.NoConflict
import Verif.Proofs.Sorts
import Verif.Proofs.Eval
import Verif.Proofs.Explain
import Verif.Proofs.Laws
import Verif.Proofs.Symbolic

/-
The interpreter and the constraint solver on syntax trees of any origin: if both give a result, and the tree is read alike, then
the results agree.
-/

namespace P4C

open Spec

theorem finds_evalP {ctx : EvalCtx} {e : Expr} {v : Value} : Finds ctx e v ↔ evalP ctx e = .ok v := by
  have h := eval_agrees none ctx e e [] none .root ⟨by simp [CacheOk], rfl⟩
  unfold Finds
  unfold Agrees at h
  cases hv : evalP ctx e with
  | ok x =>
    rw [hv] at h
    obtain ⟨c, hc, _, hk⟩ := h
    rw [hc]
    have : c = none := by cases c <;> simp [SameKind] at hk ⊢
    subst this
    simp
  | err x => rw [hv] at h; dsimp only at h; rw [h]; simp
  | crash => rw [hv] at h; dsimp only at h; rw [h]; simp
  | oof => rw [hv] at h; dsimp only at h; rw [h]; simp

/-- The term stands for the number. -/
def TermNum (m : Interp) : Z3Expr → Int → Prop
  | ⟨.int, t⟩, z => (t.den m : Int) = z
  | ⟨.bv w, t⟩, z => (((t.den m : BitVec w).toNat : Nat) : Int) = z
  | ⟨.bool, _⟩, _ => False

/-- The symbolic result stands for the value. -/
def SymNum (m : Interp) : SymResult → Value → Prop
  | .expr ⟨.bool, t⟩, .bool b => (t.den m : Bool) = b
  | .expr z, .int v => TermNum m z v
  | .key (.exact z), .exact v => TermNum m z v
  | .key (.ternary a b), .ternary v k => TermNum m a v ∧ TermNum m b k
  | .key (.lpm a b), .lpm v p => TermNum m a v ∧ TermNum m b p
  | _, _ => False

theorem symVal_num {m : Interp} {t : Ty} {r : SymResult} {v : Value} (h : SymVal m t r v) : SymNum m r v := by
  cases h <;> simp [SymNum, TermNum]

theorem symNum_bool {m : Interp} {z : Z3Expr} {b : Bool} (h : SymNum m (.expr z) (.bool b)) :
    ∃ t : Term .bool, z = ⟨.bool, t⟩ ∧ t.den m = b := by
  obtain ⟨s, t⟩ := z
  cases s <;> simp only [SymNum] at h
  exact ⟨t, rfl, h⟩

theorem symNum_int {m : Interp} {r : SymResult} {v : Int} (h : SymNum m r (.int v)) : ∃ z, r = .expr z ∧ TermNum m z v := by
  cases r with
  | key k => cases k <;> simp only [SymNum] at h
  | expr z =>
    obtain ⟨s, t⟩ := z
    cases s <;> simp only [SymNum] at h
    · exact h.elim
    · exact ⟨_, rfl, h⟩
    · exact ⟨_, rfl, h⟩

theorem symNum_of_term {m : Interp} {z : Z3Expr} {v : Int} (h : TermNum m z v) : SymNum m (.key (.exact z)) (.exact v) := h

theorem termNum_eq {m : Interp} {a b z : Z3Expr} {x y : Int} (ha : TermNum m a x) (hb : TermNum m b y) (h : a.eq b = .ok z) :
    ∃ t : Term .bool, z = ⟨.bool, t⟩ ∧ t.den m = decide (x = y) := by
  obtain ⟨s, a⟩ := a
  obtain ⟨s', b⟩ := b
  unfold Z3Expr.eq Z3Expr.sameSort at h
  split at h
  · rename_i hs
    dsimp only at hs
    subst hs
    cases h
    refine ⟨_, rfl, ?_⟩
    cases s' with
    | bool => exact ha.elim
    | int =>
      simp only [TermNum] at ha hb
      subst ha hb
      simp only [Term.den]
      rfl
    | bv w =>
      simp only [TermNum] at ha hb
      subst ha hb
      simp only [Term.den]
      rw [Bool.eq_iff_iff]
      simp [BitVec.toNat_eq]
      omega
  · cases h

theorem termNum_ne {m : Interp} {a b z : Z3Expr} {x y : Int} (ha : TermNum m a x) (hb : TermNum m b y) (h : a.ne b = .ok z) :
    ∃ t : Term .bool, z = ⟨.bool, t⟩ ∧ t.den m = !decide (x = y) := by
  obtain ⟨s, a⟩ := a
  obtain ⟨s', b⟩ := b
  unfold Z3Expr.ne Z3Expr.sameSort at h
  split at h
  · rename_i hs
    dsimp only at hs
    subst hs
    cases h
    refine ⟨_, rfl, ?_⟩
    cases s' with
    | bool => exact ha.elim
    | int =>
      simp only [TermNum] at ha hb
      subst ha hb
      simp only [Term.den]
      rfl
    | bv w =>
      simp only [TermNum] at ha hb
      subst ha hb
      simp only [Term.den]
      rw [Bool.eq_iff_iff]
      simp [BitVec.toNat_eq]
      omega
  · cases h

theorem slt_clear {w : Nat} {x y : BitVec w} (hx : 2 * (x.toNat : Int) < 2 ^ w) (hy : 2 * (y.toNat : Int) < 2 ^ w) :
    x.slt y = decide ((x.toNat : Int) < y.toNat) ∧ x.sle y = decide ((x.toNat : Int) ≤ y.toNat) := by
  have h1 : 2 * x.toNat < 2 ^ w := by exact_mod_cast hx
  have h2 : 2 * y.toNat < 2 ^ w := by exact_mod_cast hy
  simp only [BitVec.slt, BitVec.sle, BitVec.toInt, if_pos h1, if_pos h2, and_self]

theorem termNum_ord {m : Interp} {op : BinOp} {a b z : Z3Expr} {x y : Int} (ho : IsOrdered op) (ha : TermNum m a x)
    (hb : TermNum m b y) (hc : ∀ w, a.srt = .bv w → 2 * x < 2 ^ w ∧ 2 * y < 2 ^ w) (h : symBinExpr op a b = .ok z) :
    ∃ t : Term .bool, z = ⟨.bool, t⟩ ∧ t.den m = ordHolds op x y := by
  obtain ⟨s, a⟩ := a
  obtain ⟨s', b⟩ := b
  rcases ho with rfl | rfl | rfl | rfl <;>
  · unfold symBinExpr at h
    dsimp only at h
    first | unfold Z3Expr.lt at h | unfold Z3Expr.le at h | unfold Z3Expr.gt at h | unfold Z3Expr.ge at h
    unfold Z3Expr.cmp Z3Expr.sameSort at h
    split at h
    · rename_i hs
      dsimp only at hs
      subst hs
      cases s' with
      | bool => exact ha.elim
      | int =>
        cases h
        refine ⟨_, rfl, ?_⟩
        simp only [TermNum] at ha hb
        subst ha hb
        simp only [Term.den, ordHolds]
        try rfl
      | bv w =>
        cases h
        refine ⟨_, rfl, ?_⟩
        simp only [TermNum] at ha hb
        subst ha hb
        obtain ⟨h1, h2⟩ := hc w rfl
        simp only [Term.den, ordHolds, (slt_clear h1 h2).1, (slt_clear h1 h2).2, (slt_clear h2 h1).1, (slt_clear h2 h1).2]
        try rfl
    · cases h

theorem evalP_parts_ord {ctx : EvalCtx} {i : Info} {op : BinOp} {l r : Expr} {v : Value} (ho : IsOrdered op)
    (h : evalP ctx (.bin i op l r) = .ok v) : ∃ x y, evalP ctx l = .ok (.int x) ∧ evalP ctx r = .ok (.int y) ∧
      v = .bool (ordHolds op x y) := by
  rcases ho with rfl | rfl | rfl | rfl <;>
  · simp only [evalP, chkP_ok, Res.bind_eq_ok, Res.ok.injEq, toIntP_ok, ordHolds] at h ⊢
    obtain ⟨⟨x, hx, y, hy, rfl⟩, _⟩ := h
    exact ⟨x, y, hx, hy, rfl⟩

theorem evalP_parts_eq {ctx : EvalCtx} {i : Info} {op : BinOp} {l r : Expr} {v : Value} (ho : op = .eq ∨ op = .ne)
    (h : evalP ctx (.bin i op l r) = .ok v) : ∃ x y, evalP ctx l = .ok x ∧ evalP ctx r = .ok y ∧
      v = .bool (if op = .eq then decide (x = y) else !decide (x = y)) := by
  rcases ho with rfl | rfl <;>
  · simp only [evalP, chkP_ok, Res.bind_eq_ok, Res.ok.injEq] at h ⊢
    obtain ⟨⟨x, hx, y, hy, rfl⟩, _⟩ := h
    exact ⟨x, y, hx, hy, rfl⟩

theorem evalP_parts_conn {ctx : EvalCtx} {i : Info} {op : BinOp} {l r : Expr} {v : Value}
    (ho : op = .and ∨ op = .or ∨ op = .implies) (h : evalP ctx (.bin i op l r) = .ok v) :
    ∃ x, evalP ctx l = .ok (.bool x) ∧ ((op = .and ∧ x = false ∧ v = .bool false) ∨ (op = .or ∧ x = true ∧ v = .bool true) ∨
      (op = .implies ∧ x = false ∧ v = .bool true) ∨ ((op = .or ↔ x = false) ∧ ∃ y, evalP ctx r = .ok (.bool y) ∧ v = .bool y)) := by
  rcases ho with rfl | rfl | rfl <;>
  · simp only [evalP, chkP_ok, Res.bind_eq_ok, toBoolP_ok] at h ⊢
    obtain ⟨⟨x, hx, h⟩, _⟩ := h
    refine ⟨x, hx, ?_⟩
    cases x <;> simp only [if_true, if_false, Bool.false_eq_true, Res.bind_eq_ok, Res.ok.injEq, toBoolP_ok] at h <;> grind

theorem symBinExpr_num {m : Interp} {op : BinOp} (ho : op = .eq ∨ op = .ne) {a b z : Z3Expr} {x y : Int} (ha : TermNum m a x)
    (hb : TermNum m b y) (h : symBinExpr op a b = .ok z) :
    ∃ t : Term .bool, z = ⟨.bool, t⟩ ∧ t.den m = if op = .eq then decide (x = y) else !decide (x = y) := by
  rcases ho with rfl | rfl
  · simpa using termNum_eq ha hb h
  · simpa using termNum_ne ha hb h

theorem symBinPair_num {m : Interp} {op : BinOp} (ho : op = .eq ∨ op = .ne) {a b a' b' z : Z3Expr} {x y x' y' : Int}
    (ha : TermNum m a x) (hb : TermNum m b y) (ha' : TermNum m a' x') (hb' : TermNum m b' y')
    (h : symBinPair op a b a' b' = .ok z) :
    ∃ t : Term .bool, z = ⟨.bool, t⟩ ∧
      t.den m = if op = .eq then decide (x = x' ∧ y = y') else !decide (x = x' ∧ y = y') := by
  unfold symBinPair at h
  rw [if_neg (by rcases ho with rfl | rfl <;> simp)] at h
  simp only [Res.bind_eq_ok] at h
  obtain ⟨p, hp, q, hq, h⟩ := h
  obtain ⟨t, rfl, ht⟩ := symBinExpr_num ho ha ha' hp
  obtain ⟨u, rfl, hu⟩ := symBinExpr_num ho hb hb' hq
  rcases ho with rfl | rfl
  · rw [if_neg (by simp)] at h
    cases h
    refine ⟨_, rfl, ?_⟩
    simp only [Term.den, ht, hu, if_true]
    simp
  · rw [if_pos rfl] at h
    cases h
    refine ⟨_, rfl, ?_⟩
    simp only [Term.den, ht, hu]
    simp

theorem symBin_num {m : Interp} {op : BinOp} (ho : op = .eq ∨ op = .ne) {a b : SymResult} {x y : Value} {z : Z3Expr}
    (ha : SymNum m a x) (hb : SymNum m b y) (h : symBin op a b = .ok z) :
    ∃ t : Term .bool, z = ⟨.bool, t⟩ ∧ t.den m = if op = .eq then decide (x = y) else !decide (x = y) := by
  unfold symBin at h
  split at h
  · rename_i a b
    cases x with
    | bool p =>
      obtain ⟨t, rfl, ht⟩ := symNum_bool ha
      obtain ⟨hs, _, _⟩ := symBinExpr_form h
      obtain ⟨s, u⟩ := b
      dsimp only at hs
      subst hs
      cases y with
      | bool q =>
        simp only [SymNum] at hb
        rcases ho with rfl | rfl <;>
        · cases h
          refine ⟨_, rfl, ?_⟩
          show (_ : Bool) = _
          simp only [Term.den]
          rw [ht, hb]
          cases p <;> cases q <;> rfl
      | int q => exact (show False from hb).elim
      | _ => exact (show False from hb).elim
    | int p =>
      obtain ⟨_, ha', ha⟩ := symNum_int ha
      cases ha'
      cases y with
      | int q =>
        obtain ⟨_, hb', hb⟩ := symNum_int hb
        cases hb'
        simpa using symBinExpr_num ho ha hb h
      | bool q =>
        obtain ⟨t, rfl, ht⟩ := symNum_bool hb
        obtain ⟨hs, _, _⟩ := symBinExpr_form h
        obtain ⟨s, u⟩ := a
        dsimp only at hs
        subst hs
        exact ha.elim
      | _ => obtain ⟨_, _⟩ := b; rename_i s _; cases s <;> exact (show False from hb).elim
    | _ => obtain ⟨_, _⟩ := a; rename_i s _; cases s <;> exact (show False from ha).elim
  · cases x <;> cases y <;> simp only [SymNum] at ha hb
    simpa using symBinExpr_num ho ha hb h
  · cases x <;> cases y <;> simp only [SymNum] at ha hb
    simpa using symBinPair_num ho ha.1 ha.2 hb.1 hb.2 h
  · cases x <;> cases y <;> simp only [SymNum] at ha hb
    simpa using symBinPair_num ho ha.1 ha.2 hb.1 hb.2 h
  · cases h

/-- The connectives. -/
theorem symConn_num {op : BinOp} (ho : op = .and ∨ op = .or ∨ op = .implies) {a b : SymResult} {z : Z3Expr}
    (h : symBin op a b = .ok z) (m : Interp) {x : Bool} (ha : SymNum m a (.bool x)) :
    ∃ t u w : Term .bool, z = ⟨.bool, t⟩ ∧ a = .expr ⟨.bool, u⟩ ∧ b = .expr ⟨.bool, w⟩ ∧
      t.den m = (match op with | .and => u.den m && w.den m | .or => u.den m || w.den m | _ => !(u.den m) || w.den m) := by
  unfold symBin at h
  split at h
  · rename_i a b
    obtain ⟨u, rfl, _⟩ := symNum_bool ha
    obtain ⟨hs, _, _⟩ := symBinExpr_form h
    obtain ⟨s, w⟩ := b
    dsimp only at hs
    subst hs
    rcases ho with rfl | rfl | rfl <;> cases h <;> exact ⟨_, u, w, rfl, rfl, rfl, rfl⟩
  all_goals first | (cases h; done) | exact (show False from ha).elim

section
variable {K : Str → Form → Prop} {A : Str → Prop} {env : SymEnv}
  (hK : ∀ n k, K n k ↔ ∃ key, lookup n env.keys = some key ∧ keyForm key = k)
  (hA : ∀ n, A n ↔ ∃ z, lookup n env.attrs = some z) (hI : ∀ n z, lookup n env.attrs = some z → z.srt = .int)
  {m : Interp} {ctx : EvalCtx} {Γ : Sig} (hE : EnvCorr m Γ env (envOf ctx))

include hE in
theorem key_num {n : Str} {k : SymKey} (hk : lookup n env.keys = some k) :
    ∃ t v, ctx.vals = .table t ∧ lookup n t.keys = some v ∧ SymNum m (.key k) v := by
  obtain ⟨_, v, _, hv, _, hs⟩ := hE.key n k hk
  unfold envOf at hv
  split at hv
  · rename_i t ht
    exact ⟨t, v, ht, hv, symVal_num hs⟩
  · cases hv

include hK hA hI hE in
/-- If both have a result, then the results agree. -/
theorem read_alike {src : ConstraintSource} : ∀ {e : Expr} {r : SymResult} {v : Value},
    Everywhere (ReadAlike K A ctx) e → evalSym src env e = .ok r → evalP ctx e = .ok v → SymNum m r v := by
  intro e
  induction e with
  | notSet i => intro r v _ h; cases h
  | boolConst i b =>
    intro r v _ h h'
    cases h
    simp only [evalP, chkP_ok, Res.ok.injEq] at h'
    obtain ⟨rfl, _⟩ := h'
    rfl
  | intConst i s =>
    intro r v ha h h'
    obtain ⟨n, hn⟩ := ha
    simp only [evalSym, intVal_decimal hn, Res.ok_bind, Res.ok.injEq] at h
    simp only [evalP, chkP_ok, setStr_decimal hn, Res.ok.injEq] at h'
    obtain ⟨rfl, _⟩ := h'
    subst h
    rfl
  | key i n =>
    intro r v _ h h'
    simp only [evalSym, Res.bind_eq_ok] at h
    obtain ⟨k, hk, h⟩ := h
    cases h
    obtain ⟨t, v', ht, hv, hn⟩ := key_num hE (findPtr_ok.1 hk)
    simp only [evalP, chkP_ok, ht, hv, Res.ok.injEq] at h'
    obtain ⟨rfl, _⟩ := h'
    exact hn
  | actionParam i n => intro r v _ h; cases h
  | attr i n =>
    intro r v _ h h'
    simp only [evalSym, Res.bind_eq_ok] at h
    obtain ⟨z, hz, h⟩ := h
    cases h
    obtain ⟨rfl, t, rfl, hp⟩ := hE.attr n z (findPtr_ok.1 hz)
    unfold envOf at hp
    split at hp
    · rename_i x hx
      simp only [evalP, chkP_ok, hx, if_true, Res.ok.injEq] at h'
      obtain ⟨rfl, _⟩ := h'
      simp only [Option.some.injEq] at hp
      exact hp.symm
    · cases hp
  | boolNeg i e ih =>
    intro r v ha h h'
    simp only [evalSym, Res.bind_eq_ok, symToExpr_val] at h
    obtain ⟨z, hz, z', hz', h⟩ := h
    cases h
    simp only [evalP, chkP_ok, Res.bind_eq_ok, toBoolP_ok, Res.ok.injEq] at h'
    obtain ⟨⟨b, hb, rfl⟩, _⟩ := h'
    obtain ⟨t, rfl, ht⟩ := symNum_bool (ih ha.2 hz hb)
    cases hz'
    show (!_) = _
    rw [ht]
  | arithNeg i e ih =>
    intro r v ha h h'
    simp only [evalSym, Res.bind_eq_ok, symToExpr_val] at h
    obtain ⟨z, hz, z', hz', h⟩ := h
    cases h
    simp only [evalP, chkP_ok, Res.bind_eq_ok, toIntP_ok, Res.ok.injEq] at h'
    obtain ⟨⟨b, hb, rfl⟩, _⟩ := h'
    obtain ⟨_, hx, hn⟩ := symNum_int (ih ha.2 hz hb)
    cases hx
    obtain ⟨s, t⟩ := z
    cases s with
    | bool => exact hn.elim
    | int =>
      cases hz'
      simp only [TermNum] at hn
      simp only [SymNum, TermNum, Term.den, hn]
    | bv w => exact (ha.1 w (evalSym_sorted hK hA hI hz)).elim
  | typeCast i e ih =>
    intro r v ha h h'
    simp only [evalSym, Res.bind_eq_ok, symToExpr_val] at h
    obtain ⟨z, hz, h⟩ := h
    simp only [evalP, chkP_ok, Res.bind_eq_ok] at h'
    obtain ⟨⟨x, hx, hc⟩, _⟩ := h'
    have hn := ih ha.2 hz hx
    unfold castValue at hc
    split at hc
    · rename_i n
      obtain ⟨_, hx, hn⟩ := symNum_int hn
      cases hx
      unfold symCast at h
      simp only [Res.bind_eq_ok] at h
      obtain ⟨w, hw, h⟩ := h
      generalize i.ty = t at h hc hw
      cases t <;> simp only [typeBitwidthOrStatus, typeBitwidth] at hw <;>
        first | (cases hw; done) | skip
      all_goals
        cases hw
        dsimp only at h hc
      · obtain ⟨s, t⟩ := z
        cases s <;> simp only [Z3Expr.int2bv, Res.bind_eq_ok] at h
        all_goals obtain ⟨y, hy, h⟩ := h
        · cases hy
        · split at hy
          · cases hy
          · rename_i hw
            cases hy
            cases h
            simp only [TermNum] at hn
            subst hn
            unfold shl1 at hc
            rw [if_neg (by omega)] at hc
            simp only [Res.ok_bind, tmod_fix _ _ (pow_pos' _), Res.ok.injEq] at hc
            subst hc
            simp only [SymNum, TermNum, Term.den, BitVec.toNat_ofInt]
            have := Int.emod_nonneg (t.den m : Int) (b := 2 ^ w.toNat) (by have := pow_pos' w.toNat; omega)
            push_cast
            omega
        · cases hy
      all_goals first
        | (cases h; done)
        | (cases h
           cases hc
           first | exact symNum_of_term hn | exact ⟨hn, rfl⟩)
        | (simp only [Res.bind_eq_ok] at h hc
           obtain ⟨y, hy, h⟩ := h
           obtain ⟨d, hd, hc⟩ := hc
           cases h
           cases hc
           unfold bvAllOnes at hy
           split at hy
           · cases hy
           · rename_i hw
             cases hy
             unfold shl1 at hd
             rw [if_neg (by omega)] at hd
             cases hd
             refine ⟨hn, ?_⟩
             simp only [TermNum, Term.den, BitVec.toNat_allOnes]
             have := Nat.pow_pos (n := w.toNat) (show 0 < 2 by decide)
             rw [Int.natCast_sub (by omega)]
             push_cast
             rfl)
    · exact (rtError_ne_ok.1 hc).elim
  | field i e f ih =>
    intro r v ha h h'
    obtain ⟨⟨j, n, rfl⟩, _⟩ := ha
    simp only [evalSym, Res.bind_eq_ok, protoKey] at h
    obtain ⟨k, hk, z, hz, h⟩ := h
    cases h
    obtain ⟨t, v', ht, hv, hn⟩ := key_num hE (findPtr_ok.1 hk)
    simp only [evalP, chkP_ok, ht, hv, Res.bind_eq_ok, Res.ok.injEq] at h'
    obtain ⟨⟨y, ⟨rfl, _⟩, h'⟩, _⟩ := h'
    cases k <;> cases v' <;> simp only [SymNum] at hn <;> simp only [getFieldAccess, evalFieldAccess] at hz h' <;> grind [SymNum, rtError_ne_ok]
  | bin i op l r ihl ihr =>
    intro x v ha h h'
    simp only [evalSym, Res.bind_eq_ok] at h
    obtain ⟨a, hl, b, hr, z, hz, h⟩ := h
    cases h
    by_cases ho : op = .eq ∨ op = .ne
    · obtain ⟨p, q, hp, hq, rfl⟩ := evalP_parts_eq ho h'
      obtain ⟨t, rfl, ht⟩ := symBin_num ho (ihl ha.2.1 hl hp) (ihr ha.2.2 hr hq) hz
      exact ht
    by_cases ho : IsOrdered op
    · obtain ⟨p, q, hp, hq, rfl⟩ := evalP_parts_ord ho h'
      obtain ⟨a, rfl, hna⟩ := symNum_int (ihl ha.2.1 hl hp)
      obtain ⟨b, rfl, hnb⟩ := symNum_int (ihr ha.2.2 hr hq)
      obtain ⟨t, rfl, ht⟩ := termNum_ord ho hna hnb (fun w hw => ha.1 ho w (by
        have := evalSym_sorted hK hA hI hl
        simp only [resForm, hw] at this
        exact this) p q (finds_evalP.2 hp) (finds_evalP.2 hq)) hz
      exact ht
    have hc : op = .and ∨ op = .or ∨ op = .implies := by
      cases op <;> simp [IsOrdered] at *
      simp [evalP, chkP_ok] at h'
    obtain ⟨p, hp, hcase⟩ := evalP_parts_conn hc h'
    have hna := ihl ha.2.1 hl hp
    obtain ⟨t, u, w, rfl, rfl, rfl, ht⟩ := symConn_num hc hz m hna
    have hu : u.den m = p := hna
    rcases hcase with ⟨rfl, rfl, rfl⟩ | ⟨rfl, rfl, rfl⟩ | ⟨rfl, rfl, rfl⟩ | ⟨hiff, q, hq, rfl⟩
    · show _ = _
      rw [ht]; simp [hu]
    · show _ = _
      rw [ht]; simp [hu]
    · show _ = _
      rw [ht]; simp [hu]
    · have hnb : w.den m = q := ihr ha.2.2 hr hq
      show _ = _
      rw [ht, hu, hnb]
      rcases hc with rfl | rfl | rfl <;> cases p <;> simp_all

end

/-- The constraint of a table does not matter for reading entries. -/
theorem parseMatches_constraint {ti : TableInfo} {c : Option Expr} : ∀ (fms : List FieldMatch) (keys : List (Str × Value)),
    parseMatches { ti with constraint := c } keys fms = parseMatches ti keys fms
  | [], _ => rfl
  | fm :: fms, keys => by
    unfold parseMatches
    have : parseKey fm { ti with constraint := c } = parseKey fm ti := rfl
    rw [this]
    cases parseKey fm ti with
    | ok r =>
      simp only [Res.ok_bind]
      cases insertNew r.1 r.2 keys with
      | none => rfl
      | some ks => exact parseMatches_constraint fms ks
    | err e => rfl
    | crash => rfl
    | oof => rfl

theorem parseTableEntry_constraint {ti : TableInfo} {c : Option Expr} (entry : RtEntry) :
    parseTableEntry entry { ti with constraint := c } = parseTableEntry entry ti := by
  unfold parseTableEntry
  rw [parseMatches_constraint]

end P4C
