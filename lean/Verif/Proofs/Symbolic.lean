import Verif.Proofs.Eval
import Verif.Proofs.Bytes
import Verif.Spec.Symbolic
import Verif.Spec.Signed

/-
The formulas built by the symbolic interpreter, against the meaning of the language.
-/

namespace P4C

open Spec

theorem Spec.SymVal.unique {m : Interp} {t : Ty} {r : SymResult} {v w : Value} (h : SymVal m t r v) (h' : SymVal m t r w) :
    v = w := by
  cases h <;> cases h' <;> rfl

theorem intVal_decimal {s : Str} {n : Nat} (h : decimal? s = some n) : intVal s = .ok ⟨.int, .intVal n⟩ := by
  have hv : digitsVal 0 s = some n ∧ s ≠ [] := by
    unfold decimal? at h
    split at h
    · cases h
    · rename_i hne
      exact ⟨h, hne⟩
  have hc := digitsVal_cstr hv.1
  have hset := setStr_decimal h
  have hall : ∀ (s : Str) (acc n : Nat), digitsVal acc s = some n → (s.all fun c => 48 ≤ c.toNat && c.toNat ≤ 57) = true := by
    intro s
    induction s with
    | nil => intros; rfl
    | cons c cs ih =>
      intro acc n h
      simp only [digitsVal, Option.bind_eq_some_iff] at h
      obtain ⟨d, hd, h⟩ := h
      obtain ⟨h1, h2, _⟩ := digit?_some hd
      simp only [List.all_cons, ih _ _ h, Bool.and_true, Bool.and_eq_true, decide_eq_true_eq]
      exact ⟨h1, h2⟩
  have hdec : isDecimalNat s = true := by
    unfold isDecimalNat
    rw [hall s 0 n hv.1, Bool.and_true]
    cases s with
    | nil => exact (hv.2 rfl).elim
    | cons => rfl
  have hm : ∀ cs, s ≠ '-' :: cs := by
    rintro cs rfl
    have := hall _ 0 n hv.1
    simp at this
  unfold intVal
  rw [hc]
  dsimp only
  cases s with
  | nil => exact (hv.2 rfl).elim
  | cons c cs =>
    have : c ≠ '-' := fun h => hm cs (by rw [h])
    split
    · rename_i heq
      injection heq with h1 _
      exact (this h1).elim
    · rw [if_pos hdec, hset]

/-! ### Conversions -/

theorem symCast_bit {m : Interp} {w : Int} (hw : 0 < w) (t : Term .int) :
    ∃ r, symCast ⟨.int, t⟩ (.fixedUnsigned w) = .ok r ∧ SymVal m (.fixedUnsigned w) r (.int (t.den m % 2 ^ w.toNat)) := by
  refine ⟨.expr ⟨.bv w.toNat, .int2bv w.toNat t⟩, ?_, ?_⟩
  · simp only [symCast, typeBitwidthOrStatus, typeBitwidth, Res.ok_bind, Z3Expr.int2bv]
    rw [if_neg (by omega)]
    rfl
  · have := SymVal.bit (m := m) w (.int2bv w.toNat t)
    have e : (((Term.int2bv w.toNat t).den m : BitVec w.toNat).toNat : Int) = t.den m % 2 ^ w.toNat := by
      show ((BitVec.ofInt w.toNat (t.den m)).toNat : Int) = _
      rw [BitVec.toNat_ofInt]
      have hp : (0 : Int) < 2 ^ w.toNat := pow_pos' _
      have h1 := Int.emod_nonneg (t.den m : Int) (b := 2 ^ w.toNat) (by omega)
      have h2 : ((2 ^ w.toNat : Nat) : Int) = 2 ^ w.toNat := by simp
      rw [h2]
      omega
    rw [e] at this
    exact this

theorem symCast_match {m : Interp} {w : Int} (hw : 0 < w) (t : Term (.bv w.toNat)) {u : Ty}
    (hu : strictlyAbove u (.fixedUnsigned w) = true) (hr : ∀ x, u ≠ .range x) :
    ∃ r, symCast ⟨.bv w.toNat, t⟩ u = .ok r ∧ SymVal m u r (exactMatch u ((t.den m : BitVec w.toNat).toNat : Nat)) := by
  have hones : (((Term.bvVal (BitVec.allOnes w.toNat)).den m : BitVec w.toNat).toNat : Int) = 2 ^ w.toNat - 1 := by
    show ((BitVec.allOnes w.toNat).toNat : Int) = _
    rw [BitVec.toNat_allOnes]
    have : 0 < 2 ^ w.toNat := Nat.pow_pos (by decide)
    have h2 : ((2 ^ w.toNat : Nat) : Int) = 2 ^ w.toNat := by simp
    omega
  cases u with
  | exact x =>
    simp [strictlyAbove, typeBitwidth] at hu
    subst hu
    exact ⟨_, rfl, .exact _ _⟩
  | ternary x =>
    simp [strictlyAbove, typeBitwidth] at hu
    subst hu
    refine ⟨.key (.ternary ⟨.bv x.toNat, t⟩ ⟨.bv x.toNat, .bvVal (BitVec.allOnes x.toNat)⟩), ?_, ?_⟩
    · simp only [symCast, typeBitwidthOrStatus, typeBitwidth, Res.ok_bind, bvAllOnes]
      rw [if_neg (by omega)]
      rfl
    · have := SymVal.ternary (m := m) x t (.bvVal (BitVec.allOnes x.toNat))
      rw [hones] at this
      exact this
  | optionalMatch x =>
    simp [strictlyAbove, typeBitwidth] at hu
    subst hu
    refine ⟨.key (.ternary ⟨.bv x.toNat, t⟩ ⟨.bv x.toNat, .bvVal (BitVec.allOnes x.toNat)⟩), ?_, ?_⟩
    · simp only [symCast, typeBitwidthOrStatus, typeBitwidth, Res.ok_bind, bvAllOnes]
      rw [if_neg (by omega)]
      rfl
    · have := SymVal.optional (m := m) x t (.bvVal (BitVec.allOnes x.toNat))
      rw [hones] at this
      exact this
  | lpm x =>
    simp [strictlyAbove, typeBitwidth] at hu
    subst hu
    exact ⟨_, rfl, .lpm x t (.intVal x)⟩
  | range x => exact (hr x rfl).elim
  | _ => simp [strictlyAbove] at hu

theorem symCast_range (z : Z3Expr) (x : Int) : symCast z (.range x) = .err .unimplemented := rfl

theorem evalSym_typeCast (src : ConstraintSource) (env : SymEnv) (i : Info) (e : Expr) :
    evalSym src env (.typeCast i e) = symToExpr src e (evalSym src env e) >>= fun z => symCast z i.ty := rfl

/-- Conversion of a symbolic value. -/
theorem evalSym_cast {m : Interp} {src : ConstraintSource} {env : SymEnv} {e : Expr} {t : Ty} {r : SymResult} {v : Value}
    (hc : CastsTo e.ty t) (hp : PosWidth t) (h : evalSym src env e = .ok r) (hv : SymVal m e.ty r v) :
    (∃ x, t = .range x ∧ e.ty ≠ t ∧ evalSym src env (castTransitivelyTo e t) = .err .unimplemented) ∨
    ∃ r', evalSym src env (castTransitivelyTo e t) = .ok r' ∧ SymVal m t r' (convert e.ty t v) := by
  rw [castsTo_iff] at hc
  rcases hc with hc | hc
  · subst hc
    refine .inr ⟨r, ?_, ?_⟩
    · simp [castTransitivelyTo, castIntStep, strictlyAbove_irrefl, h]
    · rw [convert_refl]
      exact hv
  · have hne : e.ty ≠ t := by
      intro he
      rw [he, strictlyAbove_irrefl] at hc
      cases hc
    cases hty : e.ty with
    | arbitraryInt =>
      rw [hty] at hv hc hne
      cases hv with
      | int a =>
      -- the first step
      have hw : ∃ w, typeBitwidth t = some w ∧ 0 < w := by
        cases t <;> simp [strictlyAbove] at hc <;> exact ⟨_, rfl, hp⟩
      obtain ⟨w, hw, hw0⟩ := hw
      obtain ⟨r1, hr1, hv1⟩ := symCast_bit (m := m) hw0 a
      have h1 : castIntStep e t = wrapWithCast e (.fixedUnsigned w) := by
        unfold castIntStep
        rw [hty, if_pos ⟨hc, rfl⟩, hw]
        rfl
      have h2 : evalSym src env (wrapWithCast e (.fixedUnsigned w)) = .ok r1 := by
        unfold wrapWithCast
        rw [evalSym_typeCast, h]
        exact hr1
      by_cases ht : ∃ x, t = .fixedUnsigned x
      · obtain ⟨x, rfl⟩ := ht
        cases hw
        refine .inr ⟨r1, ?_, ?_⟩
        · unfold castTransitivelyTo
          dsimp only
          rw [h1, if_neg]
          · exact h2
          · rintro ⟨hs, _⟩
            cases hs
        · unfold convert
          rw [if_neg hne]
          exact hv1
      · have hs : strictlyAbove t (.fixedUnsigned w) = true := by
          cases t <;> simp [strictlyAbove] at hc <;> simp [strictlyAbove]
          all_goals first | exact hw | exact (ht ⟨_, rfl⟩).elim
        have h3 : castTransitivelyTo e t = wrapWithCast (wrapWithCast e (.fixedUnsigned w)) t := by
          unfold castTransitivelyTo
          dsimp only
          rw [h1, if_pos ⟨hs, rfl⟩]
        have hv1' := hv1
        generalize t0 : Value.int (Term.den m a % 2 ^ w.toNat) = v0 at hv1
        cases hv1 with
        | bit _ b =>
        have h4 : evalSym src env (castTransitivelyTo e t) = symCast ⟨.bv w.toNat, b⟩ t := by
          rw [h3]
          show evalSym src env (.typeCast ⟨_, _, t⟩ _) = _
          rw [evalSym_typeCast, h2]
          rfl
        by_cases hrange : ∃ x, t = .range x
        · obtain ⟨x, rfl⟩ := hrange
          exact .inl ⟨x, rfl, hne, by rw [h4, symCast_range]⟩
        · obtain ⟨r2, hr2, hv2⟩ := symCast_match (m := m) hw0 b hs fun x hx => hrange ⟨x, hx⟩
          refine .inr ⟨r2, by rw [h4, hr2], ?_⟩
          unfold convert
          rw [if_neg hne]
          have hval : ∀ z : Int, SymVal m (.fixedUnsigned w) (.expr ⟨.bv w.toNat, b⟩) (.int z) →
              z = ((b.den m : BitVec w.toNat).toNat : Nat) := by
            intro z hz
            have := hz.unique (.bit w b)
            injection this
          rw [← hval _ hv1'] at hv2
          cases t <;> simp [strictlyAbove] at hc <;> cases hw <;> first | exact hv2 | exact (ht ⟨_, rfl⟩).elim
    | fixedUnsigned w =>
      rw [hty] at hv hc hne
      cases hv with
      | bit _ b =>
      have hw : typeBitwidth t = some w := by
        cases t <;> simp [strictlyAbove, typeBitwidth] at hc ⊢ <;> exact hc
      have hw0 : 0 < w := by
        cases t <;> cases hw <;> exact hp
      have h1 : castIntStep e t = e := by
        unfold castIntStep
        rw [hty, if_neg]
        rintro ⟨_, h⟩
        cases h
      have h3 : castTransitivelyTo e t = wrapWithCast e t := by
        unfold castTransitivelyTo
        dsimp only
        rw [h1, hty, if_pos ⟨hc, rfl⟩]
      have h4 : evalSym src env (castTransitivelyTo e t) = symCast ⟨.bv w.toNat, b⟩ t := by
        rw [h3]
        show evalSym src env (.typeCast ⟨_, _, t⟩ _) = _
        rw [evalSym_typeCast, h]
        rfl
      by_cases hrange : ∃ x, t = .range x
      · obtain ⟨x, rfl⟩ := hrange
        exact .inl ⟨x, rfl, hne, by rw [h4, symCast_range]⟩
      · obtain ⟨r2, hr2, hv2⟩ := symCast_match (m := m) hw0 b hc fun x hx => hrange ⟨x, hx⟩
        refine .inr ⟨r2, by rw [h4, hr2], ?_⟩
        unfold convert
        rw [if_neg hne]
        exact hv2
    | _ => rw [hty] at hc; cases t <;> simp [strictlyAbove] at hc

/-! ### Operators -/

/-- The operator of syntax trees for a comparison. -/
def cmpOp : Cmp → BinOp
  | .eq => .eq | .ne => .ne | .lt => .lt | .le => .le | .gt => .gt | .ge => .ge

/-- The operator of syntax trees for a connective. -/
def connOp : Conn → BinOp
  | .and => .and | .or => .or | .implies => .implies

theorem sameSort_self {α : Type} {s : Srt} (x y : Term s) (f : (s : Srt) → Term s → Term s → Res α) :
    Z3Expr.sameSort ⟨s, x⟩ ⟨s, y⟩ f = f s x y := by
  unfold Z3Expr.sameSort
  rw [dif_pos rfl]

theorem den_eq {m : Interp} {s : Srt} (x y : Term s) : (Term.eq x y).den m = true ↔ x.den m = y.den m := by
  cases s <;> simp [Term.den]

theorem den_ne {m : Interp} {s : Srt} (x y : Term s) : (Term.ne x y).den m = true ↔ x.den m ≠ y.den m := by
  cases s <;> simp [Term.den]

theorem toNat_cast_inj {n : Nat} {x y : BitVec n} : ((x.toNat : Int) = (y.toNat : Int)) ↔ x = y := by
  rw [Int.natCast_inj, BitVec.toNat_inj]

theorem twos_toInt (w : Int) (x : BitVec w.toNat) : twos (.fixedUnsigned w) (x.toNat : Int) = x.toInt ∧
    twos (.exact w) (x.toNat : Int) = x.toInt := by
  have e2 : ((2 ^ w.toNat : Nat) : Int) = 2 ^ w.toNat := by simp
  rw [BitVec.toInt_eq_toNat_cond]
  unfold twos
  simp only [← e2]
  constructor <;> (split <;> split <;> omega)

theorem some_decide {p : Prop} [Decidable p] {b : Bool} (h : p ↔ b = true) : some (decide p) = some b := by
  rw [Option.some_inj, ← Bool.coe_iff_coe, decide_eq_true_eq]
  exact h

/-- Comparisons of results of the same type. -/
theorem symBin_cmp {m : Interp} {o : Cmp} {t : Ty} {a b : SymResult} {v w : Value} (ha : SymVal m t a v)
    (hb : SymVal m t b w) (ho : o.isOrder = true → Ordered t) :
    ∃ z : Term .bool, symBin (cmpOp o) a b = .ok ⟨.bool, z⟩ ∧ compareSigned t o v w = some (z.den m) := by
  have hsimple : ∀ {s : Srt} (x y : Term s) {v w : Value}, (v = w ↔ x.den m = y.den m) →
      (o = .eq ∨ o = .ne) → ∃ z : Term .bool, symBinExpr (cmpOp o) ⟨s, x⟩ ⟨s, y⟩ = .ok ⟨.bool, z⟩ ∧
        compareSigned t o v w = some (z.den m) := by
    intro s x y v w hvw ho
    rcases ho with rfl | rfl
    · refine ⟨.eq x y, by simp [cmpOp, symBinExpr, Z3Expr.eq, sameSort_self], ?_⟩
      exact some_decide (by rw [den_eq, hvw])
    · refine ⟨.ne x y, by simp [cmpOp, symBinExpr, Z3Expr.ne, sameSort_self], ?_⟩
      exact some_decide (by rw [den_ne, ne_eq, ne_eq, hvw])
  have hpair : ∀ {s s' : Srt} (x y : Term s) (x' y' : Term s') {v w : Value},
      (v = w ↔ x.den m = y.den m ∧ x'.den m = y'.den m) →
      (o = .eq ∨ o = .ne) → ∃ z : Term .bool, symBinPair (cmpOp o) ⟨s, x⟩ ⟨s', x'⟩ ⟨s, y⟩ ⟨s', y'⟩ = .ok ⟨.bool, z⟩ ∧
        compareSigned t o v w = some (z.den m) := by
    intro s s' x y x' y' v w hvw ho
    rcases ho with rfl | rfl
    · refine ⟨.and (.eq x y) (.eq x' y'), ?_, ?_⟩
      · simp [symBinPair, cmpOp, symBinExpr, Z3Expr.eq, sameSort_self, Z3Expr.and, Z3Expr.conn, Z3Expr.asBool]
      · refine some_decide ?_
        show _ ↔ ((Term.eq x y).den m && (Term.eq x' y').den m) = true
        rw [Bool.and_eq_true, den_eq, den_eq, hvw]
    · refine ⟨.or (.ne x y) (.ne x' y'), ?_, ?_⟩
      · simp [symBinPair, cmpOp, symBinExpr, Z3Expr.ne, sameSort_self, Z3Expr.or, Z3Expr.conn, Z3Expr.asBool]
      · refine some_decide ?_
        show _ ↔ ((Term.ne x y).den m || (Term.ne x' y').den m) = true
        rw [Bool.or_eq_true, den_ne, den_ne, ne_eq, hvw]
        constructor
        · intro h
          by_cases h' : x.den m = y.den m
          · exact .inr fun h'' => h ⟨h', h''⟩
          · exact .inl h'
        · rintro (h | h) ⟨h1, h2⟩
          · exact h h1
          · exact h h2
  have hcases : (o = .eq ∨ o = .ne) ∨ o.isOrder = true := by cases o <;> simp [Cmp.isOrder]
  rcases hcases with hc | hc
  · cases ha with
    | bool x => cases hb with | bool y => exact hsimple x y (by simp) hc
    | int x => cases hb with | int y => exact hsimple x y (by simp) hc
    | bit n x => cases hb with | bit _ y => exact hsimple x y (by simp only [Value.int.injEq]; exact toNat_cast_inj) hc
    | exact n x =>
      cases hb with | exact _ y => exact hsimple x y (by simp only [Value.exact.injEq]; exact toNat_cast_inj) hc
    | ternary n x x' =>
      cases hb with
      | ternary _ y y' =>
        exact hpair x y x' y'
          (by simp only [Value.ternary.injEq]; exact and_congr toNat_cast_inj toNat_cast_inj) hc
    | optional n x x' =>
      cases hb with
      | optional _ y y' =>
        exact hpair x y x' y'
          (by simp only [Value.ternary.injEq]; exact and_congr toNat_cast_inj toNat_cast_inj) hc
    | lpm n x x' =>
      cases hb with
      | lpm _ y y' =>
        exact hpair x y x' y' (by simp only [Value.lpm.injEq]; exact and_congr toNat_cast_inj Iff.rfl) hc
  · have ho := ho hc
    cases ha with
    | int x =>
      cases hb with
      | int y =>
        cases o <;> simp [Cmp.isOrder] at hc
        · exact ⟨.lt x y, by simp [symBin, cmpOp, symBinExpr, Z3Expr.lt, Z3Expr.cmp, sameSort_self], rfl⟩
        · exact ⟨.le x y, by simp [symBin, cmpOp, symBinExpr, Z3Expr.le, Z3Expr.cmp, sameSort_self], rfl⟩
        · exact ⟨.gt x y, by simp [symBin, cmpOp, symBinExpr, Z3Expr.gt, Z3Expr.cmp, sameSort_self], rfl⟩
        · exact ⟨.ge x y, by simp [symBin, cmpOp, symBinExpr, Z3Expr.ge, Z3Expr.cmp, sameSort_self], rfl⟩
    | bit n x =>
      cases hb with
      | bit _ y =>
        cases o <;> simp [Cmp.isOrder] at hc
        · refine ⟨.slt x y, by simp [symBin, cmpOp, symBinExpr, Z3Expr.lt, Z3Expr.cmp, sameSort_self], ?_⟩
          refine some_decide ?_
          show _ ↔ decide (_ < _) = true
          rw [(twos_toInt n _).1, (twos_toInt n _).1, decide_eq_true_eq]
        · refine ⟨.sle x y, by simp [symBin, cmpOp, symBinExpr, Z3Expr.le, Z3Expr.cmp, sameSort_self], ?_⟩
          refine some_decide ?_
          show _ ↔ decide (_ ≤ _) = true
          rw [(twos_toInt n _).1, (twos_toInt n _).1, decide_eq_true_eq]
        · refine ⟨.sgt x y, by simp [symBin, cmpOp, symBinExpr, Z3Expr.gt, Z3Expr.cmp, sameSort_self], ?_⟩
          refine some_decide ?_
          show _ ↔ decide (_ < _) = true
          rw [(twos_toInt n _).1, (twos_toInt n _).1, decide_eq_true_eq]
        · refine ⟨.sge x y, by simp [symBin, cmpOp, symBinExpr, Z3Expr.ge, Z3Expr.cmp, sameSort_self], ?_⟩
          refine some_decide ?_
          show _ ↔ decide (_ ≤ _) = true
          rw [(twos_toInt n _).1, (twos_toInt n _).1, decide_eq_true_eq]
    | exact n x =>
      cases hb with
      | exact _ y =>
        cases o <;> simp [Cmp.isOrder] at hc
        · refine ⟨.slt x y, by simp [symBin, cmpOp, symBinExpr, Z3Expr.lt, Z3Expr.cmp, sameSort_self], ?_⟩
          refine some_decide ?_
          show _ ↔ decide (_ < _) = true
          rw [(twos_toInt n _).2, (twos_toInt n _).2, decide_eq_true_eq]
        · refine ⟨.sle x y, by simp [symBin, cmpOp, symBinExpr, Z3Expr.le, Z3Expr.cmp, sameSort_self], ?_⟩
          refine some_decide ?_
          show _ ↔ decide (_ ≤ _) = true
          rw [(twos_toInt n _).2, (twos_toInt n _).2, decide_eq_true_eq]
        · refine ⟨.sgt x y, by simp [symBin, cmpOp, symBinExpr, Z3Expr.gt, Z3Expr.cmp, sameSort_self], ?_⟩
          refine some_decide ?_
          show _ ↔ decide (_ < _) = true
          rw [(twos_toInt n _).2, (twos_toInt n _).2, decide_eq_true_eq]
        · refine ⟨.sge x y, by simp [symBin, cmpOp, symBinExpr, Z3Expr.ge, Z3Expr.cmp, sameSort_self], ?_⟩
          refine some_decide ?_
          show _ ↔ decide (_ ≤ _) = true
          rw [(twos_toInt n _).2, (twos_toInt n _).2, decide_eq_true_eq]
    | bool => cases ho
    | ternary => cases ho
    | optional => cases ho
    | lpm => cases ho

/-- Connectives. -/
theorem symBin_conn {m : Interp} (o : Conn) (a b : Term .bool) :
    ∃ z : Term .bool, symBin (connOp o) (.expr ⟨.bool, a⟩) (.expr ⟨.bool, b⟩) = .ok ⟨.bool, z⟩ ∧
      z.den m = o.apply (a.den m) (b.den m) := by
  cases o
  · exact ⟨.and a b, rfl, rfl⟩
  · exact ⟨.or a b, rfl, rfl⟩
  · exact ⟨.implies a b, rfl, rfl⟩

/-- Field accesses. -/
theorem getFieldAccess_val {m : Interp} {a t : Ty} {f : Str} {k : SymKey} {v : Value} (hf : FieldTy a f t)
    (hk : SymVal m a (.key k) v) :
    ∃ z x, getFieldAccess k f = .ok z ∧ FieldVal v f x ∧ SymVal m t (.expr z) (.int x) := by
  cases hf <;> cases hk
  · exact ⟨_, _, rfl, .exactValue _, .bit _ _⟩
  · exact ⟨_, _, rfl, .ternaryValue _ _, .bit _ _⟩
  · exact ⟨_, _, rfl, .ternaryMask _ _, .bit _ _⟩
  · exact ⟨_, _, rfl, .ternaryValue _ _, .bit _ _⟩
  · exact ⟨_, _, rfl, .ternaryMask _ _, .bit _ _⟩
  · exact ⟨_, _, rfl, .lpmValue _ _, .bit _ _⟩
  · exact ⟨_, _, rfl, .lpmPrefix _ _, .int _⟩

/-! ### Formulas and their meaning -/

theorem hasTy_composite {Γ : Sig} {s : SExpr} {a t : Ty} {f : Str} (h : HasTy Γ s a) (hf : FieldTy a f t) :
    (∃ n, s = .key n) ∨ ∃ n, s = .param n := by
  cases h with
  | key => exact .inl ⟨_, rfl⟩
  | param => exact .inr ⟨_, rfl⟩
  | field _ h => cases h <;> cases hf
  | _ => cases hf

theorem evalSym_cast_err {src : ConstraintSource} {env : SymEnv} {e : Expr} {t : Ty} {c : Code}
    (h : evalSym src env e = .err c) : evalSym src env (castTransitivelyTo e t) = .err c := by
  have hw : ∀ {e : Expr} {t : Ty}, evalSym src env e = .err c → evalSym src env (wrapWithCast e t) = .err c := by
    intro e t h
    unfold wrapWithCast
    rw [evalSym_typeCast, h]
    rfl
  have h1 : evalSym src env (castIntStep e t) = .err c := by
    unfold castIntStep
    split
    · exact hw h
    · exact h
  unfold castTransitivelyTo
  dsimp only
  split
  · exact hw h1
  · exact h1

theorem symVal_not_range {m : Interp} {t : Ty} {r : SymResult} {v : Value} (h : SymVal m t r v) (x : Int) :
    t ≠ .range x := by
  cases h <;> nofun

/-- The result of the symbolic interpreter on a type-checked constraint. -/
theorem evalSym_means {m : Interp} {src src' : ConstraintSource} {sc : Scope} {env : SymEnv} {ρ : Env} {e e' : Expr}
    {s : SExpr} (hE : EnvCorr m (sigOf sc) env ρ) (h : inferAndCheck src sc e = .ok e') (ha : abs e = some s) :
    (Known env s → ∃ r v, evalSym src' env e' = .ok r ∧ SymVal m e'.ty r v ∧ PosWidth e'.ty ∧
      SignedMeans (sigOf sc) ρ s e'.ty v) ∧
    ((∀ n t, (sigOf sc).key n = some t → PosWidth t) → (∀ n t, (sigOf sc).param n = some t → PosWidth t) →
      PosWidth e'.ty ∧
      (¬ Known env s → evalSym src' env e' = .err .notFound ∨ evalSym src' env e' = .err .unimplemented)) := by
  induction e generalizing e' s with
  | notSet i => simp [abs] at ha
  | typeCast i e => simp [abs] at ha
  | boolConst i b =>
    simp [abs] at ha; subst ha; simp [inferAndCheck] at h; subst h
    exact ⟨fun _ => ⟨_, _, rfl, .bool _, trivial, .bool _⟩, fun _ _ => ⟨trivial, fun hk => (hk trivial).elim⟩⟩
  | intConst i n =>
    simp [abs] at ha; obtain ⟨z, hz, rfl⟩ := ha; simp [inferAndCheck] at h; subst h
    refine ⟨fun _ => ⟨.expr ⟨.int, .intVal z⟩, .int z, ?_, .int _, trivial, .int _⟩,
      fun _ _ => ⟨trivial, fun hk => (hk trivial).elim⟩⟩
    simp only [evalSym, intVal_decimal hz, Res.ok_bind]
  | key i n =>
    have hty := infer_sound h ha
    simp [abs] at ha; subst ha
    cases hty with
    | key hk hs =>
    have he' : ∃ i', e' = .key i' n := by
      cases sc with
      | action => simp [sigOf] at hk
      | table ks =>
        simp only [inferAndCheck] at h
        split at h
        · simp [quotingError_ne_ok] at h
        · split at h
          · simp [quotingError_ne_ok] at h
          · exact ⟨_, (Res.ok.inj h).symm⟩
    obtain ⟨i', rfl⟩ := he'
    constructor
    · intro hn
      obtain ⟨k, hkk⟩ : ∃ k, lookup n env.keys = some k := by
        simpa [Known, NamesIn, hasKey, Option.isSome_iff_exists] using hn
      obtain ⟨t, v, h1, h2, h3, h4⟩ := hE.key n k hkk
      rw [hk] at h1
      cases h1
      refine ⟨.key k, v, ?_, h4, h3, .key hk h2⟩
      simp only [evalSym, findPtrOrStatus, hkk, Res.ok_bind]
    · intro hp _
      refine ⟨hp _ _ hk, fun hn => .inl ?_⟩
      have : lookup n env.keys = none := by
        simpa [Known, NamesIn, hasKey] using hn
      simp only [evalSym, findPtrOrStatus, this, Res.err_bind]
  | actionParam i n =>
    have hty := infer_sound h ha
    simp [abs] at ha; subst ha
    cases hty with
    | param hk hs =>
    have he' : ∃ i', e' = .actionParam i' n := by
      cases sc with
      | table => simp [sigOf] at hk
      | action ks =>
        simp only [inferAndCheck] at h
        split at h
        · simp [quotingError_ne_ok] at h
        · split at h
          · simp [quotingError_ne_ok] at h
          · exact ⟨_, (Res.ok.inj h).symm⟩
    obtain ⟨i', rfl⟩ := he'
    exact ⟨fun h => h.elim, fun _ hp => ⟨hp _ _ hk, fun _ => .inr rfl⟩⟩
  | attr i n =>
    have hty := infer_sound h ha
    simp [abs] at ha; subst ha
    generalize ht : e'.ty = t at hty
    cases hty with
    | priority =>
    simp [inferAndCheck, getAttributeInfo, illegalType] at h
    subst h
    constructor
    · intro hn
      obtain ⟨k, hkk⟩ : ∃ k, lookup c!"priority" env.attrs = some k := by
        simpa [Known, NamesIn, hasKey, Option.isSome_iff_exists] using hn
      obtain ⟨_, t, rfl, hp⟩ := hE.attr _ _ hkk
      refine ⟨.expr ⟨.int, t⟩, _, ?_, .int t, trivial, .priority hp⟩
      simp only [evalSym, findPtrOrStatus, hkk, Res.ok_bind]
    · intro _ _
      refine ⟨trivial, fun hn => .inl ?_⟩
      have : lookup c!"priority" env.attrs = none := by
        simpa [Known, NamesIn, hasKey] using hn
      simp only [evalSym, findPtrOrStatus, this, Res.err_bind]
  | boolNeg i e ih =>
    simp [abs] at ha; obtain ⟨s', ha, rfl⟩ := ha
    simp only [inferAndCheck, Res.bind_eq_ok] at h
    obtain ⟨e1, h1, h⟩ := h
    split at h
    · simp [quotingError_ne_ok] at h
    rename_i ht
    cases h
    simp only [ne_eq, Decidable.not_not] at ht
    obtain ⟨ih1, ih2⟩ := ih (s := s') h1 ha
    constructor
    · intro hn
      obtain ⟨r, v, hr, hv, _, hm⟩ := ih1 hn
      rw [ht] at hv hm
      cases hv with
      | bool t =>
      refine ⟨.expr ⟨.bool, .not t⟩, _, ?_, .bool (.not t), trivial, .not hm⟩
      simp only [evalSym, hr, symToExpr, Res.ok_bind, Z3Expr.not, Z3Expr.asBool]
    · intro hp hp'
      refine ⟨trivial, fun hn => ?_⟩
      rcases (ih2 hp hp').2 hn with hr | hr
      · exact .inl (by simp only [evalSym, hr, symToExpr, Res.err_bind])
      · exact .inr (by simp only [evalSym, hr, symToExpr, Res.err_bind])
  | arithNeg i e ih =>
    simp [abs] at ha; obtain ⟨s', ha, rfl⟩ := ha
    simp only [inferAndCheck, Res.bind_eq_ok] at h
    obtain ⟨e1, h1, h⟩ := h
    split at h
    · simp [quotingError_ne_ok] at h
    rename_i ht
    cases h
    simp only [ne_eq, Decidable.not_not] at ht
    obtain ⟨ih1, ih2⟩ := ih (s := s') h1 ha
    constructor
    · intro hn
      obtain ⟨r, v, hr, hv, _, hm⟩ := ih1 hn
      rw [ht] at hv hm
      cases hv with
      | int t =>
      refine ⟨.expr ⟨.int, .neg t⟩, _, ?_, .int (.neg t), trivial, .neg hm⟩
      simp only [evalSym, hr, symToExpr, Res.ok_bind, Z3Expr.neg]
    · intro hp hp'
      refine ⟨trivial, fun hn => ?_⟩
      rcases (ih2 hp hp').2 hn with hr | hr
      · exact .inl (by simp only [evalSym, hr, symToExpr, Res.err_bind])
      · exact .inr (by simp only [evalSym, hr, symToExpr, Res.err_bind])
  | field i e f ih =>
    simp [abs] at ha; obtain ⟨s', ha, rfl⟩ := ha
    simp only [inferAndCheck, Res.bind_eq_ok] at h
    obtain ⟨e1, h1, h⟩ := h
    split at h
    · simp [quotingError_ne_ok] at h
    rename_i t ht
    cases h
    have hft := fieldTy_iff.1 ht
    obtain ⟨ih1, ih2⟩ := ih (s := s') h1 ha
    have hty := infer_sound h1 ha
    -- the composite expression is a name
    have hname : (∃ i' n, s' = .key n ∧ e1 = .key i' n) ∨
        (∃ n, s' = .param n) ∧ lookup (protoKey e1) env.keys = none := by
      cases e with
      | key i' n =>
        left
        simp [abs] at ha; subst ha
        cases sc with
        | action => simp [inferAndCheck, quotingError_ne_ok] at h1
        | table ks =>
          simp only [inferAndCheck] at h1
          split at h1
          · simp [quotingError_ne_ok] at h1
          · split at h1
            · simp [quotingError_ne_ok] at h1
            · exact ⟨_, _, rfl, (Res.ok.inj h1).symm⟩
      | actionParam i' n =>
        right
        simp [abs] at ha; subst ha
        refine ⟨⟨n, rfl⟩, ?_⟩
        cases sc with
        | table => simp [inferAndCheck, quotingError_ne_ok] at h1
        | action ps =>
          cases hlk : lookup (protoKey e1) env.keys with
          | none => rfl
          | some k =>
            obtain ⟨_, _, hk, _⟩ := hE.key _ _ hlk
            cases hk
      | bin i' op l r =>
        simp only [abs, Option.bind_eq_some_iff] at ha
        obtain ⟨sl, _, sr, _, ha⟩ := ha
        rcases binop_cases ha with ⟨_, _, o, rfl, _⟩ | ⟨_, _, o, rfl, _, _⟩ <;>
          rcases hasTy_composite hty hft with ⟨n, h⟩ | ⟨n, h⟩ <;> cases h
      | _ =>
        simp [abs] at ha
        all_goals first | obtain ⟨_, _, rfl⟩ := ha | subst ha
        all_goals rcases hasTy_composite hty hft with ⟨n, h⟩ | ⟨n, h⟩ <;> cases h
    constructor
    · intro hn
      obtain ⟨r, v, hr, hv, hpw, hm⟩ := ih1 hn
      rcases hname with ⟨i', n, rfl, rfl⟩ | ⟨⟨n, rfl⟩, _⟩
      · have hn' : ∃ k, lookup n env.keys = some k := by
          simpa [Known, NamesIn, hasKey, Option.isSome_iff_exists] using hn
        obtain ⟨k, hk⟩ := hn'
        have hr' : r = .key k := by
          simp only [evalSym, findPtrOrStatus, hk, Res.ok_bind] at hr
          exact (Res.ok.inj hr).symm
        subst hr'
        obtain ⟨z, x, hz, hx, hsx⟩ := getFieldAccess_val hft hv
        refine ⟨.expr z, .int x, ?_, hsx, ?_, .field hm hft hx⟩
        · simp only [evalSym, protoKey, findPtrOrStatus, hk, Res.ok_bind, hz]
        · generalize (Expr.key i' n).ty = a at hft hpw
          show PosWidth t
          cases hft <;> first | exact hpw | trivial
      · exact hn.elim
    · intro hp hp'
      constructor
      · have hpw := (ih2 hp hp').1
        generalize e1.ty = a at hft hpw
        show PosWidth t
        cases hft <;> first | exact hpw | trivial
      · intro hn
        rcases hname with ⟨i', n, rfl, rfl⟩ | ⟨_, hlk⟩
        · rcases (ih2 hp hp').2 hn with hr | hr
          · left
            simp only [evalSym, findPtrOrStatus] at hr ⊢
            cases hlk : lookup n env.keys with
            | none => simp only [protoKey, hlk, Res.err_bind]
            | some k => rw [hlk] at hr; cases hr
          · simp only [evalSym, findPtrOrStatus] at hr
            cases hlk : lookup n env.keys <;> rw [hlk] at hr <;> cases hr
        · left
          simp only [evalSym, findPtrOrStatus, hlk, Res.err_bind]
  | bin i op l r ihl ihr =>
    simp only [abs, Option.bind_eq_some_iff] at ha
    obtain ⟨sl, hsl, sr, hsr, ha⟩ := ha
    rw [infer_bin] at h
    obtain ⟨l', r', hl, hr, h⟩ := h
    have htl := infer_sound hl hsl
    have htr := infer_sound hr hsr
    obtain ⟨ihl1, ihl2⟩ := ihl hl hsl
    obtain ⟨ihr1, ihr2⟩ := ihr hr hsr
    have hbin : ∀ {i op l r a b z}, evalSym src' env l = .ok a → evalSym src' env r = .ok b →
        symBin op a b = .ok z → evalSym src' env (.bin i op l r) = .ok (.expr z) := by
      intro i op l r a b z h1 h2 h3
      simp only [evalSym, h1, h2, Res.ok_bind, h3]
    have hbinl : ∀ {i op l r c}, evalSym src' env l = .err c → evalSym src' env (.bin i op l r) = .err c := by
      intro i op l r c h1
      simp only [evalSym, h1, Res.err_bind]
    have hbinr : ∀ {i op l r a c}, evalSym src' env l = .ok a → evalSym src' env r = .err c →
        evalSym src' env (.bin i op l r) = .err c := by
      intro i op l r a c h1 h2
      simp only [evalSym, h1, h2, Res.ok_bind, Res.err_bind]
    rcases binop_cases ha with ⟨h1, h2, o, rfl, hop⟩ | ⟨h1, h2, o, rfl, ho, hop⟩
    · simp [h1, h2] at h
      obtain ⟨tl, tr, rfl⟩ := h
      have hop : op = connOp o := by rw [hop]; cases o <;> rfl
      subst hop
      constructor
      · rintro ⟨hnl, hnr⟩
        obtain ⟨a, va, ha, hva, _, hma⟩ := ihl1 hnl
        obtain ⟨b, vb, hb, hvb, _, hmb⟩ := ihr1 hnr
        rw [tl] at hva hma
        rw [tr] at hvb hmb
        cases hva with | bool x =>
        cases hvb with | bool y =>
        obtain ⟨z, hz, hden⟩ := symBin_conn (m := m) o x y
        refine ⟨.expr ⟨.bool, z⟩, _, hbin ha hb hz, .bool z, trivial, ?_⟩
        rw [hden]
        exact .conn hma hmb
      · intro hp hp'
        refine ⟨trivial, fun hn => ?_⟩
        by_cases hnl : Known env sl
        · obtain ⟨a, _, ha, _⟩ := ihl1 hnl
          have hnr : ¬ Known env sr := fun h => hn ⟨hnl, h⟩
          exact ((ihr2 hp hp').2 hnr).imp (hbinr ha) (hbinr ha)
        · exact ((ihl2 hp hp').2 hnl).imp hbinl hbinl
    · simp [h1, h2] at h
      obtain ⟨t, hj, hord, rfl⟩ := h
      have hop : op = cmpOp o := by rw [hop]; cases o <;> rfl
      subst hop
      rw [ho] at hord
      constructor
      · rintro ⟨hnl, hnr⟩
        obtain ⟨a, va, ha, hva, hpa, hma⟩ := ihl1 hnl
        obtain ⟨b, vb, hb, hvb, hpb, hmb⟩ := ihr1 hnr
        have hpt : PosWidth t := by
          rcases isJoin_cases hj with rfl | rfl
          · exact hpa
          · exact hpb
        have hnr : ∀ x, t ≠ .range x := by
          rcases isJoin_cases hj with rfl | rfl
          · exact symVal_not_range hva
          · exact symVal_not_range hvb
        rcases evalSym_cast hj.1 hpt ha hva with ⟨x, hx, _⟩ | ⟨a', ha', hva'⟩
        · exact (hnr x hx).elim
        rcases evalSym_cast hj.2.1 hpt hb hvb with ⟨x, hx, _⟩ | ⟨b', hb', hvb'⟩
        · exact (hnr x hx).elim
        obtain ⟨z, hz, hden⟩ := symBin_cmp hva' hvb' hord
        refine ⟨.expr ⟨.bool, z⟩, _, hbin ha' hb' hz, .bool z, trivial, .cmp hma hmb hj hden⟩
      · intro hp hp'
        refine ⟨trivial, fun hn => ?_⟩
        by_cases hnl : Known env sl
        · obtain ⟨a, va, ha, hva, hpa, hma⟩ := ihl1 hnl
          have hnr : ¬ Known env sr := fun h => hn ⟨hnl, h⟩
          have hpt : PosWidth t := by
            rcases isJoin_cases hj with rfl | rfl
            · exact hpa
            · exact (ihr2 hp hp').1
          rcases evalSym_cast hj.1 hpt ha hva with ⟨x, hx, _, he⟩ | ⟨a', ha', hva'⟩
          · exact .inr (hbinl he)
          · exact ((ihr2 hp hp').2 hnr).imp (fun h => hbinr ha' (evalSym_cast_err h))
              (fun h => hbinr ha' (evalSym_cast_err h))
        · exact ((ihl2 hp hp').2 hnl).imp (fun h => hbinl (evalSym_cast_err h)) (fun h => hbinl (evalSym_cast_err h))

theorem noOrderedBits_safe {Γ : Sig} {s : SExpr} (h : NoOrderedBits Γ s) (ρ : Env) : OrderSafe Γ ρ s := by
  induction s with
  | not _ ih | neg _ ih => exact ih h
  | field _ _ ih => exact ih h
  | conn _ _ _ ih1 ih2 => exact ⟨ih1 h.1, ih2 h.2⟩
  | cmp o l r ih1 ih2 =>
    refine ⟨ih1 h.1, ih2 h.2.1, fun ho a b t v w hl hr hj => .inl ?_⟩
    obtain ⟨h1, h2⟩ := h.2.2 ho
    rcases isJoin_cases hj with rfl | rfl
    · exact (means_hasTy hl _ h1).symm
    · exact (means_hasTy hr _ h2).symm
  | _ => trivial

theorem noOrderedBits_exact {Γ : Sig} {s : SExpr} (h : NoOrderedBits Γ s) : NoOrderedExact Γ s := by
  induction s with
  | not _ ih | neg _ ih => exact ih h
  | field _ _ ih => exact ih h
  | conn _ _ _ ih1 ih2 => exact ⟨ih1 h.1, ih2 h.2⟩
  | cmp o l r ih1 ih2 =>
    refine ⟨ih1 h.1, ih2 h.2.1, fun ho w => ?_⟩
    obtain ⟨h1, h2⟩ := h.2.2 ho
    exact ⟨fun h => (nomatch hasTy_unique h h1), fun h => (nomatch hasTy_unique h h2)⟩
  | _ => trivial


/-! ### Signed and unsigned comparisons -/

theorem signed_unique {Γ : Sig} {ρ : Env} {s : SExpr} {t u : Ty} {v w : Value} (h : SignedMeans Γ ρ s t v)
    (h' : SignedMeans Γ ρ s u w) : t = u ∧ v = w := by
  induction h generalizing u w with
  | bool | int => cases h'; simp
  | priority hp =>
    cases h' with | priority hp' => rw [hp] at hp'; cases hp'; simp
  | key hk hv =>
    cases h' with
    | key hk' hv' => rw [hk] at hk'; rw [hv] at hv'; cases hk'; cases hv'; simp
  | param hk hv =>
    cases h' with
    | param hk' hv' => rw [hk] at hk'; rw [hv] at hv'; cases hk'; cases hv'; simp
  | not _ ih => cases h' with | not h => have := ih h; simp_all
  | neg _ ih => cases h' with | neg h => have := ih h; simp_all
  | conn _ _ ihl ihr =>
    cases h' with
    | conn hl hr =>
      have h1 := ihl hl
      have h2 := ihr hr
      simp at h1 h2
      subst h1; subst h2; simp
  | cmp _ _ hj hc ihl ihr =>
    cases h' with
    | cmp hl hr hj' hc' =>
      obtain ⟨rfl, rfl⟩ := ihl hl
      obtain ⟨rfl, rfl⟩ := ihr hr
      cases isJoin_unique hj hj'
      rw [hc] at hc'
      cases hc'
      simp
  | field _ hf hv ih =>
    cases h' with
    | field h hf' hv' =>
      obtain ⟨rfl, rfl⟩ := ih h
      cases fieldTy_unique hf hf'
      cases fieldVal_unique hv hv'
      simp

theorem compareSigned_eq {t : Ty} {o : Cmp} {v w : Value}
    (h : o.isOrder = true → t = .arbitraryInt ∨ TopClear t v ∧ TopClear t w) : compareSigned t o v w = compareVals o v w := by
  have htop : ∀ {t : Ty} {v : Value} {z : Int}, TopClear t v → orderKey v = some z → twos t z = z := by
    rintro t v z ⟨w, x, ht, hx, hlt⟩ hz
    rw [hx] at hz
    cases hz
    rcases ht with rfl | rfl <;> exact if_pos hlt
  have hkey : o.isOrder = true → ∀ x y, orderKey v = some x → orderKey w = some y → twos t x = x ∧ twos t y = y := by
    intro ho x y hx hy
    rcases h ho with rfl | ⟨h1, h2⟩
    · exact ⟨rfl, rfl⟩
    · exact ⟨htop h1 hx, htop h2 hy⟩
  unfold compareSigned compareVals
  cases o with
  | eq | ne => rfl
  | _ =>
    cases hx : orderKey v with
    | none => rfl
    | some x =>
      cases hy : orderKey w with
      | none => rfl
      | some y =>
        obtain ⟨h1, h2⟩ := hkey rfl x y hx hy
        simp only [Option.bind_some, Option.map_some, h1, h2]

/-- Signed comparisons give the documented meaning if only numbers with clear top bits are compared. -/
theorem signed_means {Γ : Sig} {ρ : Env} {s : SExpr} {t : Ty} {v : Value} (h : SignedMeans Γ ρ s t v)
    (ho : OrderSafe Γ ρ s) : Means Γ ρ s t v := by
  induction h with
  | bool b => exact .bool b
  | int z => exact .int z
  | key h1 h2 => exact .key h1 h2
  | param h1 h2 => exact .param h1 h2
  | priority h1 => exact .priority h1
  | not _ ih => exact .not (ih ho)
  | neg _ ih => exact .neg (ih ho)
  | conn _ _ ih1 ih2 => exact .conn (ih1 ho.1) (ih2 ho.2)
  | field _ h1 h2 ih => exact .field (ih ho) h1 h2
  | cmp _ _ hj hc ih1 ih2 =>
    refine .cmp (ih1 ho.1) (ih2 ho.2.1) hj ?_
    rw [← compareSigned_eq fun hio => ho.2.2 hio _ _ _ _ _ (ih1 ho.1) (ih2 ho.2.1) hj]
    exact hc

theorem means_signed {Γ : Sig} {ρ : Env} {s : SExpr} {t : Ty} {v : Value} (h : Means Γ ρ s t v)
    (ho : OrderSafe Γ ρ s) : SignedMeans Γ ρ s t v := by
  induction h with
  | bool b => exact .bool b
  | int z => exact .int z
  | key h1 h2 => exact .key h1 h2
  | param h1 h2 => exact .param h1 h2
  | priority h1 => exact .priority h1
  | not _ ih => exact .not (ih ho)
  | neg _ ih => exact .neg (ih ho)
  | conn _ _ ih1 ih2 => exact .conn (ih1 ho.1) (ih2 ho.2)
  | field _ h1 h2 ih => exact .field (ih ho) h1 h2
  | cmp h1 h2 hj hc ih1 ih2 =>
    refine .cmp (ih1 ho.1) (ih2 ho.2.1) hj ?_
    rw [compareSigned_eq fun hio => ho.2.2 hio _ _ _ _ _ h1 h2 hj]
    exact hc

end P4C
