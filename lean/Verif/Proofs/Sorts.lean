import Verif.Spec.Sorts
import Verif.Proofs.HandMade
import Verif.Proofs.CrashSolver

/-
Proofs about translating syntax trees of any origin into formulas: which can be, and what the source is used for.
-/

namespace P4C

open Spec

/-- The form of a symbolic key. -/
def keyForm : SymKey → Form
  | .exact v => .exact v.srt
  | .ternary v m => .ternary v.srt m.srt
  | .lpm v p => .lpm v.srt p.srt

/-- The form of a result. -/
def resForm : SymResult → Form
  | .expr z => .plain z.srt
  | .key k => keyForm k

/-! ### Outcomes -/

/-- A result, an error with one of four codes, or a crash. -/
def Coded {α : Type} : Res α → Prop
  | .ok _ | .crash => True
  | .err c => TranslationCode c
  | .oof => False

theorem Coded.bind {α β : Type} {r : Res α} {f : α → Res β} (h : Coded r) (hf : ∀ a, r = .ok a → Coded (f a)) : Coded (r >>= f) := by
  cases r with
  | ok a => exact hf a rfl
  | err c => exact h
  | crash => exact h
  | oof => exact h

theorem runtimeTypeError_cases {α : Type} (src : ConstraintSource) (a b : Loc) :
    (runtimeTypeError src a b : Res α) = .err .internal ∨ (runtimeTypeError src a b : Res α) = .crash := by
  unfold runtimeTypeError
  split
  · exact .inl rfl
  · exact .inl rfl
  · exact .inr rfl
  · rename_i h
    exact (quoteSub_ne_oof _ _ _ h).elim

theorem runtimeTypeError_coded {α : Type} (src : ConstraintSource) (a b : Loc) : Coded (runtimeTypeError src a b : Res α) := by
  rcases runtimeTypeError_cases (α := α) src a b with h | h <;> rw [h]
  · exact .inr (.inl rfl)
  · trivial

theorem findPtr_coded {α : Type} {n : Str} {m : List (Str × α)} : Coded (findPtrOrStatus n m) := by
  unfold findPtrOrStatus
  split
  · trivial
  · exact .inr (.inr (.inl rfl))

theorem getFieldAccess_coded {k : SymKey} {f : Str} : Coded (getFieldAccess k f) := by
  unfold getFieldAccess
  split <;> (repeat' split) <;> first | trivial | exact .inl rfl

theorem sameSort_coded {a b : Z3Expr} {f : (s : Srt) → Term s → Term s → Res Z3Expr} (h : ∀ s x y, Coded (f s x y)) :
    Coded (a.sameSort b f) := by
  unfold Z3Expr.sameSort
  split
  · exact h _ _ _
  · trivial

theorem asBool_coded {a : Z3Expr} : Coded a.asBool := by
  unfold Z3Expr.asBool
  split <;> trivial

theorem symBinExpr_coded {op : BinOp} {a b : Z3Expr} : Coded (symBinExpr op a b) := by
  cases op with
  | unknown => exact .inl rfl
  | eq | ne =>
    simp only [symBinExpr, Z3Expr.eq, Z3Expr.ne]
    refine sameSort_coded fun _ _ _ => ?_
    trivial
  | lt | le | gt | ge =>
    simp only [symBinExpr, Z3Expr.lt, Z3Expr.le, Z3Expr.gt, Z3Expr.ge, Z3Expr.cmp]
    refine sameSort_coded fun s x y => ?_
    cases s <;> trivial
  | and | or | implies => exact asBool_coded.bind fun _ _ => asBool_coded.bind fun _ _ => trivial

theorem symBinPair_coded {op : BinOp} {a b c d : Z3Expr} : Coded (symBinPair op a b c d) := by
  unfold symBinPair
  split
  · exact .inl rfl
  · refine symBinExpr_coded.bind fun x _ => symBinExpr_coded.bind fun y _ => ?_
    split
    · exact symBinExpr_coded (op := .or)
    · exact symBinExpr_coded (op := .and)

theorem symBin_coded {op : BinOp} {a b : SymResult} : Coded (symBin op a b) := by
  unfold symBin
  split
  · exact symBinExpr_coded
  · exact symBinExpr_coded
  · exact symBinPair_coded
  · exact symBinPair_coded
  · exact .inl rfl

theorem symCast_coded {z : Z3Expr} {t : Ty} : Coded (symCast z t) := by
  unfold symCast
  have hw : Coded (typeBitwidthOrStatus t) := by
    unfold typeBitwidthOrStatus
    split
    · trivial
    · exact .inl rfl
  refine hw.bind fun w _ => ?_
  split
  · refine Coded.bind ?_ fun _ _ => trivial
    unfold Z3Expr.int2bv
    split
    · split <;> trivial
    · trivial
  · trivial
  · refine Coded.bind ?_ fun _ _ => trivial
    unfold bvAllOnes
    split <;> trivial
  · refine Coded.bind ?_ fun _ _ => trivial
    unfold bvAllOnes
    split <;> trivial
  · trivial
  · exact .inr (.inr (.inr rfl))
  · exact .inl rfl

theorem symToExpr_coded {src : ConstraintSource} {e : Expr} {r : Res SymResult} (h : Coded r) : Coded (symToExpr src e r) := by
  unfold symToExpr
  refine h.bind fun x _ => ?_
  split
  · trivial
  · exact runtimeTypeError_coded _ _ _

theorem intVal_coded {s : Str} : Coded (intVal s) := by
  unfold intVal
  dsimp only
  repeat' split
  all_goals trivial

theorem evalSym_coded (src : ConstraintSource) (env : SymEnv) : ∀ e, Coded (evalSym src env e)
  | .boolConst _ _ => trivial
  | .notSet _ => .inl rfl
  | .actionParam _ _ => .inr (.inr (.inr rfl))
  | .intConst _ _ => intVal_coded.bind fun _ _ => trivial
  | .key _ _ => findPtr_coded.bind fun _ _ => trivial
  | .attr _ _ => findPtr_coded.bind fun _ _ => trivial
  | .field _ _ _ => findPtr_coded.bind fun _ _ => getFieldAccess_coded.bind fun _ _ => trivial
  | .boolNeg _ e => (symToExpr_coded (evalSym_coded src env e)).bind fun _ _ =>
      Coded.bind (asBool_coded.bind fun _ _ => trivial) fun _ _ => trivial
  | .arithNeg _ e => (symToExpr_coded (evalSym_coded src env e)).bind fun z _ =>
      Coded.bind (by obtain ⟨s, t⟩ := z; cases s <;> trivial) fun _ _ => trivial
  | .typeCast _ e => (symToExpr_coded (evalSym_coded src env e)).bind fun _ _ => symCast_coded
  | .bin _ _ l r => (evalSym_coded src env l).bind fun _ _ => (evalSym_coded src env r).bind fun _ _ =>
      symBin_coded.bind fun _ _ => trivial

theorem addConstraint_coded (z : Z3Oracle) (s : Solver) (c : Expr) (src : ConstraintSource) :
    Coded (s.addConstraint z c src).1 := by
  have h : Coded (evaluateConstraintSymbolically c src s.env) := by
    unfold evaluateConstraintSymbolically
    split
    · exact .inl rfl
    · exact symToExpr_coded (evalSym_coded _ _ _)
  unfold Solver.addConstraint Solver.check
  dsimp only
  split
  · split
    · split <;> trivial
    · trivial
    · rename_i heq
      rw [heq] at h
      exact h
    · trivial
    · rename_i heq
      rw [heq] at h
      exact h
  · exact .inr (.inl rfl)

/-! ### The source -/

/-- Equal, or both are internal errors or crashes. -/
def Akin {α : Type} (r r' : Res α) : Prop :=
  r = r' ∨ ((r = .err .internal ∨ r = .crash) ∧ (r' = .err .internal ∨ r' = .crash))

theorem Akin.bind {α β : Type} {r r' : Res α} {f f' : α → Res β} (h : Akin r r') (hf : ∀ a, Akin (f a) (f' a)) :
    Akin (r >>= f) (r' >>= f') := by
  rcases h with rfl | ⟨h, h'⟩
  · cases r with
    | ok a => exact hf a
    | _ => exact .inl rfl
  · refine .inr ⟨?_, ?_⟩
    · rcases h with rfl | rfl
      · exact .inl rfl
      · exact .inr rfl
    · rcases h' with rfl | rfl
      · exact .inl rfl
      · exact .inr rfl

theorem symToExpr_akin (src src' : ConstraintSource) (e : Expr) {r r' : Res SymResult} (h : Akin r r') :
    Akin (symToExpr src e r) (symToExpr src' e r') := by
  unfold symToExpr
  refine h.bind fun x => ?_
  split
  · exact .inl rfl
  · exact .inr ⟨runtimeTypeError_cases _ _ _, runtimeTypeError_cases _ _ _⟩

theorem evalSym_akin (src src' : ConstraintSource) (env : SymEnv) : ∀ e, Akin (evalSym src env e) (evalSym src' env e)
  | .boolConst _ _ | .notSet _ | .actionParam _ _ | .intConst _ _ | .key _ _ | .attr _ _ | .field _ _ _ => .inl rfl
  | .boolNeg _ e => (symToExpr_akin src src' e (evalSym_akin src src' env e)).bind fun _ => .inl rfl
  | .arithNeg _ e => (symToExpr_akin src src' e (evalSym_akin src src' env e)).bind fun _ => .inl rfl
  | .typeCast _ e => (symToExpr_akin src src' e (evalSym_akin src src' env e)).bind fun _ => .inl rfl
  | .bin _ _ l r => (evalSym_akin src src' env l).bind fun _ => (evalSym_akin src src' env r).bind fun _ => .inl rfl

theorem evaluate_akin (src src' : ConstraintSource) (env : SymEnv) (c : Expr) :
    Akin (evaluateConstraintSymbolically c src env) (evaluateConstraintSymbolically c src' env) := by
  unfold evaluateConstraintSymbolically
  split
  · exact .inl rfl
  · exact symToExpr_akin _ _ _ (evalSym_akin _ _ _ _)

theorem addConstraint_akin (z : Z3Oracle) (s : Solver) (c : Expr) (src src' : ConstraintSource) :
    Akin (s.addConstraint z c src).1 (s.addConstraint z c src').1 ∧
      (s.addConstraint z c src).2 = (s.addConstraint z c src').2 := by
  have h := evaluate_akin src src' s.env c
  unfold Solver.addConstraint Solver.check
  dsimp only
  rcases h with h | ⟨h, h'⟩
  · rw [h]
    exact ⟨.inl rfl, rfl⟩
  · split
    · rcases h with h | h <;> rcases h' with h' | h' <;> rw [h, h'] <;> refine ⟨.inr ⟨?_, ?_⟩, rfl⟩ <;>
        first | exact .inl rfl | exact .inr rfl
    · exact ⟨.inl rfl, rfl⟩

/-! ### Forms -/

section
variable {K : Str → Form → Prop} {A : Str → Prop} {env : SymEnv}
  (hK : ∀ n k, K n k ↔ ∃ key, lookup n env.keys = some key ∧ keyForm key = k)
  (hA : ∀ n, A n ↔ ∃ z, lookup n env.attrs = some z) (hI : ∀ n z, lookup n env.attrs = some z → z.srt = .int)

theorem findPtr_ok {α : Type} {n : Str} {m : List (Str × α)} {a : α} : findPtrOrStatus n m = .ok a ↔ lookup n m = some a := by
  unfold findPtrOrStatus
  split
  · rename_i h
    rw [h]
    simp
  · rename_i h
    rw [h]
    simp

theorem symToExpr_val {src : ConstraintSource} {e : Expr} {r : Res SymResult} {z : Z3Expr} :
    symToExpr src e r = .ok z ↔ r = .ok (.expr z) := by
  unfold symToExpr
  cases r with
  | ok x =>
    cases x with
    | expr y => simp
    | key k =>
      simp only [Res.ok_bind, Res.ok.injEq, reduceCtorEq, iff_false]
      rcases runtimeTypeError_cases (α := Z3Expr) src e.start e.stop with h | h <;> rw [h] <;> nofun
  | err c => simp [Bind.bind, Res.bind]
  | crash => simp [Bind.bind, Res.bind]
  | oof => simp [Bind.bind, Res.bind]

theorem fieldOf_protoKey (e : Expr) : FieldOf e (protoKey e) := by
  cases e with
  | key i n => exact .inl ⟨i, rfl⟩
  | _ => exact .inr ⟨rfl, fun i m h => by cases h⟩

theorem fieldOf_unique {e : Expr} {n : Str} (h : FieldOf e n) : n = protoKey e := by
  rcases h with ⟨i, rfl⟩ | ⟨rfl, h⟩
  · rfl
  · cases e with
    | key i n => exact (h i n rfl).elim
    | _ => rfl

theorem getFieldAccess_form {k : SymKey} {f : Str} {z : Z3Expr} (h : getFieldAccess k f = .ok z) :
    FormField (keyForm k) f z.srt := by
  unfold getFieldAccess at h
  split at h <;> (repeat' split at h) <;> cases h <;> subst_vars <;> constructor

theorem getFieldAccess_of_form {k : SymKey} {f : Str} {σ : Srt} (h : FormField (keyForm k) f σ) :
    ∃ z, getFieldAccess k f = .ok z ∧ z.srt = σ := by
  cases k <;> cases h <;> exact ⟨_, rfl, rfl⟩

theorem asBool_ok {z : Z3Expr} {t : Term .bool} (h : z.asBool = .ok t) : z = ⟨.bool, t⟩ := by
  obtain ⟨s, t'⟩ := z
  cases s <;> cases h
  rfl

theorem symBinExpr_form {op : BinOp} {a b z : Z3Expr} (h : symBinExpr op a b = .ok z) :
    b.srt = a.srt ∧ z.srt = .bool ∧ Applies op a.srt := by
  obtain ⟨s, x⟩ := a
  obtain ⟨s', y⟩ := b
  cases op with
  | unknown => cases h
  | eq | ne =>
    simp only [symBinExpr, Z3Expr.eq, Z3Expr.ne, Z3Expr.sameSort] at h
    split at h
    · cases h
      rename_i hs
      exact ⟨hs, rfl, by simp [Applies]⟩
    · cases h
  | lt | le | gt | ge =>
    simp only [symBinExpr, Z3Expr.lt, Z3Expr.le, Z3Expr.gt, Z3Expr.ge, Z3Expr.cmp, Z3Expr.sameSort] at h
    split at h
    · rename_i hs
      cases s <;> cases h <;> exact ⟨hs, rfl, by simp [Applies]⟩
    · cases h
  | and | or | implies =>
    simp only [symBinExpr, Z3Expr.and, Z3Expr.or, Z3Expr.implies, Z3Expr.conn, Res.bind_eq_ok] at h
    obtain ⟨x', hx, y', hy, h⟩ := h
    cases asBool_ok hx
    cases asBool_ok hy
    cases h
    exact ⟨rfl, rfl, by simp [Applies, ShortCircuits]⟩

theorem symBinExpr_of_form {op : BinOp} {a b : Z3Expr} (hs : b.srt = a.srt) (h : Applies op a.srt) :
    ∃ z, symBinExpr op a b = .ok z ∧ z.srt = .bool := by
  obtain ⟨s, x⟩ := a
  obtain ⟨s', y⟩ := b
  dsimp only at hs
  subst hs
  rcases h with rfl | rfl | ⟨h, hne⟩ | ⟨h, rfl⟩
  · exact ⟨⟨.bool, .eq x y⟩, by simp [symBinExpr, Z3Expr.eq, Z3Expr.sameSort], rfl⟩
  · exact ⟨⟨.bool, .ne x y⟩, by simp [symBinExpr, Z3Expr.ne, Z3Expr.sameSort], rfl⟩
  · cases s' with
    | bool => exact (hne rfl).elim
    | int => rcases h with rfl | rfl | rfl | rfl <;> exact ⟨_, rfl, rfl⟩
    | bv w =>
      rcases h with rfl | rfl | rfl | rfl <;>
        simp [symBinExpr, Z3Expr.lt, Z3Expr.le, Z3Expr.gt, Z3Expr.ge, Z3Expr.cmp, Z3Expr.sameSort]
  · rcases h with rfl | rfl | rfl <;> exact ⟨_, rfl, rfl⟩

theorem symBinPair_form {op : BinOp} {a b a' b' z : Z3Expr} (h : symBinPair op a b a' b' = .ok z) :
    a'.srt = a.srt ∧ b'.srt = b.srt ∧ z.srt = .bool ∧ (op = .eq ∨ op = .ne) := by
  unfold symBinPair at h
  split at h
  · cases h
  · rename_i hop
    simp only [Res.bind_eq_ok] at h
    obtain ⟨x, hx, y, hy, h⟩ := h
    have hz : z.srt = .bool := by
      split at h
      · exact (symBinExpr_form (op := .or) h).2.1
      · exact (symBinExpr_form (op := .and) h).2.1
    exact ⟨(symBinExpr_form hx).1, (symBinExpr_form hy).1, hz, by grind⟩

theorem symBinPair_of_form {op : BinOp} {a b a' b' : Z3Expr} (h1 : a'.srt = a.srt) (h2 : b'.srt = b.srt)
    (hop : op = .eq ∨ op = .ne) : ∃ z, symBinPair op a b a' b' = .ok z ∧ z.srt = .bool := by
  have hap : ∀ σ, Applies op σ := fun σ => by rcases hop with h | h <;> simp [Applies, h]
  obtain ⟨x, hx, hxs⟩ := symBinExpr_of_form h1 (hap _)
  obtain ⟨y, hy, hys⟩ := symBinExpr_of_form h2 (hap _)
  obtain ⟨u, hu, hus⟩ := symBinExpr_of_form (op := .or) (hys.trans hxs.symm) (by simp [Applies, ShortCircuits, hxs])
  obtain ⟨v, hv, hvs⟩ := symBinExpr_of_form (op := .and) (hys.trans hxs.symm) (by simp [Applies, ShortCircuits, hxs])
  unfold symBinPair
  rw [if_neg (by grind), hx, Res.ok_bind, hy, Res.ok_bind]
  split
  · exact ⟨u, hu, hus⟩
  · exact ⟨v, hv, hvs⟩

include hK hA hI in
/-- What can be translated has the form of the result. -/
theorem evalSym_sorted {src : ConstraintSource} : ∀ {e : Expr} {r : SymResult}, evalSym src env e = .ok r →
    Sorted K A e (resForm r) := by
  intro e
  induction e with
  | notSet i => intro r h; cases h
  | boolConst i b => intro r h; cases h; exact .boolConst
  | intConst i s =>
    intro r h
    simp only [evalSym, Res.bind_eq_ok] at h
    obtain ⟨z, hz, h⟩ := h
    cases h
    have : z.srt = .int := by
      unfold intVal at hz
      dsimp only at hz
      repeat' split at hz
      all_goals first | (cases hz; done) | (cases hz; rfl)
    simp only [resForm, this]
    exact .intConst
  | key i n =>
    intro r h
    simp only [evalSym, Res.bind_eq_ok] at h
    obtain ⟨k, hk, h⟩ := h
    cases h
    exact .key ((hK _ _).2 ⟨k, findPtr_ok.1 hk, rfl⟩)
  | actionParam i n => intro r h; cases h
  | attr i n =>
    intro r h
    simp only [evalSym, Res.bind_eq_ok] at h
    obtain ⟨z, hz, h⟩ := h
    cases h
    have hz := findPtr_ok.1 hz
    simp only [resForm, hI _ _ hz]
    exact .attr ((hA _).2 ⟨z, hz⟩)
  | field i e f ih =>
    intro r h
    simp only [evalSym, Res.bind_eq_ok] at h
    obtain ⟨k, hk, z, hz, h⟩ := h
    cases h
    exact .field (fieldOf_protoKey e) ((hK _ _).2 ⟨k, findPtr_ok.1 hk, rfl⟩) (getFieldAccess_form hz)
  | boolNeg i e ih =>
    intro r h
    simp only [evalSym, Res.bind_eq_ok, symToExpr_val] at h
    obtain ⟨z, hz, y, hy, h⟩ := h
    cases h
    simp only [Z3Expr.not, Res.bind_eq_ok] at hy
    obtain ⟨t, ht, hy⟩ := hy
    cases hy
    cases asBool_ok ht
    exact .boolNeg (ih hz)
  | arithNeg i e ih =>
    intro r h
    simp only [evalSym, Res.bind_eq_ok, symToExpr_val] at h
    obtain ⟨z, hz, y, hy, h⟩ := h
    cases h
    obtain ⟨s, t⟩ := z
    have := ih hz
    cases s <;> cases hy <;> exact .arithNeg this nofun
  | typeCast i e ih =>
    intro r h
    simp only [evalSym, Res.bind_eq_ok, symToExpr_val] at h
    obtain ⟨z, hz, h⟩ := h
    have hz := ih hz
    unfold symCast at h
    simp only [Res.bind_eq_ok] at h
    obtain ⟨w, hw, h⟩ := h
    have hw' : typeBitwidth i.ty = some w := by
      unfold typeBitwidthOrStatus at hw
      split at hw
      · rename_i heq
        cases hw
        exact heq
      · cases hw
    split at h
    · rename_i ht
      rw [ht] at hw'
      cases hw'
      simp only [Res.bind_eq_ok] at h
      obtain ⟨y, hy, h⟩ := h
      cases h
      unfold Z3Expr.int2bv at hy
      split at hy
      · split at hy
        · cases hy
        · rename_i hw0
          cases hy
          exact .castBits hz ht (by omega)
      · cases hy
    · rename_i ht
      cases h
      exact .castExact hz ht
    · rename_i ht
      rw [ht] at hw'
      cases hw'
      simp only [Res.bind_eq_ok] at h
      obtain ⟨y, hy, h⟩ := h
      cases h
      unfold bvAllOnes at hy
      split at hy
      · cases hy
      · cases hy
        exact .castTernary hz (.inr ht) (by omega)
    · rename_i ht
      rw [ht] at hw'
      cases hw'
      simp only [Res.bind_eq_ok] at h
      obtain ⟨y, hy, h⟩ := h
      cases h
      unfold bvAllOnes at hy
      split at hy
      · cases hy
      · cases hy
        exact .castTernary hz (.inl ht) (by omega)
    · rename_i ht
      cases h
      exact .castLpm hz ht
    · cases h
    · cases h
  | bin i op l r ihl ihr =>
    intro x h
    simp only [evalSym, Res.bind_eq_ok] at h
    obtain ⟨a, ha, b, hb, z, hz, h⟩ := h
    cases h
    have ha := ihl ha
    have hb := ihr hb
    unfold symBin at hz
    split at hz
    · obtain ⟨h1, h2, h3⟩ := symBinExpr_form hz
      simp only [resForm, h1, h2] at ha hb ⊢
      exact .plain ha hb h3
    · obtain ⟨h1, h2, h3⟩ := symBinExpr_form hz
      simp only [resForm, keyForm, h1, h2] at ha hb ⊢
      exact .exact ha hb h3
    · obtain ⟨h1, h2, h3, h4⟩ := symBinPair_form hz
      simp only [resForm, keyForm, h1, h2, h3] at ha hb ⊢
      exact .ternary ha hb h4
    · obtain ⟨h1, h2, h3, h4⟩ := symBinPair_form hz
      simp only [resForm, keyForm, h1, h2, h3] at ha hb ⊢
      exact .lpm ha hb h4
    · cases hz

theorem resForm_plain {r : SymResult} {σ : Srt} (h : resForm r = .plain σ) : ∃ z, r = .expr z ∧ z.srt = σ := by
  cases r with
  | expr z => cases h; exact ⟨z, rfl, rfl⟩
  | key k => cases k <;> cases h

theorem resForm_exact {r : SymResult} {σ : Srt} (h : resForm r = .exact σ) : ∃ z, r = .key (.exact z) ∧ z.srt = σ := by
  cases r with
  | expr z => cases h
  | key k => cases k <;> cases h; exact ⟨_, rfl, rfl⟩

theorem resForm_ternary {r : SymResult} {σ τ : Srt} (h : resForm r = .ternary σ τ) :
    ∃ z z', r = .key (.ternary z z') ∧ z.srt = σ ∧ z'.srt = τ := by
  cases r with
  | expr z => cases h
  | key k => cases k <;> cases h; exact ⟨_, _, rfl, rfl, rfl⟩

theorem resForm_lpm {r : SymResult} {σ τ : Srt} (h : resForm r = .lpm σ τ) :
    ∃ z z', r = .key (.lpm z z') ∧ z.srt = σ ∧ z'.srt = τ := by
  cases r with
  | expr z => cases h
  | key k => cases k <;> cases h; exact ⟨_, _, rfl, rfl, rfl⟩

include hK hA hI in
/-- What has a form can be translated. -/
theorem sorted_evalSym {src : ConstraintSource} {e : Expr} {k : Form} (h : Sorted K A e k) (hd : Everywhere DecimalConst e) :
    ∃ r, evalSym src env e = .ok r ∧ resForm r = k := by
  induction h with
  | boolConst => exact ⟨_, rfl, rfl⟩
  | @intConst i s =>
    obtain ⟨n, hn⟩ := hd i s rfl
    refine ⟨.expr ⟨.int, .intVal n⟩, ?_, rfl⟩
    simp [evalSym, intVal_decimal hn]
  | key hk =>
    obtain ⟨key, h1, h2⟩ := (hK _ _).1 hk
    exact ⟨.key key, by simp [evalSym, findPtr_ok.2 h1], h2⟩
  | attr ha =>
    obtain ⟨z, hz⟩ := (hA _).1 ha
    exact ⟨.expr z, by simp [evalSym, findPtr_ok.2 hz], by simp [resForm, hI _ _ hz]⟩
  | field hf hk hs =>
    obtain ⟨key, h1, rfl⟩ := (hK _ _).1 hk
    obtain ⟨z, hz, rfl⟩ := getFieldAccess_of_form hs
    cases fieldOf_unique hf
    exact ⟨.expr z, by simp [evalSym, findPtr_ok.2 h1, hz], rfl⟩
  | boolNeg _ ih =>
    obtain ⟨r, hr, hf⟩ := ih hd.2
    obtain ⟨⟨s, t⟩, rfl, rfl⟩ := resForm_plain hf
    exact ⟨.expr ⟨.bool, .not t⟩, by simp [evalSym, symToExpr_val.2 hr, Z3Expr.not, Z3Expr.asBool], rfl⟩
  | arithNeg _ hne ih =>
    obtain ⟨r, hr, hf⟩ := ih hd.2
    obtain ⟨⟨s, t⟩, rfl, rfl⟩ := resForm_plain hf
    cases s with
    | bool => exact (hne rfl).elim
    | int => exact ⟨.expr ⟨.int, .neg t⟩, by simp [evalSym, symToExpr_val.2 hr, Z3Expr.neg], rfl⟩
    | bv w => exact ⟨.expr ⟨.bv w, .bvneg t⟩, by simp [evalSym, symToExpr_val.2 hr, Z3Expr.neg], rfl⟩
  | @castBits i e w _ ht hw ih =>
    obtain ⟨r, hr, hf⟩ := ih hd.2
    obtain ⟨⟨s, t⟩, rfl, rfl⟩ := resForm_plain hf
    refine ⟨.expr ⟨.bv w.toNat, .int2bv w.toNat t⟩, ?_, rfl⟩
    have : ¬ w ≤ 0 := by omega
    simp [evalSym, symToExpr_val.2 hr, symCast, ht, typeBitwidthOrStatus, typeBitwidth, Z3Expr.int2bv, this]
  | @castExact i e σ w _ ht ih =>
    obtain ⟨r, hr, hf⟩ := ih hd.2
    obtain ⟨z, rfl, rfl⟩ := resForm_plain hf
    refine ⟨.key (.exact z), ?_, rfl⟩
    simp [evalSym, symToExpr_val.2 hr, symCast, ht, typeBitwidthOrStatus, typeBitwidth]
  | @castTernary i e σ w _ ht hw ih =>
    obtain ⟨r, hr, hf⟩ := ih hd.2
    obtain ⟨z, rfl, rfl⟩ := resForm_plain hf
    refine ⟨.key (.ternary z ⟨.bv w.toNat, .bvVal (BitVec.allOnes w.toNat)⟩), ?_, rfl⟩
    have : ¬ w ≤ 0 := by omega
    rcases ht with ht | ht <;>
      simp [evalSym, symToExpr_val.2 hr, symCast, ht, typeBitwidthOrStatus, typeBitwidth, bvAllOnes, this]
  | @castLpm i e σ w _ ht ih =>
    obtain ⟨r, hr, hf⟩ := ih hd.2
    obtain ⟨z, rfl, rfl⟩ := resForm_plain hf
    refine ⟨.key (.lpm z ⟨.int, .intVal w⟩), ?_, rfl⟩
    simp [evalSym, symToExpr_val.2 hr, symCast, ht, typeBitwidthOrStatus, typeBitwidth]
  | plain _ _ hop ihl ihr =>
    obtain ⟨a, ha, hfa⟩ := ihl hd.2.1
    obtain ⟨b, hb, hfb⟩ := ihr hd.2.2
    obtain ⟨x, rfl, rfl⟩ := resForm_plain hfa
    obtain ⟨y, rfl, hs⟩ := resForm_plain hfb
    obtain ⟨z, hz, hzs⟩ := symBinExpr_of_form hs hop
    exact ⟨.expr z, by simp [evalSym, ha, hb, symBin, hz], by simp [resForm, hzs]⟩
  | exact _ _ hop ihl ihr =>
    obtain ⟨a, ha, hfa⟩ := ihl hd.2.1
    obtain ⟨b, hb, hfb⟩ := ihr hd.2.2
    obtain ⟨x, rfl, rfl⟩ := resForm_exact hfa
    obtain ⟨y, rfl, hs⟩ := resForm_exact hfb
    obtain ⟨z, hz, hzs⟩ := symBinExpr_of_form hs hop
    exact ⟨.expr z, by simp [evalSym, ha, hb, symBin, hz], by simp [resForm, hzs]⟩
  | ternary _ _ hop ihl ihr =>
    obtain ⟨a, ha, hfa⟩ := ihl hd.2.1
    obtain ⟨b, hb, hfb⟩ := ihr hd.2.2
    obtain ⟨x, x', rfl, rfl, rfl⟩ := resForm_ternary hfa
    obtain ⟨y, y', rfl, hs, hs'⟩ := resForm_ternary hfb
    obtain ⟨z, hz, hzs⟩ := symBinPair_of_form hs hs' hop
    exact ⟨.expr z, by simp [evalSym, ha, hb, symBin, hz], by simp [resForm, hzs]⟩
  | lpm _ _ hop ihl ihr =>
    obtain ⟨a, ha, hfa⟩ := ihl hd.2.1
    obtain ⟨b, hb, hfb⟩ := ihr hd.2.2
    obtain ⟨x, x', rfl, rfl, rfl⟩ := resForm_lpm hfa
    obtain ⟨y, y', rfl, hs, hs'⟩ := resForm_lpm hfb
    obtain ⟨z, hz, hzs⟩ := symBinPair_of_form hs hs' hop
    exact ⟨.expr z, by simp [evalSym, ha, hb, symBin, hz], by simp [resForm, hzs]⟩
end

/-! ### Solvers for a declared table -/

theorem symKeyFor_form {n : Str} {id : Nat} {t : Ty} {f : MatchField} {k : SymKey} {a : List (Term .bool)}
    (hd : KeyDecl f ⟨id, n, t⟩) (hs : SymKeyFor n t k a) : DeclForm f (keyForm k) := by
  cases hs <;> cases hd
  · exact .exact rfl
  · exact .ternary rfl
  · exact .optional rfl
  · exact .lpm rfl

theorem declForm_unique {f : MatchField} {k k' : Form} (h : DeclForm f k) (h' : DeclForm f k') : k = k' := by
  cases h <;> cases h' <;> simp_all

section
variable {d : TableDecl} {ti : TableInfo} {vs : List VarInfo} (hk : Each KeyDecl d.matchFields vs)
  (hm : Maps vs ti.keysById ti.keysByName) (hwf : TableWF ti) {skip : Str → Bool} {ks : List (Str × SymKey)}
  {as : List (Term .bool)} {s : Solver} {cs : List Expr} (hi : SolverInv ti (fun n => .ok (skip n)) ks as s cs)

include hk hm hwf hi in
theorem solver_keys (n : Str) (k : Form) : DeclKey d skip n k ↔ ∃ key, lookup n s.env.keys = some key ∧ keyForm key = k := by
  obtain ⟨h1, h2, _⟩ := hi.key hwf
  have henv : s.env.keys = ks := by rw [hi.env]; rfl
  rw [henv]
  constructor
  · rintro ⟨f, hf, rfl, hsk, hform⟩
    obtain ⟨ki, hki, hdecl⟩ := each_mem_left hk f hf
    have hname : ki.name = f.name := by cases hdecl <;> rfl
    rcases h1 f.name ki ((hm.byName _ _).2 ⟨hki, hname⟩) with ⟨h, _⟩ | ⟨_, key, a, hs, hl, _⟩
    · simp [hsk] at h
    · obtain ⟨id, n, t⟩ := ki
      exact ⟨key, hl, declForm_unique (symKeyFor_form hdecl hs) hform⟩
  · rintro ⟨key, hl, rfl⟩
    obtain ⟨ki, hki⟩ := h2 n key hl
    rcases h1 n ki hki with ⟨_, h⟩ | ⟨hsk, key', a, hs, hl', _⟩
    · rw [hl] at h; cases h
    · rw [hl] at hl'
      cases hl'
      obtain ⟨hv, hname⟩ := (hm.byName _ _).1 hki
      obtain ⟨f, hf, hdecl⟩ := each_mem hk ki hv
      have : f.name = ki.name := by cases hdecl <;> rfl
      obtain ⟨id, n', t⟩ := ki
      exact ⟨f, hf, this.trans hname, by simpa using hsk, symKeyFor_form hdecl hs⟩

include hk hm hi in
theorem solver_attrs (n : Str) : DeclAttr d n ↔ ∃ z, lookup n s.env.attrs = some z := by
  have hp : prioritized ti = true ↔ ∃ f ∈ d.matchFields, f.kind = .matchType .ternary ∨ f.kind = .matchType .optional := by
    rw [prioritized_iff, hasPriority_iff hm]
    constructor
    · rintro ⟨ki, hki, w, hw⟩
      obtain ⟨f, hf, hdecl⟩ := each_mem hk ki hki
      refine ⟨f, hf, ?_⟩
      cases hdecl <;> simp_all
    · rintro ⟨f, hf, hkind⟩
      obtain ⟨ki, hki, hdecl⟩ := each_mem_left hk f hf
      refine ⟨ki, hki, f.bitwidth, ?_⟩
      cases hdecl <;> simp_all
  rw [hi.env, DeclAttr, ← hp]
  simp only [solverEnv]
  by_cases h : prioritized ti = true
  · simp only [h, and_true, if_pos, lookup]
    constructor
    · rintro rfl
      exact ⟨⟨.int, priorityTerm⟩, by simp⟩
    · rintro ⟨z, hz⟩
      split at hz
      · rename_i he; exact he.symm
      · cases hz
  · simp [h, lookup]

include hi in
theorem solver_attrs_int (n : Str) (z : Z3Expr) (h : lookup n s.env.attrs = some z) : z.srt = .int := by
  rw [hi.env] at h
  simp only [solverEnv] at h
  split at h
  · simp only [lookup] at h
    split at h
    · cases h; rfl
    · cases h
  · cases h
end

/-- When there is a verdict on a constraint. -/
theorem addConstraint_ok_iff {z : Z3Oracle} {s : Solver} {c : Expr} {src : ConstraintSource} :
    (∃ b, (s.addConstraint z c src).1 = .ok b) ↔ (∃ val hi, z.check s.calls s.assertions = .sat val hi) ∧
      c.ty = .boolean ∧ ∃ t, evalSym src s.env c = .ok (.expr ⟨.bool, t⟩) := by
  have hev : ∀ {x : Z3Expr}, evaluateConstraintSymbolically c src s.env = .ok x ↔
      c.ty = .boolean ∧ evalSym src s.env c = .ok (.expr x) := by
    intro x
    unfold evaluateConstraintSymbolically
    by_cases ht : c.ty = .boolean
    · rw [if_neg (by simp [ht]), symToExpr_val]; simp [ht]
    · rw [if_pos ht]; simp [ht]
  unfold Solver.addConstraint Solver.check
  dsimp only
  constructor
  · rintro ⟨b, h⟩
    split at h
    · rename_i val hi hs
      split at h
      · rename_i t ht
        obtain ⟨h1, h2⟩ := hev.1 ht
        exact ⟨⟨val, hi, hs⟩, h1, t, h2⟩
      all_goals cases h
    · cases h
  · rintro ⟨⟨val, hi, hs⟩, h1, t, h2⟩
    rw [hs]
    dsimp only
    rw [hev.2 ⟨h1, h2⟩]
    dsimp only
    split
    · exact ⟨true, rfl⟩
    · exact ⟨false, rfl⟩

end P4C
