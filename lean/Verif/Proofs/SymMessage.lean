import Verif.Model.SymMessage
import Verif.Proofs.EntryMessage

/-
The model of the symbolic interpreter with messages agrees with the model without them.
-/

namespace P4C

open MRes

theorem erase_typeBitwidth (x : SymTexts) (t : Ty) : (typeBitwidthOrStatusM x t).erase = typeBitwidthOrStatus t := by
  unfold typeBitwidthOrStatusM typeBitwidthOrStatus
  cases typeBitwidth t <;> rfl

theorem erase_getFieldAccess (k : SymKey) (f : Str) : (getFieldAccessM k f).erase = getFieldAccess k f := by
  cases k <;> simp only [getFieldAccessM, getFieldAccess] <;> repeat' (first | rfl | split)

theorem erase_symBinExpr (x : SymTexts) (op : BinOp) (l r : Z3Expr) :
    (symBinExprM x op l r).erase = symBinExpr op l r := by
  cases op <;> simp only [symBinExprM, symBinExpr, erase_ofRes, erase_err]

theorem erase_symBinPair (x : SymTexts) (op : BinOp) (l1 l2 r1 r2 : Z3Expr) :
    (symBinPairM x op l1 l2 r1 r2).erase = symBinPair op l1 l2 r1 r2 := by
  unfold symBinPairM symBinPair
  split
  · rfl
  · simp only [erase_bind, erase_symBinExpr, erase_ofRes]

theorem erase_symBin (x : SymTexts) (op : BinOp) (l r : SymResult) : (symBinM x op l r).erase = symBin op l r := by
  cases l with
  | expr a => cases r with
    | expr b => exact erase_symBinExpr ..
    | key b => rfl
  | key a => cases r with
    | expr b => cases a <;> rfl
    | key b =>
      cases a <;> cases b <;> first | rfl | exact erase_symBinExpr .. | exact erase_symBinPair ..

theorem erase_symCast (x : SymTexts) (e : Z3Expr) (t : Ty) : (symCastM x e t).erase = symCast e t := by
  unfold symCastM symCast
  rw [erase_bind, erase_annotate, erase_typeBitwidth]
  congr 1; funext w
  cases t <;> simp only [erase_bind, erase_ofRes, erase_ok, erase_err]

theorem erase_findPtr {α : Type} (n : Str) (m : List (Str × α)) :
    (findPtrOrStatusM n m).erase = findPtrOrStatus n m := by
  unfold findPtrOrStatusM findPtrOrStatus
  cases lookup n m <;> rfl

theorem erase_symToExpr (x : SymTexts) (src : ConstraintSource) (e : Expr) (r : MRes SymResult) :
    (symToExprM x src e r).erase = symToExpr src e r.erase := by
  unfold symToExprM symToExpr
  rw [erase_bind]
  congr 1; funext r
  cases r with
  | expr z => rfl
  | key k =>
    simp only [runtimeTypeError]
    cases quoteSub src e.start e.stop <;> rfl

theorem erase_evalSym (x : SymTexts) (src : ConstraintSource) (env : SymEnv) :
    ∀ e, (evalSymM x src env e).erase = evalSym src env e
  | .boolConst .. => rfl
  | .boolNeg _ e => by
    simp only [evalSymM, evalSym, erase_bind, erase_symToExpr, erase_evalSym x src env e, erase_ofRes, erase_ok]
  | .intConst .. => by simp only [evalSymM, evalSym, erase_bind, erase_ofRes, erase_ok]
  | .arithNeg _ e => by
    simp only [evalSymM, evalSym, erase_bind, erase_symToExpr, erase_evalSym x src env e, erase_ofRes, erase_ok]
  | .key .. => by simp only [evalSymM, evalSym, erase_bind, erase_findPtr, erase_ok]
  | .actionParam .. => rfl
  | .field .. => by simp only [evalSymM, evalSym, erase_bind, erase_findPtr, erase_getFieldAccess, erase_ok]
  | .attr .. => by simp only [evalSymM, evalSym, erase_bind, erase_findPtr, erase_ok]
  | .bin _ _ l r => by
    simp only [evalSymM, evalSym, erase_bind, erase_evalSym x src env l, erase_evalSym x src env r, erase_symBin,
      erase_ok]
  | .typeCast _ e => by
    simp only [evalSymM, evalSym, erase_bind, erase_symToExpr, erase_evalSym x src env e, erase_symCast]
  | .notSet .. => rfl

theorem erase_evaluate (x : SymTexts) (c : Expr) (src : ConstraintSource) (env : SymEnv) :
    (evaluateConstraintSymbolicallyM x c src env).erase = evaluateConstraintSymbolically c src env := by
  unfold evaluateConstraintSymbolicallyM evaluateConstraintSymbolically
  split
  · rfl
  · rw [erase_symToExpr, erase_evalSym]

theorem erase_addSymbolicKey (x : SymTexts) (ki : VarInfo) : (addSymbolicKeyM x ki).erase = addSymbolicKey ki := by
  unfold addSymbolicKeyM
  rw [erase_bind, erase_typeBitwidth]
  cases hw : typeBitwidthOrStatus ki.ty with
  | ok w =>
    simp only [Res.ok_bind]
    by_cases h0 : w = 0
    · rw [if_pos h0]
      simp [addSymbolicKey, hw, h0]
    · rw [if_neg h0]
      cases ht : ki.ty <;> simp only [erase_ofRes, erase_err] <;> simp [addSymbolicKey, ht] <;>
        simp [ht] at hw <;> simp [hw, h0]
  | _ => simp [addSymbolicKey, hw]

theorem erase_concretizeKey (x : SymTexts) (k : SymKey) (ki : VarInfo) (m : Interp) :
    (concretizeKeyM x k ki m).erase = concretizeKey k ki m := by
  have hz : ∀ s w, (z3ToBytesM s w).erase = z3ToBytes s w := fun s w => erase_ofRes ..
  unfold concretizeKeyM concretizeKey
  rw [erase_bind, erase_typeBitwidth]
  congr 1; funext w
  cases ki.ty with
  | lpm v =>
    dsimp only
    rw [erase_bind, erase_getFieldAccess]
    congr 1; funext p
    obtain ⟨s, t⟩ := p
    cases s with
    | int =>
      dsimp only
      split
      · rfl
      · split
        · rfl
        · simp only [erase_bind, erase_getFieldAccess, hz, erase_ok]
    | _ => rfl
  | ternary v =>
    dsimp only
    rw [erase_bind, erase_getFieldAccess]
    congr 1; funext p
    split
    · rfl
    · simp only [erase_bind, erase_getFieldAccess, hz, erase_ok]
  | optionalMatch v =>
    dsimp only
    rw [erase_bind, erase_getFieldAccess]
    congr 1; funext p
    split
    · rfl
    · simp only [erase_bind, erase_getFieldAccess, hz, erase_ok]
  | exact v => simp only [erase_bind, erase_getFieldAccess, hz, erase_ok]
  | _ => rfl

/-- Forget the message of an answer. -/
def eraseFst {α : Type} (p : MRes α × Solver) : Res α × Solver := (p.1.erase, p.2)

theorem erase_addConstraint (z : Z3Oracle) (x : SymTexts) (s : Solver) (c : Expr) (src : ConstraintSource) :
    eraseFst (s.addConstraintM z x c src) = s.addConstraint z c src := by
  unfold Solver.addConstraintM Solver.addConstraint
  simp only [← erase_evaluate x]
  cases hr : (s.check z).1 with
  | sat m h =>
    simp only
    cases evaluateConstraintSymbolicallyM x c src (s.check z).2.env with
    | ok e =>
      obtain ⟨srt, t⟩ := e
      cases srt with
      | bool =>
        simp only [erase_ok]
        generalize Solver.check z _ = q
        obtain ⟨r, s'⟩ := q
        cases r <;> rfl
      | _ => rfl
    | _ => rfl
  | _ => rfl

theorem erase_addConstraintStr (z : Z3Oracle) (x : SymTexts) (sys : Sys) (s : Solver) (text : Str) :
    eraseFst (s.addConstraintStrM z x sys text) = s.addConstraintStr z sys text := by
  unfold Solver.addConstraintStrM Solver.addConstraintStr
  dsimp only
  rw [← erase_parseConstraint x.toTexts]
  cases parseConstraintM x.toTexts sys .table ⟨text, { src := .tableName s.table.name }⟩ with
  | ok e =>
    simp only [ok_bind, erase_ok, Res.ok_bind]
    rw [← erase_inferAndCheck x.toTexts]
    cases inferAndCheckM x.toTexts s.table.source (.table s.table.keysByName) e with
    | ok e => simp only [erase_ok]; exact erase_addConstraint ..
    | _ => rfl
  | _ => rfl

theorem erase_createKeys (x : SymTexts) (skip : Str → MRes Bool) : ∀ ks as l,
    (createKeysM x skip ks as l).erase = createKeys (fun n => (skip n).erase) ks as l
  | _, _, [] => rfl
  | ks, as, (n, ki) :: rest => by
    unfold createKeysM createKeys
    rw [erase_bind]
    congr 1; funext b
    cases b with
    | true => exact erase_createKeys x skip ks as rest
    | false =>
      simp only [Bool.false_eq_true, if_false]
      rw [erase_bind, erase_addSymbolicKey]
      congr 1; funext p
      obtain ⟨k, a⟩ := p
      exact erase_createKeys x skip _ _ rest

theorem erase_create (z : Z3Oracle) (x : SymTexts) (ti : TableInfo) (skip : Str → MRes Bool) :
    (Solver.createM z x ti skip).erase = Solver.create z ti fun n => (skip n).erase := by
  unfold Solver.createM Solver.create
  dsimp only
  rw [erase_bind, erase_createKeys]
  congr 1; funext p
  obtain ⟨ks, as⟩ := p
  dsimp only
  generalize hs : (if (ordered ti.keysByName).any fun kv => needsPriority kv.2.ty then
    (⟨0, as ++ priorityAssertions, ti, ⟨ks, [(c!"priority", ⟨.int, priorityTerm⟩)]⟩, fun n => (skip n).erase⟩ : Solver)
    else ⟨0, as, ti, ⟨ks, []⟩, fun n => (skip n).erase⟩) = s
  cases ti.constraint with
  | none => rfl
  | some c =>
    dsimp only
    rw [← erase_addConstraint z x]
    generalize s.addConstraintM z x c ti.source = q
    obtain ⟨r, s'⟩ := q
    cases r with
    | ok b => cases b <;> rfl
    | _ => rfl

theorem erase_concretizeKeys (x : SymTexts) (skip : Str → MRes Bool) (env : SymEnv) (m : Interp) : ∀ l,
    (concretizeKeysM x skip env m l).erase = concretizeKeys (fun n => (skip n).erase) env m l
  | [] => rfl
  | (n, ki) :: rest => by
    unfold concretizeKeysM concretizeKeys
    rw [erase_bind]
    congr 1; funext b
    cases b with
    | true => exact erase_concretizeKeys x skip env m rest
    | false =>
      simp only [Bool.false_eq_true, if_false, erase_bind, erase_findPtr, erase_concretizeKey,
        erase_concretizeKeys x skip env m rest, erase_ok]
      rfl

theorem erase_concretize (z : Z3Oracle) (x : SymTexts) (skip : Str → MRes Bool) (s : Solver)
    (h : s.skip = fun n => (skip n).erase) : eraseFst (s.concretizeM z x skip) = s.concretize z := by
  unfold Solver.concretizeM Solver.concretize
  dsimp only
  cases hr : (s.check z).1 with
  | sat m hi =>
    simp only [eraseFst, erase_bind, erase_concretizeKeys, concretizePriorityM, erase_ofRes, erase_ok]
    have : (s.check z).2.skip = s.skip := rfl
    rw [this, h]
  | _ => rfl

end P4C
