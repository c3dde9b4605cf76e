import Verif.Model.EntryMessage
import Verif.Proofs.Message

/-
The functions of `Verif/Model/EntryMessage.lean` agree with those of `Verif/Model/Interpreter.lean` up to the texts.
-/

namespace P4C

open MRes

@[simp] theorem erase_annotate {α : Type} (t : Str) (x : MRes α) : (x.annotate t).erase = x.erase := by
  cases x <;> rfl

@[simp] theorem erase_ofRes {α : Type} (t : Str) (x : Res α) : (MRes.ofRes t x).erase = x := by
  cases x <;> rfl

theorem erase_parseKey (x : EntryTexts) (fm : FieldMatch) (ti : TableInfo) :
    (parseKeyM x fm ti).erase = parseKey fm ti := by
  unfold parseKeyM parseKey
  cases lookup fm.fieldId ti.keysById with
  | none => rfl
  | some key =>
    cases fm.val <;> dsimp only <;> cases key.ty <;> first | rfl | simp [erase_bind]

theorem erase_parseMatches (x : EntryTexts) (ti : TableInfo) : ∀ keys fms,
    (parseMatchesM x ti keys fms).erase = parseMatches ti keys fms
  | _, [] => rfl
  | keys, fm :: fms => by
    unfold parseMatchesM parseMatches
    rw [erase_bind, erase_parseKey]
    congr 1; funext y
    obtain ⟨n, v⟩ := y
    dsimp only
    cases insertNew n v keys with
    | none => rfl
    | some keys => exact erase_parseMatches x ti keys fms

theorem erase_defaultValue (x : EntryTexts) (ki : VarInfo) : (defaultValueM x ki).erase = defaultValue ki := by
  unfold defaultValueM defaultValue
  cases ki.ty <;> first | rfl | simp [erase_bind]

theorem erase_addDefaults (x : EntryTexts) : ∀ keys l, (addDefaultsM x keys l).erase = addDefaults keys l
  | _, [] => rfl
  | keys, (name, ki) :: rest => by
    unfold addDefaultsM addDefaults
    by_cases h : hasKey name keys
    · rw [if_pos h, if_pos h]; exact erase_addDefaults x keys rest
    · rw [if_neg h, if_neg h, erase_bind, erase_defaultValue]
      congr 1; funext v
      exact erase_addDefaults x _ rest

theorem erase_parseTableEntry (x : EntryTexts) (entry : RtEntry) (ti : TableInfo) :
    (parseTableEntryM x entry ti).erase = parseTableEntry entry ti := by
  unfold parseTableEntryM parseTableEntry
  simp [erase_bind, erase_parseMatches, erase_addDefaults]

theorem erase_parseParams (ai : ActionInfo) : ∀ ps l, (parseParamsM ai ps l).erase = parseParams ai ps l
  | _, [] => rfl
  | ps, (id, v) :: rest => by
    unfold parseParamsM parseParams
    cases lookup id ai.paramsById with
    | none => rfl
    | some pi =>
      dsimp only
      by_cases h : hasKey pi.name ps
      · rw [if_pos h, if_pos h]; rfl
      · rw [if_neg h, if_neg h]; exact erase_parseParams ai _ rest

theorem erase_parseAction (a : RtAction) (ai : ActionInfo) : (parseActionM a ai).erase = parseAction a ai := by
  unfold parseActionM parseAction
  simp [erase_bind, erase_parseParams]

theorem erase_rtError {α : Type} (x : EntryTexts) (ctx : EvalCtx) (e : Expr) (t : Str) :
    (rtErrorM (α := α) x ctx e t).erase = rtError ctx e := by
  unfold rtErrorM rtError runtimeTypeError
  cases quoteSub ctx.src e.start e.stop <;> rfl

theorem erase_evalToBoolWith (x : EntryTexts) (ctx : EvalCtx) (e : Expr) (p : Path)
    {runM : Cache → MRes (Value × Cache)} {run : Cache → Res (Value × Cache)} (h : ∀ c, (runM c).erase = run c)
    (c : Cache) : (evalToBoolWithM x ctx e p runM c).erase = evalToBoolWith ctx e p run c := by
  unfold evalToBoolWithM evalToBoolWith
  cases c.bind (lookup p) with
  | some b => rfl
  | none =>
    dsimp only
    rw [erase_bind, h]
    congr 1; funext y
    obtain ⟨v, c⟩ := y
    cases v <;> first | rfl | exact erase_rtError ..

theorem erase_evalToIntWith (x : EntryTexts) (ctx : EvalCtx) (e : Expr)
    {runM : Cache → MRes (Value × Cache)} {run : Cache → Res (Value × Cache)} (h : ∀ c, (runM c).erase = run c)
    (c : Cache) : (evalToIntWithM x ctx e runM c).erase = evalToIntWith ctx e run c := by
  unfold evalToIntWithM evalToIntWith
  rw [erase_bind, h]
  congr 1; funext y
  obtain ⟨v, c⟩ := y
  cases v <;> first | rfl | exact erase_rtError ..

theorem erase_castValue (x : EntryTexts) (ctx : EvalCtx) (e : Expr) (t : Ty) (v : Value) :
    (castValueM x ctx e t v).erase = castValue ctx e t v := by
  unfold castValueM castValue
  cases v <;> dsimp only <;> try exact erase_rtError ..
  cases t <;> dsimp only <;> first | exact erase_rtError .. | rfl | simp [erase_bind]

theorem erase_dynCheck (x : EntryTexts) (ctx : EvalCtx) (e : Expr) {r : MRes (Value × Cache)}
    {r' : Res (Value × Cache)} (h : r.erase = r') : (dynCheckM x ctx e r).erase = dynCheck ctx e r' := by
  unfold dynCheckM dynCheck
  rw [erase_bind, h]
  congr 1; funext y
  obtain ⟨v, c⟩ := y
  dsimp only
  by_cases hv : valueMatchesTy e.ty v
  · rw [if_pos hv, if_pos hv]; rfl
  · rw [if_neg hv, if_neg hv]; exact erase_rtError ..

theorem erase_eval (x : EntryTexts) (ctx : EvalCtx) : ∀ e p c, (evalM x ctx e p c).erase = eval ctx e p c := by
  intro e
  induction e with
  | boolConst i b => intro p c; unfold evalM eval; exact erase_dynCheck x ctx _ rfl
  | intConst i s =>
    intro p c; unfold evalM eval; apply erase_dynCheck
    cases setStr 10 s <;> rfl
  | key i n =>
    intro p c; unfold evalM eval; apply erase_dynCheck
    cases ctx.vals with
    | action a => exact erase_rtError ..
    | table t => dsimp only; cases lookup n t.keys <;> first | rfl | exact erase_rtError ..
  | actionParam i n =>
    intro p c; unfold evalM eval; apply erase_dynCheck
    cases ctx.vals with
    | table a => exact erase_rtError ..
    | action t => dsimp only; cases lookup n t.params <;> first | rfl | exact erase_rtError ..
  | attr i n =>
    intro p c; unfold evalM eval; apply erase_dynCheck
    cases ctx.vals with
    | action a => exact erase_rtError ..
    | table t =>
      dsimp only
      by_cases h : n = c!"priority"
      · rw [if_pos h, if_pos h]; rfl
      · rw [if_neg h, if_neg h]; exact erase_rtError ..
  | boolNeg i e ih =>
    intro p c; unfold evalM eval; apply erase_dynCheck
    rw [erase_bind, erase_evalToBoolWith x ctx e (0 :: p) (ih (0 :: p))]
    rfl
  | arithNeg i e ih =>
    intro p c; unfold evalM eval; apply erase_dynCheck
    rw [erase_bind, erase_evalToIntWith x ctx e (ih (0 :: p))]
    rfl
  | typeCast i e ih =>
    intro p c; unfold evalM eval; apply erase_dynCheck
    rw [erase_bind, ih]
    congr 1; funext y
    rw [erase_bind, erase_castValue]
    rfl
  | bin i op l r ihl ihr =>
    intro p c; unfold evalM eval; apply erase_dynCheck
    have hl := fun c => ihl (0 :: p) c
    have hr := fun c => ihr (1 :: p) c
    cases op <;> dsimp only
    case unknown => rfl
    case eq =>
      rw [erase_bind, hl]; congr 1; funext y; rw [erase_bind, hr]; rfl
    case ne =>
      rw [erase_bind, hl]; congr 1; funext y; rw [erase_bind, hr]; rfl
    case and =>
      rw [erase_bind, erase_evalToBoolWith x ctx l (0 :: p) hl]; congr 1; funext y
      obtain ⟨b, c⟩ := y
      cases b
      · rfl
      · rw [if_pos rfl, if_pos rfl, erase_bind, erase_evalToBoolWith x ctx r (1 :: p) hr]; rfl
    case or =>
      rw [erase_bind, erase_evalToBoolWith x ctx l (0 :: p) hl]; congr 1; funext y
      obtain ⟨b, c⟩ := y
      cases b
      · show (_ : MRes _).erase = _
        simp only [Bool.false_eq_true, if_false]
        rw [erase_bind, erase_evalToBoolWith x ctx r (1 :: p) hr]; rfl
      · rfl
    case implies =>
      rw [erase_bind, erase_evalToBoolWith x ctx l (0 :: p) hl]; congr 1; funext y
      obtain ⟨b, c⟩ := y
      cases b
      · rfl
      · rw [if_pos rfl, if_pos rfl, erase_bind, erase_evalToBoolWith x ctx r (1 :: p) hr]; rfl
    all_goals
      rw [erase_bind, erase_annotate, erase_evalToIntWith x ctx l hl]; congr 1; funext y
      rw [erase_bind, erase_annotate, erase_evalToIntWith x ctx r hr]; rfl
  | field i e f ih =>
    intro p c; unfold evalM eval; apply erase_dynCheck
    rw [erase_bind, ih]
    congr 1; funext y
    obtain ⟨v, c⟩ := y
    dsimp only
    cases evalFieldAccess f v <;> first | rfl | exact erase_rtError ..
  | notSet i => intro p c; unfold evalM eval; exact erase_dynCheck x ctx _ rfl

theorem erase_evalToBoolC (x : EntryTexts) (ctx : EvalCtx) (e : Expr) (p : Path) (c : EvalCache) :
    (evalToBoolCM x ctx e p c).erase = evalToBoolC ctx e p c := by
  unfold evalToBoolCM evalToBoolC evalToBoolM evalToBool
  rw [erase_bind, erase_evalToBoolWith x ctx e p (erase_eval x ctx e p)]
  rfl

theorem erase_sizeC (x : EntryTexts) : ∀ e p c, (sizeCM x e p c).erase = sizeC e p c := by
  intro e
  induction e with
  | bin i op l r ihl ihr =>
    intro p c; unfold sizeCM sizeC
    cases lookup p c with
    | some n => rfl
    | none => dsimp only; rw [erase_bind, ihl]; congr 1; funext y; rw [erase_bind, ihr]; rfl
  | boolNeg i e ih =>
    intro p c; unfold sizeCM sizeC
    cases lookup p c with
    | some n => rfl
    | none => dsimp only; rw [erase_bind, ih]; rfl
  | _ => intro p c; unfold sizeCM sizeC; cases lookup p c <;> rfl

theorem erase_minimalSub (x : EntryTexts) (ctx : EvalCtx) : ∀ e p cs,
    (minimalSubM x ctx e p cs).erase = minimalSub ctx e p cs := by
  intro e
  induction e with
  | boolNeg i e ih => intro p cs; unfold minimalSubM minimalSub; exact ih _ _
  | bin i op l r ihl ihr =>
    intro p cs
    have hc : ∀ (lc rc : Bool) (cs : Caches),
        (match lc, rc with
          | false, false => .ok ((.bin i op l r, p), cs)
          | true, false => minimalSubM x ctx l (0 :: p) cs
          | false, true => minimalSubM x ctx r (1 :: p) cs
          | true, true => do
            let (n0, cs) ← minimalSubM x ctx l (0 :: p) cs
            let (n1, cs) ← minimalSubM x ctx r (1 :: p) cs
            let (s0, sc) ← sizeCM x n0.1 n0.2 cs.2
            let (s1, sc) ← sizeCM x n1.1 n1.2 sc
            .ok (if s0 ≤ s1 then n0 else n1, (cs.1, sc)) : MRes (Node × Caches)).erase =
        (match lc, rc with
          | false, false => .ok ((.bin i op l r, p), cs)
          | true, false => minimalSub ctx l (0 :: p) cs
          | false, true => minimalSub ctx r (1 :: p) cs
          | true, true => do
            let (n0, cs) ← minimalSub ctx l (0 :: p) cs
            let (n1, cs) ← minimalSub ctx r (1 :: p) cs
            let (s0, sc) ← sizeC n0.1 n0.2 cs.2
            let (s1, sc) ← sizeC n1.1 n1.2 sc
            .ok (if s0 ≤ s1 then n0 else n1, (cs.1, sc)) : Res (Node × Caches)) := by
      intro lc rc cs
      cases lc <;> cases rc <;> dsimp only
      · rfl
      · exact ihr _ _
      · exact ihl _ _
      · rw [erase_bind, ihl]; congr 1; funext y
        rw [erase_bind, ihr]; congr 1; funext z
        rw [erase_bind, erase_sizeC]; congr 1; funext a
        rw [erase_bind, erase_sizeC]; rfl
    cases op <;> unfold minimalSubM minimalSub <;> dsimp only <;> try rfl
    all_goals
      rw [erase_bind, erase_evalToBoolC]; congr 1; funext y
      rw [erase_bind, erase_evalToBoolC]; congr 1; funext z
      exact hc _ _ _
  | _ => intro p cs; rfl

theorem erase_explainViolation (x : EntryTexts) (ctx : EvalCtx) (e : Expr) (ec : EvalCache) :
    (explainViolationM x ctx e ec).erase = explainViolation ctx e ec := by
  unfold explainViolationM explainViolation
  rw [erase_bind, erase_minimalSub]; congr 1; funext y
  rw [erase_bind, erase_evalToBoolC]; congr 1; funext z
  rw [erase_bind, erase_ofRes]; rfl

theorem erase_checkConstraint (x : EntryTexts) (kind name : Str) (e : Expr) {parseM : MRes EvalCtx}
    {parse : Res EvalCtx} (h : parseM.erase = parse) :
    (checkConstraintM x kind name e parseM).erase = checkConstraint e parse := by
  unfold checkConstraintM checkConstraint
  by_cases hb : e.ty ≠ .boolean
  · rw [if_pos hb, if_pos hb]; rfl
  · rw [if_neg hb, if_neg hb, erase_bind, erase_annotate, h]; congr 1; funext ctx
    rw [erase_bind, erase_evalToBoolC]; congr 1; funext y
    obtain ⟨b, ec⟩ := y
    cases b
    · exact erase_explainViolation ..
    · rfl

theorem erase_reasonAction (x : EntryTexts) (a : RtAction) (ci : ConstraintInfo) :
    (reasonActionM x a ci).erase = reasonAction a ci := by
  unfold reasonActionM reasonAction
  cases getActionInfo ci a.actionId with
  | none => rfl
  | some ai =>
    dsimp only
    cases ai.constraint with
    | none => rfl
    | some e => exact erase_checkConstraint x _ _ e (erase_parseAction a ai)

theorem erase_reasonActionSet (x : EntryTexts) (ci : ConstraintInfo) : ∀ as,
    (reasonActionSetM x ci as).erase = reasonActionSet ci as
  | [] => rfl
  | a :: as => by
    unfold reasonActionSetM reasonActionSet
    rw [erase_bind, erase_reasonAction]; congr 1; funext s
    by_cases h : s ≠ []
    · rw [if_pos h, if_pos h]; rfl
    · rw [if_neg h, if_neg h]; exact erase_reasonActionSet x ci as

theorem erase_reasonTableAction (x : EntryTexts) (ci : ConstraintInfo) (entry : RtEntry) :
    (reasonTableActionM x ci entry).erase = reasonTableAction ci entry.action := by
  unfold reasonTableActionM reasonTableAction
  cases entry.action with
  | none => rfl
  | some y =>
    cases y <;> first | rfl | exact erase_reasonAction .. | exact erase_reasonActionSet ..

/-- Up to the texts of errors the model with texts agrees with the model without. -/
theorem erase_reason (x : EntryTexts) (entry : RtEntry) (ci : ConstraintInfo) :
    (reasonEntryViolatesConstraintM x entry ci).erase = reasonEntryViolatesConstraint entry ci := by
  unfold reasonEntryViolatesConstraintM reasonEntryViolatesConstraint
  cases getTableInfo ci entry.tableId with
  | none => rfl
  | some ti =>
    dsimp only
    cases ti.constraint with
    | none => exact erase_reasonTableAction x ci entry
    | some e =>
      dsimp only
      rw [erase_bind, erase_checkConstraint x _ _ e (erase_parseTableEntry x entry ti)]; congr 1; funext s
      by_cases h : s ≠ []
      · rw [if_pos h, if_pos h]; rfl
      · rw [if_neg h, if_neg h]; exact erase_reasonTableAction x ci entry

end P4C
