import Verif.Model.Interpreter

/-
The interpreter with a counter of calls and the depth of the recursion. The functions are those of
`Model/Interpreter.lean` (and `Size` and `AddVariables` of `Model/Ast.lean`), each of which adds one to the counter when it
is called, and is one level deeper than its caller; that results are the same is a theorem (`C57_same_results`). Not
counted: parsing of the entry, quoting and formatting. Lookup in and insertion into a hash map take constant time. `Eval_`
and the functions it visits with are part of `Eval`.
-/

namespace P4C

/-- A result, with the number of calls made and the depth of the recursion. -/
structure Counted (α : Type) where
  calls : Nat
  depth : Nat
  res : Res α

namespace Counted

/-- Sequencing; an error stops. -/
def bind {α β : Type} (x : Counted α) (f : α → Counted β) : Counted β :=
  match x.res with
  | .ok a => ⟨x.calls + (f a).calls, max x.depth (f a).depth, (f a).res⟩
  | .err c => ⟨x.calls, x.depth, .err c⟩
  | .crash => ⟨x.calls, x.depth, .crash⟩
  | .oof => ⟨x.calls, x.depth, .oof⟩

instance : Monad Counted where
  pure a := ⟨0, 0, .ok a⟩
  bind := bind

end Counted

@[simp] theorem Counted.res_bind {α β : Type} (x : Counted α) (f : α → Counted β) :
    (x >>= f).res = x.res >>= fun a => (f a).res := by
  obtain ⟨n, d, r⟩ := x
  cases r <;> rfl

/-- A call of one of the functions counted. -/
def call : Counted Unit := ⟨1, 0, .ok ()⟩

/-- The body of such a function: one level deeper. -/
def deeper {α : Type} (x : Counted α) : Counted α := ⟨x.calls, x.depth + 1, x.res⟩

/-- Something that is not counted. -/
def free {α : Type} (r : Res α) : Counted α := ⟨0, 0, r⟩

/-- `EvalToBool` (interpreter.cc:281-298). -/
def evalToBoolWithT (ctx : EvalCtx) (e : Expr) (p : Path) (run : Cache → Counted (Value × Cache))
    (c : Cache) : Counted (Bool × Cache) := deeper do
  call
  match c.bind (lookup p) with
  | some b => free (.ok (b, c))
  | none => do
    let (v, c) ← run c
    match v with
    | .bool b => free (.ok (b, c.map fun m => (insertNew p b m).getD m))
    | _ => free (rtError ctx e)

/-- `EvalToInt` (interpreter.cc:301-310). -/
def evalToIntWithT (ctx : EvalCtx) (e : Expr) (run : Cache → Counted (Value × Cache)) (c : Cache) :
    Counted (Int × Cache) := deeper do
  call
  let (v, c) ← run c
  match v with
  | .int z => free (.ok (z, c))
  | _ => free (rtError ctx e)

/-- `Eval` (interpreter.cc:824-830): `Eval_` and a check of the type of the result. -/
def dynCheckT (ctx : EvalCtx) (e : Expr) (r : Counted (Value × Cache)) : Counted (Value × Cache) := deeper do
  call
  let (v, c) ← r
  if valueMatchesTy e.ty v then free (.ok (v, c)) else free (rtError ctx e)

/-- `Eval` of an expression without subexpressions. -/
def leafT (r : Res (Value × Cache)) : Counted (Value × Cache) := deeper do
  call
  free r

/-- `Eval` and `Eval_` (interpreter.cc:664-830). -/
def evalT (ctx : EvalCtx) : Expr → Path → Cache → Counted (Value × Cache)
  | .boolConst i b, p, c => leafT (eval ctx (.boolConst i b) p c)
  | .intConst i s, p, c => leafT (eval ctx (.intConst i s) p c)
  | .key i n, p, c => leafT (eval ctx (.key i n) p c)
  | .actionParam i n, p, c => leafT (eval ctx (.actionParam i n) p c)
  | .attr i n, p, c => leafT (eval ctx (.attr i n) p c)
  | .notSet i, p, c => leafT (eval ctx (.notSet i) p c)
  | .boolNeg i e, p, c => dynCheckT ctx (.boolNeg i e) (do
      let (b, c) ← evalToBoolWithT ctx e (0 :: p) (fun c => evalT ctx e (0 :: p) c) c
      free (.ok (.bool (!b), c)))
  | .arithNeg i e, p, c => dynCheckT ctx (.arithNeg i e) (do
      let (z, c) ← evalToIntWithT ctx e (fun c => evalT ctx e (0 :: p) c) c
      free (.ok (.int (-z), c)))
  | .typeCast i e, p, c => dynCheckT ctx (.typeCast i e) (do
      let (v, c) ← evalT ctx e (0 :: p) c
      let v ← free (castValue ctx e i.ty v)
      free (.ok (v, c)))
  | .bin i op l r, p, c => dynCheckT ctx (.bin i op l r)
      (match op with
       | .eq | .ne => do
         let (lv, c) ← evalT ctx l (0 :: p) c
         let (rv, c) ← evalT ctx r (1 :: p) c
         free (.ok (.bool (if op = .eq then lv = rv else !(lv = rv)), c))
       | .gt | .ge | .lt | .le => do
         let (lv, c) ← evalToIntWithT ctx l (fun c => evalT ctx l (0 :: p) c) c
         let (rv, c) ← evalToIntWithT ctx r (fun c => evalT ctx r (1 :: p) c) c
         free (.ok (.bool (match op with
           | .gt => lv > rv
           | .ge => lv ≥ rv
           | .lt => lv < rv
           | _ => lv ≤ rv), c))
       | .and => do
         let (lb, c) ← evalToBoolWithT ctx l (0 :: p) (fun c => evalT ctx l (0 :: p) c) c
         if lb then do
           let (rb, c) ← evalToBoolWithT ctx r (1 :: p) (fun c => evalT ctx r (1 :: p) c) c
           free (.ok (.bool rb, c))
         else free (.ok (.bool false, c))
       | .or => do
         let (lb, c) ← evalToBoolWithT ctx l (0 :: p) (fun c => evalT ctx l (0 :: p) c) c
         if lb then free (.ok (.bool true, c))
         else do
           let (rb, c) ← evalToBoolWithT ctx r (1 :: p) (fun c => evalT ctx r (1 :: p) c) c
           free (.ok (.bool rb, c))
       | .implies => do
         let (lb, c) ← evalToBoolWithT ctx l (0 :: p) (fun c => evalT ctx l (0 :: p) c) c
         if lb then do
           let (rb, c) ← evalToBoolWithT ctx r (1 :: p) (fun c => evalT ctx r (1 :: p) c) c
           free (.ok (.bool rb, c))
         else free (.ok (.bool true, c))
       | .unknown => free (.err .internal))
  | .field i e f, p, c => dynCheckT ctx (.field i e f) (do
      let (v, c) ← evalT ctx e (0 :: p) c
      match evalFieldAccess f v with
      | some v => free (.ok (v, c))
      | none => free (rtError ctx (.field i e f)))

/-- `EvalToBool(.., &eval_cache)` with a non-null cache. -/
def evalToBoolT (ctx : EvalCtx) (e : Expr) (p : Path) (c : EvalCache) : Counted (Bool × EvalCache) := do
  let (b, c') ← evalToBoolWithT ctx e p (fun c => evalT ctx e p c) (some c)
  free (.ok (b, c'.getD c))

/-- `Size` (ast.cc:254-294). -/
def sizeT : Expr → Path → SizeCache → Counted (Nat × SizeCache)
  | e, p, c => deeper do
    call
    match lookup p c with
    | some n => free (.ok (n, c))
    | none =>
      match e with
      | .boolConst .. | .intConst .. | .key .. | .arithNeg .. | .typeCast .. | .field .. | .attr .. =>
        free (.ok (1, c))
      | .bin _ _ l r => do
        let (ls, c) ← sizeT l (0 :: p) c
        let (rs, c) ← sizeT r (1 :: p) c
        let n := 1 + ls + rs
        free (.ok (n, (p, n) :: c))
      | .boolNeg _ e => do
        let (s, c) ← sizeT e (0 :: p) c
        let n := 1 + s
        free (.ok (n, (p, n) :: c))
      | .actionParam .. | .notSet .. => free (.err .invalidArgument)

/-- `MinimalSubexpressionLeadingToEvalResult` (interpreter.cc:480-588). -/
def minimalSubT (ctx : EvalCtx) : Expr → Path → Caches → Counted (Node × Caches)
  | .boolConst i b, p, cs => deeper do
    call
    free (.ok ((.boolConst i b, p), cs))
  | .boolNeg _ e, p, cs => deeper do
    call
    minimalSubT ctx e (0 :: p) cs
  | .bin i op l r, p, cs => deeper do
    call
    match op with
    | .eq | .ne | .gt | .ge | .lt | .le => free (.ok ((.bin i op l r, p), cs))
    | .and | .or | .implies => do
      let (lb, ec) ← evalToBoolT ctx l (0 :: p) cs.1
      let (rb, ec) ← evalToBoolT ctx r (1 :: p) ec
      let cs := (ec, cs.2)
      let lc := if op = .or then lb else !lb
      let rc := if op = .and then !rb else rb
      match lc, rc with
      | false, false => free (.ok ((.bin i op l r, p), cs))
      | true, false => minimalSubT ctx l (0 :: p) cs
      | false, true => minimalSubT ctx r (1 :: p) cs
      | true, true => do
        let (n0, cs) ← minimalSubT ctx l (0 :: p) cs
        let (n1, cs) ← minimalSubT ctx r (1 :: p) cs
        let (s0, sc) ← sizeT n0.1 n0.2 cs.2
        let (s1, sc) ← sizeT n1.1 n1.2 sc
        free (.ok (if s0 ≤ s1 then n0 else n1, (cs.1, sc)))
    | .unknown => free (.err .internal)
  | .notSet _, _, _ | .intConst .., _, _ | .key .., _, _ | .actionParam .., _, _ | .arithNeg .., _, _
  | .typeCast .., _, _ | .field .., _, _ | .attr .., _, _ => deeper do
    call
    free (.err .internal)

/-- `AddVariables` (ast.cc:209-244). -/
def addVariablesT : Expr → List Str → Counted (List Str)
  | .key _ n, s | .actionParam _ n, s => deeper do
    call
    free (.ok (if n ∈ s then s else n :: s))
  | .boolNeg _ e, s | .arithNeg _ e, s | .typeCast _ e, s | .field _ e _, s => deeper do
    call
    addVariablesT e s
  | .bin _ _ l r, s => deeper do
    call
    let s ← addVariablesT l s
    addVariablesT r s
  | .attr .., s | .intConst .., s | .boolConst .., s | .notSet .., s => deeper do
    call
    free (.ok s)

/-- `ExplainConstraintViolation` (interpreter.cc:591-656). -/
def explainViolationT (ctx : EvalCtx) (e : Expr) (ec : EvalCache) : Counted Str := do
  let (n, cs) ← minimalSubT ctx e [] (ec, [])
  let (truth, _) ← evalToBoolT ctx n.1 n.2 cs.1
  let reason ← free (quoteSub ctx.src n.1.start n.1.stop)
  let vars ← addVariablesT n.1 []
  free (.ok (violationText ctx.vals truth reason vars))

/-- The part common to table and action constraints (interpreter.cc:845-863 and 902-923). -/
def checkConstraintT (constraint : Expr) (parse : Res EvalCtx) : Counted Str :=
  if constraint.ty ≠ .boolean then free (.err .invalidArgument)
  else do
    let ctx ← free parse
    let (b, ec) ← evalToBoolT ctx constraint [] []
    if b then free (.ok []) else explainViolationT ctx constraint ec

/-- `ReasonEntryViolatesConstraint(Action)` (interpreter.cc:832-864). -/
def reasonActionT (a : RtAction) (ci : ConstraintInfo) : Counted Str :=
  match getActionInfo ci a.actionId with
  | none => free (.err .invalidArgument)
  | some ai =>
    match ai.constraint with
    | none => free (.ok [])
    | some constraint => checkConstraintT constraint (parseAction a ai)

/-- `ReasonEntryViolatesConstraint(ActionProfileActionSet)` (interpreter.cc:866-877). -/
def reasonActionSetT (ci : ConstraintInfo) : List RtAction → Counted Str
  | [] => free (.ok [])
  | a :: as => do
    let reason ← reasonActionT a ci
    if reason ≠ [] then free (.ok reason) else reasonActionSetT ci as

/-- The action part of `ReasonEntryViolatesConstraint(TableEntry)` (interpreter.cc:925-945). -/
def reasonTableActionT (ci : ConstraintInfo) : Option TableAction → Counted Str
  | none => free (.ok [])
  | some (.action a) => reasonActionT a ci
  | some (.memberId _) | some (.groupId _) => free (.err .invalidArgument)
  | some (.actionSet as) => reasonActionSetT ci as
  | some .notSet => free (.err .invalidArgument)

/-- `ReasonEntryViolatesConstraint(TableEntry)` (interpreter.cc:883-946). -/
def reasonEntryT (entry : RtEntry) (ci : ConstraintInfo) : Counted Str :=
  match getTableInfo ci entry.tableId with
  | none => free (.err .invalidArgument)
  | some ti => do
    let reason ←
      match ti.constraint with
      | none => free (.ok [])
      | some constraint => checkConstraintT constraint (parseTableEntry entry ti)
    if reason ≠ [] then free (.ok reason) else reasonTableActionT ci entry.action

end P4C
