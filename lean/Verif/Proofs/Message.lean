import Verif.Model.Message

/-
The model with messages agrees with the model without them.
-/

namespace P4C

namespace MRes

@[simp] theorem ok_bind {α β : Type} (a : α) (f : α → MRes β) : (MRes.ok a >>= f) = f a := rfl
@[simp] theorem err_bind {α β : Type} (c : Code) (m : Str) (f : α → MRes β) :
    (MRes.err c m >>= f) = .err c m := rfl
@[simp] theorem crash_bind {α β : Type} (f : α → MRes β) : (MRes.crash >>= f) = .crash := rfl
@[simp] theorem oof_bind {α β : Type} (f : α → MRes β) : (MRes.oof >>= f) = .oof := rfl
@[simp] theorem erase_ok {α : Type} (a : α) : (MRes.ok a).erase = .ok a := rfl
@[simp] theorem erase_err {α : Type} (c : Code) (m : Str) : (MRes.err c m : MRes α).erase = .err c := rfl
@[simp] theorem erase_crash {α : Type} : (MRes.crash : MRes α).erase = .crash := rfl
@[simp] theorem erase_oof {α : Type} : (MRes.oof : MRes α).erase = .oof := rfl

theorem erase_bind {α β : Type} (x : MRes α) (f : α → MRes β) :
    (x >>= f).erase = x.erase >>= fun a => (f a).erase := by
  cases x <;> rfl

end MRes

open MRes

@[simp] theorem erase_convertBinaryOperator (k : Kind) :
    (convertBinaryOperatorM k).erase = convertBinaryOperator k := by cases k <;> rfl

@[simp] theorem erase_convertNumeral (x : Texts) (k : Kind) (s : Str) :
    (convertNumeralM x k s).erase = convertNumeral k s := by
  have h : ∀ b, (match setStr b s with
      | some n => MRes.ok (intDec n)
      | none => .err .internal x.retCheck).erase = match setStr b s with
        | some n => Res.ok (intDec n)
        | none => .err .internal := by
    intro b
    cases setStr b s <;> rfl
  cases k <;> first | rfl | exact h _

theorem erase_base10Loop (all : Str) : ∀ acc s, (base10LoopM all acc s).erase = base10Loop acc s
  | _, [] => rfl
  | acc, c :: cs => by
    unfold base10LoopM base10Loop
    split
    · rfl
    · exact erase_base10Loop all _ cs

theorem erase_base16Loop (all : Str) : ∀ acc s, (base16LoopM all acc s).erase = base16Loop acc s
  | _, [] => rfl
  | acc, c :: cs => by
    unfold base16LoopM base16Loop
    split
    · rfl
    · exact erase_base16Loop all _ cs

theorem erase_base10 (s : Str) : (base10StringToByteM s).erase = base10StringToByte s := by
  unfold base10StringToByteM base10StringToByte
  split
  · rfl
  · rw [erase_bind, erase_base10Loop]
    congr 1; funext b; split <;> rfl

theorem erase_base16 (s : Str) : (base16StringToByteM s).erase = base16StringToByte s := by
  unfold base16StringToByteM base16StringToByte
  split
  · rfl
  · rw [erase_base16Loop]

theorem erase_addressLoop {convM : Str → MRes Nat} {conv : Str → Res Nat} (h : ∀ s, (convM s).erase = conv s)
    (n : Nat) : ∀ bits ss, (addressLoopM convM n bits ss).erase = addressLoop conv n bits ss
  | _, [] => rfl
  | bits, s :: ss => by
    unfold addressLoopM addressLoop
    rw [erase_bind, h]
    congr 1; funext b; exact erase_addressLoop h n _ ss

@[simp] theorem erase_ipv4 (s : Str) : (ipv4StringToByteStringM s).erase = ipv4StringToByteString s := by
  unfold ipv4StringToByteStringM ipv4StringToByteString
  dsimp only
  split
  · rfl
  · rw [erase_bind, erase_addressLoop erase_base10]; rfl

@[simp] theorem erase_mac (s : Str) : (macStringToByteStringM s).erase = macStringToByteString s := by
  unfold macStringToByteStringM macStringToByteString
  dsimp only
  split
  · rfl
  · rw [erase_bind, erase_addressLoop erase_base16]; rfl

@[simp] theorem erase_ipv6 (sys : Sys) (s : Str) :
    (ipv6StringToByteStringM sys s).erase = ipv6StringToByteString sys s := by
  unfold ipv6StringToByteStringM ipv6StringToByteString
  cases sys.inetPton6 (cstr s) <;> rfl

@[simp] theorem erase_makeBooleanConstant (x : Texts) (t : Token) :
    (makeBooleanConstantM x t).erase = makeBooleanConstant t := by
  unfold makeBooleanConstantM makeBooleanConstant
  split <;> rfl

@[simp] theorem erase_makeIntegerConstant (x : Texts) (t : Token) :
    (makeIntegerConstantM x t).erase = makeIntegerConstant t := by
  unfold makeIntegerConstantM makeIntegerConstant
  rw [erase_bind, erase_convertNumeral]; rfl

@[simp] theorem erase_makeNetworkAddress (x : Texts) (sys : Sys) (a b : Str) (start stop : Loc) :
    (makeNetworkAddressM x sys a b start stop).erase = makeNetworkAddress sys a b start stop := by
  unfold makeNetworkAddressM makeNetworkAddress
  dsimp only
  split
  · simp [erase_bind]
  · split
    · simp [erase_bind]
    · split
      · simp [erase_bind]
      · rfl

@[simp] theorem erase_makeBooleanNegation (x : Texts) (t : Token) (e : Expr) :
    (makeBooleanNegationM x t e).erase = makeBooleanNegation t e := by
  unfold makeBooleanNegationM makeBooleanNegation
  split <;> rfl

@[simp] theorem erase_makeArithmeticNegation (x : Texts) (t : Token) (e : Expr) :
    (makeArithmeticNegationM x t e).erase = makeArithmeticNegation t e := by
  unfold makeArithmeticNegationM makeArithmeticNegation
  split <;> rfl

@[simp] theorem erase_makeVariable (x : Texts) (ids : List Token) (k : ConstraintKind) :
    (makeVariableM x ids k).erase = makeVariable ids k := by
  unfold makeVariableM makeVariable
  cases ids with
  | nil => rfl
  | cons t ts =>
    dsimp only
    split
    · cases k <;> rfl
    · rfl

@[simp] theorem erase_makeAttributeAccess (d t : Token) :
    (makeAttributeAccessM d t).erase = makeAttributeAccess d t := rfl

@[simp] theorem erase_makeBinaryExpression (t : Token) (l r : Expr) :
    (makeBinaryExpressionM t l r).erase = makeBinaryExpression t l r := by
  unfold makeBinaryExpressionM makeBinaryExpression
  rw [erase_bind, erase_convertBinaryOperator]; rfl

@[simp] theorem erase_makeFieldAccess (x : Texts) (e : Expr) (f : Token) :
    (makeFieldAccessM x e f).erase = makeFieldAccess e f := by
  unfold makeFieldAccessM makeFieldAccess
  split <;> rfl

@[simp] theorem erase_quotingError {α : Type} (x : Texts) (tag text : Str) (src : ConstraintSource) (a b : Loc) :
    (quotingErrorM x tag text src a b : MRes α).erase = quotingError src a b := by
  unfold quotingErrorM quotingError
  cases quoteSub src a b <;> rfl

@[simp] theorem erase_parseError {α : Type} (x : Texts) (text : Str) (t : Token) (src : ConstraintSource) :
    (parseErrorM x text t src : MRes α).erase = parseError t src := erase_quotingError ..

@[simp] theorem erase_unexpected {α : Type} (x : Texts) (t : Token) (ks : List Kind) (src : ConstraintSource) :
    (unexpectedM x t ks src : MRes α).erase = parseError t src := by
  unfold unexpectedM
  split <;> simp

@[simp] theorem erase_expect (x : Texts) (k : Kind) (src : ConstraintSource) (s : Stream) :
    (expectTokenKindM x k src s).erase = expectTokenKind k src s := by
  unfold expectTokenKindM expectTokenKind
  dsimp only
  split <;> simp

@[simp] theorem erase_parseDots (x : Texts) (src : ConstraintSource) : ∀ f ids s,
    (parseDotsM x src f ids s).erase = parseDots src f ids s
  | 0, _, _ => rfl
  | f + 1, ids, s => by
    unfold parseDotsM parseDots
    split
    · rw [erase_bind, erase_expect]
      congr 1; funext r; exact erase_parseDots x src f _ _
    · rfl

theorem erase_parse (x : Texts) (sys : Sys) (k : ConstraintKind) (src : ConstraintSource) : ∀ f,
    (∀ p s, (parseAboveM x sys k src f p s).erase = parseAbove sys k src f p s) ∧
    (∀ p e s, (parseExtM x sys k src f p e s).erase = parseExt sys k src f p e s) := by
  intro f
  induction f with
  | zero => exact ⟨fun _ _ => rfl, fun _ _ _ => rfl⟩
  | succ f ih =>
    obtain ⟨ih1, ih2⟩ := ih
    refine ⟨fun p s => ?_, fun p e s => ?_⟩
    · unfold parseAboveM parseAbove
      dsimp only
      rw [erase_bind]
      simp only [ih2]
      congr 1
      cases s.peek.kind <;> dsimp only <;> try simp [erase_bind, ih1]
      split
      · simp [erase_bind]
      · simp [erase_bind]
    · unfold parseExtM parseExt
      dsimp only
      split
      · rfl
      · split
        · split
          · simp
          · split
            · rfl
            · split
              · rfl
              · split
                · simp [erase_bind, ih2]
                · simp [erase_bind, ih1, ih2]
        · simp

theorem erase_parseTokens (x : Texts) (sys : Sys) (k : ConstraintKind) (ts : List Token) (src : ConstraintSource) :
    (parseTokensM x sys k ts src).erase = parseTokens sys k ts src := by
  unfold parseTokensM parseTokens
  simp [erase_bind, (erase_parse x sys k src _).1]

theorem erase_parseConstraint (x : Texts) (sys : Sys) (k : ConstraintKind) (src : ConstraintSource) :
    (parseConstraintM x sys k src).erase = parseConstraint sys k src := erase_parseTokens ..

@[simp] theorem erase_typeError {α : Type} (x : Texts) (text : Str) (src : ConstraintSource) (a b : Loc) :
    (typeErrorM x text src a b : MRes α).erase = quotingError src a b := erase_quotingError ..

@[simp] theorem erase_internalError {α : Type} (x : Texts) (text : Str) (src : ConstraintSource) (a b : Loc) :
    (internalErrorM x text src a b : MRes α).erase = runtimeTypeError src a b := by
  unfold internalErrorM runtimeTypeError
  cases quoteSub src a b <;> rfl

@[simp] theorem erase_unify (x : Texts) (src : ConstraintSource) (l r : Expr) :
    (unifyM x src l r).erase = unify src l r := by
  unfold unifyM unify
  cases leastUpperBound l.ty r.ty <;> simp

theorem erase_inferAndCheck (x : Texts) (src : ConstraintSource) (sc : Scope) : ∀ e,
    (inferAndCheckM x src sc e).erase = inferAndCheck src sc e := by
  intro e
  induction e with
  | boolConst | intConst => rfl
  | key i n =>
    unfold inferAndCheckM inferAndCheck
    cases sc with
    | action => simp
    | table ks =>
      dsimp only
      cases lookup n ks with
      | none => simp
      | some ki => dsimp only; split <;> simp
  | actionParam i n =>
    unfold inferAndCheckM inferAndCheck
    cases sc with
    | table => simp
    | action ks =>
      dsimp only
      cases lookup n ks with
      | none => simp
      | some ki => dsimp only; split <;> simp
  | boolNeg i e ih | arithNeg i e ih =>
    unfold inferAndCheckM inferAndCheck
    rw [erase_bind, ih]
    congr 1; funext e; split <;> simp
  | typeCast i e ih => simp [inferAndCheckM, inferAndCheck]
  | bin i op l r ihl ihr =>
    unfold inferAndCheckM inferAndCheck
    rw [erase_bind, ihl]
    congr 1; funext l
    rw [erase_bind, ihr]
    congr 1; funext r
    have hc : ∀ op', (unifyM x src l r >>= fun y => if op' ≠ BinOp.eq ∧ op' ≠ .ne ∧ !typeHasOrdering y.1 then
          typeErrorM x (c!"operand type " ++ typeName y.1 ++ c!" does not support ordered comparison") src
            i.start i.stop
        else MRes.ok (Expr.bin (i.withTy .boolean) op' y.2.1 y.2.2)).erase =
        (unify src l r >>= fun y => if op' ≠ BinOp.eq ∧ op' ≠ .ne ∧ !typeHasOrdering y.1 then
          quotingError src i.start i.stop else Res.ok (Expr.bin (i.withTy .boolean) op' y.2.1 y.2.2)) := by
      intro op'
      rw [erase_bind, erase_unify]
      congr 1; funext y; split <;> simp
    cases op <;> dsimp only <;> first | exact hc _ | rfl | skip
    all_goals
      split
      · simp
      · split <;> simp
  | field i e f ih =>
    unfold inferAndCheckM inferAndCheck
    rw [erase_bind, ih]
    congr 1; funext e
    cases fieldTypeOfCompositeType e.ty f <;> simp
  | attr i n =>
    unfold inferAndCheckM inferAndCheck
    cases getAttributeInfo n with
    | none => simp
    | some t => dsimp only; split <;> simp
  | notSet i => simp [inferAndCheckM, inferAndCheck]

theorem erase_extractConstraint (k : ConstraintKind) (p : Preamble) :
    (extractConstraintM k p).erase = extractConstraint k p := by
  unfold extractConstraintM extractConstraint
  generalize annLoop k {} p.annotations = y
  obtain ⟨st, s⟩ := y
  show (if s = [] then _ else _ : MRes (Option ConstraintSource)).erase = if s = [] then _ else _
  by_cases hs : s = []
  · rw [if_pos hs, if_pos hs]; rfl
  rw [if_neg hs, if_neg hs]
  generalize (consumePrefix _ _).bind _ = o
  cases o with
  | none => rfl
  | some s =>
    show (if '"' ∈ replaceQuotes s then _ else _ : MRes (Option ConstraintSource)).erase =
      if '"' ∈ replaceQuotes s then _ else _
    by_cases hq : '"' ∈ replaceQuotes s
    · rw [if_pos hq, if_pos hq]; rfl
    · rw [if_neg hq, if_neg hq]; rfl

theorem erase_parseKeyType (x : Texts) (f : MatchField) : (parseKeyTypeM x f).erase = parseKeyType f := by
  unfold parseKeyTypeM parseKeyType
  cases f.kind with
  | matchType t => cases t <;> rfl
  | _ => rfl

theorem erase_parseParamType (p : ParamDecl) : (parseParamTypeM p).erase = parseParamType p := by
  unfold parseParamTypeM parseParamType
  split <;> rfl

theorem erase_insertVar (dup : Str) (v : VarInfo) (m : VarMaps) : (insertVarM dup v m).erase = insertVar v m := by
  unfold insertVarM insertVar
  cases insertNew v.id v m.1 with
  | none => rfl
  | some a => cases insertNew v.name v m.2 <;> rfl

theorem erase_parseKeys (x : Texts) (name : Str) : ∀ m fs, (parseKeysM x name m fs).erase = parseKeys m fs
  | _, [] => rfl
  | m, f :: fs => by
    unfold parseKeysM parseKeys
    rw [erase_bind, erase_parseKeyType]
    congr 1; funext t
    rw [erase_bind, erase_insertVar]
    congr 1; funext m
    exact erase_parseKeys x name m fs

theorem erase_parseParamDecls (x : Texts) (name : Str) : ∀ m ps,
    (parseParamDeclsM x name m ps).erase = parseParamDecls m ps
  | _, [] => rfl
  | m, f :: fs => by
    unfold parseParamDeclsM parseParamDecls
    rw [erase_bind, erase_parseParamType]
    congr 1; funext t
    rw [erase_bind, erase_insertVar]
    congr 1; funext m
    exact erase_parseParamDecls x name m fs

theorem erase_parseAndCheck (x : Texts) (sys : Sys) (k : ConstraintKind) (p : Preamble) (sc : Scope) :
    (parseAndCheckM x sys k p sc).erase = parseAndCheck sys k p sc := by
  unfold parseAndCheckM parseAndCheck
  rw [erase_bind, erase_extractConstraint]
  congr 1; funext o
  cases o with
  | none => rfl
  | some src => simp [erase_bind, erase_parseConstraint, erase_inferAndCheck]

theorem erase_parseTableInfo (x : Texts) (sys : Sys) (t : TableDecl) :
    (parseTableInfoM x sys t).erase = parseTableInfo sys t := by
  unfold parseTableInfoM parseTableInfo
  simp [erase_bind, erase_parseKeys, erase_parseAndCheck]

theorem erase_parseActionInfo (x : Texts) (sys : Sys) (a : ActionDecl) :
    (parseActionInfoM x sys a).erase = parseActionInfo sys a := by
  unfold parseActionInfoM parseActionInfo
  simp [erase_bind, erase_parseParamDecls, erase_parseAndCheck]

theorem erase_collect {δ ι : Type} {parseM : δ → MRes ι} {parse : δ → Res ι} (h : ∀ d, (parseM d).erase = parse d)
    (id : δ → Nat) (dup : δ → Str) : ∀ m (b : Bool) ds,
    ((collectM parseM id dup m ds).erase >>= fun r => Res.ok (r.1, b || !r.2.isEmpty)) = collect parse id (m, b) ds
  | m, b, [] => by simp [collectM, collect]
  | m, b, d :: ds => by
    have ih := fun m b => erase_collect h id dup m b ds
    unfold collectM collect
    rw [← h d]
    cases parseM d with
    | ok i =>
      simp only [erase_ok]
      cases insertNew (id d) i m with
      | some m' => exact ih m' b
      | none =>
        rw [← ih m true]
        simp [erase_bind]
    | err c msg =>
      simp only [erase_err]
      rw [← ih m true]
      simp [erase_bind]
    | crash => rfl
    | oof => rfl

theorem erase_p4ToConstraintInfo (x : Texts) (sys : Sys) (p : P4Info) :
    (p4ToConstraintInfoM x sys p).erase = p4ToConstraintInfo sys p := by
  unfold p4ToConstraintInfoM p4ToConstraintInfo
  rw [← erase_collect (erase_parseTableInfo x sys) (fun t => t.preamble.id)
    (fun t => c!"duplicate table: " ++ x.table t) [] false p.tables]
  rw [← erase_collect (erase_parseActionInfo x sys) (fun a => a.preamble.id)
    (fun a => c!"duplicate action: " ++ x.action a) [] false p.actions]
  simp only [erase_bind, bind_assoc, Res.ok_bind, Bool.false_or]
  congr 1; funext r1
  congr 1; funext r2
  obtain ⟨t, e1⟩ := r1
  obtain ⟨a, e2⟩ := r2
  cases e1 <;> cases e2 <;> rfl

end P4C
