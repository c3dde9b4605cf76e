import Verif.Spec.Language
import Verif.Spec.Numeral

/-
What error messages about types should say.
-/

namespace P4C.Spec

/-- The names of types (docs/language-specification.md). -/
inductive TyName : Ty → Str → Prop where
  | unknown : TyName .unknown c!"unknown"
  | unsupported (n : Str) : TyName (.unsupported n) n
  | bool : TyName .boolean c!"bool"
  | int : TyName .arbitraryInt c!"int"
  | bit {w : Int} {s : Str} : IntNumeral w s → TyName (.fixedUnsigned w) (c!"bit<" ++ s ++ c!">")
  | exact {w : Int} {s : Str} : IntNumeral w s → TyName (.exact w) (c!"exact<" ++ s ++ c!">")
  | ternary {w : Int} {s : Str} : IntNumeral w s → TyName (.ternary w) (c!"ternary<" ++ s ++ c!">")
  | lpm {w : Int} {s : Str} : IntNumeral w s → TyName (.lpm w) (c!"lpm<" ++ s ++ c!">")
  | range {w : Int} {s : Str} : IntNumeral w s → TyName (.range w) (c!"range<" ++ s ++ c!">")
  | optional {w : Int} {s : Str} : IntNumeral w s → TyName (.optionalMatch w) (c!"optional<" ++ s ++ c!">")
  | notSet : TyName .notSet c!"???"

/-- The names that appear in messages: those of LPM keys are wrong. -/
inductive PrintedName : Ty → Str → Prop where
  | right {t : Ty} {s : Str} : TyName t s → (∀ w, t ≠ .lpm w) → PrintedName t s
  | lpm {w : Int} {s : Str} : IntNumeral w s → PrintedName (.lpm w) (c!"bit<" ++ s ++ c!">")

/-- The tree has a type. -/
def Typed (Γ : Sig) (e : Expr) (t : Ty) : Prop := ∃ s, abs e = some s ∧ HasTy Γ s t

/-- Boolean connectives among the operators. -/
def IsConn (op : BinOp) : Prop := ∃ o, ∀ l r, binop op l r = some (.conn o l r)

/-- Comparisons among the operators. -/
def IsCmp (op : BinOp) (o : Cmp) : Prop := ∀ l r, binop op l r = some (.cmp o l r)

/-- Whether it is the constraint of an action. -/
def _root_.P4C.Scope.isAction : Scope → Bool
  | .table _ => false
  | .action _ => true

/-- `Fault name action Γ e a b text`: the parts of `e` have types, but `e` has none; the fault lies in the source
between `a` and `b`, and `text` describes it. Types are named according to `name`; `action` says whether it is the
constraint of an action. -/
inductive Fault (name : Ty → Str → Prop) (action : Bool) (Γ : Sig) : Expr → Loc → Loc → Str → Prop where
  | keyInAction {i : Info} {n : Str} : action = true →
      Fault name action Γ (.key i n) i.start i.stop c!"unexpected key in action constraint"
  | unknownKey {i : Info} {n : Str} : action = false → Γ.key n = none →
      Fault name action Γ (.key i n) i.start i.stop (c!"unknown key " ++ n)
  | illegalKey {i : Info} {n s : Str} {t : Ty} : action = false → Γ.key n = some t → ¬ Supported t → name t s →
      Fault name action Γ (.key i n) i.start i.stop (c!"key " ++ n ++ c!" has illegal type " ++ s)
  | paramInTable {i : Info} {n : Str} : action = false →
      Fault name action Γ (.actionParam i n) i.start i.stop c!"unexpected action parameter in table constraint"
  | unknownParam {i : Info} {n : Str} : action = true → Γ.param n = none →
      Fault name action Γ (.actionParam i n) i.start i.stop (c!"unknown action parameter " ++ n)
  | illegalParam {i : Info} {n s : Str} {t : Ty} : action = true → Γ.param n = some t → ¬ Supported t → name t s →
      Fault name action Γ (.actionParam i n) i.start i.stop (c!"action parameter " ++ n ++ c!" has illegal type " ++ s)
  | unknownAttr {i : Info} {n : Str} : n ≠ c!"priority" →
      Fault name action Γ (.attr i n) i.start i.stop (c!"unknown attribute '" ++ n ++ c!"'")
  | notBool {i : Info} {e : Expr} {t : Ty} {s : Str} : Typed Γ e t → t ≠ .boolean → name t s →
      Fault name action Γ (.boolNeg i e) e.start e.stop (c!"expected type bool, got " ++ s)
  | notInt {i : Info} {e : Expr} {t : Ty} {s : Str} : Typed Γ e t → t ≠ .arbitraryInt → name t s →
      Fault name action Γ (.arithNeg i e) e.start e.stop (c!"expected type int, got " ++ s)
  | leftNotBool {i : Info} {op : BinOp} {l r : Expr} {t u : Ty} {s : Str} : IsConn op → Typed Γ l t → Typed Γ r u →
      t ≠ .boolean → name t s →
      Fault name action Γ (.bin i op l r) l.start l.stop (c!"expected type bool, got " ++ s)
  | rightNotBool {i : Info} {op : BinOp} {l r : Expr} {t : Ty} {s : Str} : IsConn op → Typed Γ l .boolean →
      Typed Γ r t → t ≠ .boolean → name t s →
      Fault name action Γ (.bin i op l r) r.start r.stop (c!"expected type bool, got " ++ s)
  | incomparable {i : Info} {op : BinOp} {o : Cmp} {l r : Expr} {t u : Ty} {s v : Str} : IsCmp op o → Typed Γ l t →
      Typed Γ r u → (∀ j, ¬ IsJoin t u j) → name t s → name u v →
      Fault name action Γ (.bin i op l r) l.start r.stop (c!"cannot unify types " ++ s ++ c!" and " ++ v)
  | unordered {i : Info} {op : BinOp} {o : Cmp} {l r : Expr} {t u j : Ty} {s : Str} : IsCmp op o → Typed Γ l t →
      Typed Γ r u → IsJoin t u j → o.isOrder = true → ¬ Ordered j → name j s →
      Fault name action Γ (.bin i op l r) i.start i.stop
        (c!"operand type " ++ s ++ c!" does not support ordered comparison")
  | noField {i : Info} {e : Expr} {f : Str} {t : Ty} {s : Str} : Typed Γ e t → (∀ u, ¬ FieldTy t f u) → name t s →
      Fault name action Γ (.field i e f) i.start i.stop (c!"expression of type " ++ s ++ c!" has no field '" ++ f ++ c!"'")

/-- `First Γ e x`: `x` is a part of `e`, and all parts of `e` that are to the left of `x` have types. -/
inductive First (Γ : Sig) : Expr → Expr → Prop where
  | self (x : Expr) : First Γ x x
  | boolNeg {i : Info} {e x : Expr} : First Γ e x → First Γ (.boolNeg i e) x
  | arithNeg {i : Info} {e x : Expr} : First Γ e x → First Γ (.arithNeg i e) x
  | field {i : Info} {e x : Expr} {f : Str} : First Γ e x → First Γ (.field i e f) x
  | left {i : Info} {op : BinOp} {l r x : Expr} : First Γ l x → First Γ (.bin i op l r) x
  | right {i : Info} {op : BinOp} {l r x : Expr} {t : Ty} : Typed Γ l t → First Γ r x → First Γ (.bin i op l r) x

end P4C.Spec
