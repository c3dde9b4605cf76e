import Verif.Spec.Small

/-
Solvers that were told that fields are not negative (C111).
-/

namespace P4C.Spec

/-- An operand of an ordered comparison of bit strings of width `w`: a field in `G`, or a number whose most significant bit is not
set. -/
inductive LowOperand (Γ : Sig) (G : Str → Str → Prop) (w : Int) : SExpr → Prop where
  | field {k g : Str} : G k g → HasTy Γ (.field (.key k) g) (.fixedUnsigned w) → LowOperand Γ G w (.field (.key k) g)
  | int {n : Int} : 0 ≤ n → 2 * n < 2 ^ w.toNat → LowOperand Γ G w (.int n)

/-- Only integers and such operands are ordered. -/
def OrdersLow (Γ : Sig) (G : Str → Str → Prop) : SExpr → Prop
  | .not e | .neg e | .field e _ => OrdersLow Γ G e
  | .conn _ l r => OrdersLow Γ G l ∧ OrdersLow Γ G r
  | .cmp o l r => OrdersLow Γ G l ∧ OrdersLow Γ G r ∧
      (o.isOrder = true → (HasTy Γ l .arbitraryInt ∧ HasTy Γ r .arbitraryInt) ∨ ∃ w, LowOperand Γ G w l ∧ LowOperand Γ G w r)
  | _ => True

/-- The constraint of the table and those given as texts do not order anything else. -/
structure LowFor (pton : Str → Option Bytes) (d : TableDecl) (G : Str → Str → Prop) (texts : List Str) : Prop where
  table : ∀ s, TableSays pton d s → ∀ vs, Each KeyDecl d.matchFields vs → OrdersLow (keySig vs) G s
  texts : ∀ text ∈ texts, ∀ s, TextSays pton d text s → ∀ vs, Each KeyDecl d.matchFields vs → OrdersLow (keySig vs) G s

/-- The text says `k::g >= 0`. -/
def SaysNotNegative (pton : Str → Option Bytes) (d : TableDecl) (text : Str) (k g : Str) : Prop :=
  TextSays pton d text (.cmp .ge (.field (.key k) g) (.int 0))

/-- One of the texts says `k::g >= 0`. -/
def NotNegative (pton : Str → Option Bytes) (d : TableDecl) (texts : List Str) (k g : Str) : Prop :=
  ∃ text ∈ texts, SaysNotNegative pton d text k g

/-- In the entry, no field in `G` has its most significant bit set. -/
def LowEntry (d : TableDecl) (G : Str → Str → Prop) (entry : RtEntry) : Prop :=
  ∀ vs, Each KeyDecl d.matchFields vs → ∀ ki ∈ vs, ∀ g w v z, G ki.name g → FieldTy ki.ty g (.fixedUnsigned w) →
    KeyValue entry ki v → FieldVal v g z → 2 * z < 2 ^ w.toNat

end P4C.Spec
