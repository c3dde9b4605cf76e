import Verif.Spec.HandMade
import Verif.Spec.Program
import Verif.Model.Z3

/-
Specification of the syntax trees, of any origin, that make sense as conditions on an entry to be solved for (property C102).
What counts is the sort of what a key is represented by, not the types that the tree is marked with, except in casts.
-/

namespace P4C.Spec

/-- What an expression stands for: a value of some sort, an exact match, a value and a mask, a value and a prefix length. -/
inductive Form where
  | plain (σ : Srt)
  | exact (σ : Srt)
  | ternary (σ τ : Srt)
  | lpm (σ τ : Srt)
deriving DecidableEq

/-- The form of a key that is declared. -/
inductive DeclForm (f : MatchField) : Form → Prop where
  | exact : f.kind = .matchType .exact → DeclForm f (.exact (.bv f.bitwidth.toNat))
  | ternary : f.kind = .matchType .ternary → DeclForm f (.ternary (.bv f.bitwidth.toNat) (.bv f.bitwidth.toNat))
  | optional : f.kind = .matchType .optional → DeclForm f (.ternary (.bv f.bitwidth.toNat) (.bv f.bitwidth.toNat))
  | lpm : f.kind = .matchType .lpm → DeclForm f (.lpm (.bv f.bitwidth.toNat) .int)

/-- The keys that can be used in constraints, with their forms. -/
def DeclKey (d : TableDecl) (skip : Str → Bool) (n : Str) (k : Form) : Prop :=
  ∃ f ∈ d.matchFields, f.name = n ∧ skip n = false ∧ DeclForm f k

/-- The attributes that can be used. -/
def DeclAttr (d : TableDecl) (n : Str) : Prop :=
  n = c!"priority" ∧ ∃ f ∈ d.matchFields, f.kind = .matchType .ternary ∨ f.kind = .matchType .optional

/-- The fields that a form has. -/
inductive FormField : Form → Str → Srt → Prop where
  | exact {σ : Srt} : FormField (.exact σ) c!"value" σ
  | ternary {σ τ : Srt} : FormField (.ternary σ τ) c!"value" σ
  | mask {σ τ : Srt} : FormField (.ternary σ τ) c!"mask" τ
  | lpm {σ τ : Srt} : FormField (.lpm σ τ) c!"value" σ
  | length {σ τ : Srt} : FormField (.lpm σ τ) c!"prefix_length" τ

/-- The operator is applicable to two values of the sort. -/
def Applies (op : BinOp) (σ : Srt) : Prop :=
  op = .eq ∨ op = .ne ∨ ((op = .lt ∨ op = .le ∨ op = .gt ∨ op = .ge) ∧ σ ≠ .bool) ∨ (ShortCircuits op ∧ σ = .bool)

/-- The name of the key that a field is taken of. If it is not taken of a key, then it is taken of the key without name. -/
def FieldOf (e : Expr) (n : Str) : Prop := (∃ i, e = .key i n) ∨ (n = [] ∧ ∀ i m, e ≠ .key i m)

/-- The expression has this form, given the forms of keys and the attributes. -/
inductive Sorted (K : Str → Form → Prop) (A : Str → Prop) : Expr → Form → Prop where
  | boolConst {i : Info} {b : Bool} : Sorted K A (.boolConst i b) (.plain .bool)
  | intConst {i : Info} {s : Str} : Sorted K A (.intConst i s) (.plain .int)
  | key {i : Info} {n : Str} {k : Form} : K n k → Sorted K A (.key i n) k
  | attr {i : Info} {n : Str} : A n → Sorted K A (.attr i n) (.plain .int)
  | field {i : Info} {e : Expr} {n f : Str} {k : Form} {σ : Srt} : FieldOf e n → K n k → FormField k f σ →
      Sorted K A (.field i e f) (.plain σ)
  | boolNeg {i : Info} {e : Expr} : Sorted K A e (.plain .bool) → Sorted K A (.boolNeg i e) (.plain .bool)
  | arithNeg {i : Info} {e : Expr} {σ : Srt} : Sorted K A e (.plain σ) → σ ≠ .bool → Sorted K A (.arithNeg i e) (.plain σ)
  | castBits {i : Info} {e : Expr} {w : Int} : Sorted K A e (.plain .int) → i.ty = .fixedUnsigned w → 0 < w →
      Sorted K A (.typeCast i e) (.plain (.bv w.toNat))
  | castExact {i : Info} {e : Expr} {σ : Srt} {w : Int} : Sorted K A e (.plain σ) → i.ty = .exact w →
      Sorted K A (.typeCast i e) (.exact σ)
  | castTernary {i : Info} {e : Expr} {σ : Srt} {w : Int} : Sorted K A e (.plain σ) →
      i.ty = .ternary w ∨ i.ty = .optionalMatch w → 0 < w → Sorted K A (.typeCast i e) (.ternary σ (.bv w.toNat))
  | castLpm {i : Info} {e : Expr} {σ : Srt} {w : Int} : Sorted K A e (.plain σ) → i.ty = .lpm w →
      Sorted K A (.typeCast i e) (.lpm σ .int)
  | plain {i : Info} {op : BinOp} {l r : Expr} {σ : Srt} : Sorted K A l (.plain σ) → Sorted K A r (.plain σ) → Applies op σ →
      Sorted K A (.bin i op l r) (.plain .bool)
  | exact {i : Info} {op : BinOp} {l r : Expr} {σ : Srt} : Sorted K A l (.exact σ) → Sorted K A r (.exact σ) → Applies op σ →
      Sorted K A (.bin i op l r) (.plain .bool)
  | ternary {i : Info} {op : BinOp} {l r : Expr} {σ τ : Srt} : Sorted K A l (.ternary σ τ) → Sorted K A r (.ternary σ τ) →
      op = .eq ∨ op = .ne → Sorted K A (.bin i op l r) (.plain .bool)
  | lpm {i : Info} {op : BinOp} {l r : Expr} {σ τ : Srt} : Sorted K A l (.lpm σ τ) → Sorted K A r (.lpm σ τ) →
      op = .eq ∨ op = .ne → Sorted K A (.bin i op l r) (.plain .bool)

/-- Integer constants are in decimal notation. -/
def DecimalConst (e : Expr) : Prop := ∀ i s, e = .intConst i s → ∃ n, decimal? s = some n

/-- The codes of errors in translating a constraint. -/
def TranslationCode (c : Code) : Prop := c = .invalidArgument ∨ c = .internal ∨ c = .notFound ∨ c = .unimplemented

end P4C.Spec
