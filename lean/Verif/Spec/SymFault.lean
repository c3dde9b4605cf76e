import Verif.Spec.Symbolic
import Verif.Spec.Explain
import Verif.Spec.Signed
import Verif.Model.SymMessage

/-
Specification of what the constraint solver reports when it cannot be created, or cannot take a constraint (C71).
-/

namespace P4C.Spec

/-- "Key not found: 'n'". -/
def notFoundText (n : Str) : Str := c!"Key not found: '" ++ n ++ c!"'"

/-- What is said about range matches. -/
def rangesText : Str :=
  c!"Range matches are not currently supported by the p4-constraints symbolic representation."

/-- Types with a bit width. -/
inductive HasWidth : Ty → Int → Prop where
  | bit (w : Int) : HasWidth (.fixedUnsigned w) w
  | exact (w : Int) : HasWidth (.exact w) w
  | ternary (w : Int) : HasWidth (.ternary w) w
  | lpm (w : Int) : HasWidth (.lpm w) w
  | range (w : Int) : HasWidth (.range w) w
  | optional (w : Int) : HasWidth (.optionalMatch w) w

/-- Comparing `l` to `r` takes a bit string without bits, which Z3 does not have: an integer is compared to something of
width 0. -/
def NoBits (Γ : Sig) (l r : SExpr) : Prop := HasTy Γ l .arbitraryInt ∧ ∃ t, HasTy Γ r t ∧ HasWidth t 0

/-- The first obstacle, reading from left to right, to translating a constraint of which only the keys in `K` and the
attributes in `A` are represented: a key or an attribute that is not represented, or a comparison whose left hand side
has to be converted to a range. -/
inductive Untranslatable (Γ : Sig) (K A : Str → Prop) : SExpr → Code → Str → Prop where
  | key {n : Str} : ¬ K n → Untranslatable Γ K A (.key n) .notFound (notFoundText n)
  | attr {n : Str} : ¬ A n → Untranslatable Γ K A (.attr n) .notFound (notFoundText n)
  | field {e : SExpr} {f : Str} {c : Code} {m : Str} : Untranslatable Γ K A e c m →
      Untranslatable Γ K A (.field e f) c m
  | not {e : SExpr} {c : Code} {m : Str} : Untranslatable Γ K A e c m → Untranslatable Γ K A (.not e) c m
  | neg {e : SExpr} {c : Code} {m : Str} : Untranslatable Γ K A e c m → Untranslatable Γ K A (.neg e) c m
  | connLeft {o : Conn} {l r : SExpr} {c : Code} {m : Str} : Untranslatable Γ K A l c m →
      Untranslatable Γ K A (.conn o l r) c m
  | connRight {o : Conn} {l r : SExpr} {c : Code} {m : Str} : NamesIn K A l → Untranslatable Γ K A r c m →
      Untranslatable Γ K A (.conn o l r) c m
  | cmpLeft {o : Cmp} {l r : SExpr} {c : Code} {m : Str} : Untranslatable Γ K A l c m →
      Untranslatable Γ K A (.cmp o l r) c m
  | cmpRange {o : Cmp} {l r : SExpr} {w : Int} : NamesIn K A l → ¬ NoBits Γ l r → HasTy Γ r (.range w) →
      Untranslatable Γ K A (.cmp o l r) .unimplemented rangesText
  | cmpRight {o : Cmp} {l r : SExpr} {c : Code} {m : Str} : NamesIn K A l → ¬ NoBits Γ l r → (∀ w, ¬ HasTy Γ r (.range w)) →
      Untranslatable Γ K A r c m → Untranslatable Γ K A (.cmp o l r) c m

/-- The first obstacle, reading from left to right, is a comparison that takes a bit string without bits. -/
inductive Bitless (Γ : Sig) (K A : Str → Prop) : SExpr → Prop where
  | not {e : SExpr} : Bitless Γ K A e → Bitless Γ K A (.not e)
  | connLeft {o : Conn} {l r : SExpr} : Bitless Γ K A l → Bitless Γ K A (.conn o l r)
  | connRight {o : Conn} {l r : SExpr} : NamesIn K A l → Bitless Γ K A r → Bitless Γ K A (.conn o l r)
  | cmpLeft {o : Cmp} {l r : SExpr} : Bitless Γ K A l → Bitless Γ K A (.cmp o l r)
  | cmp {o : Cmp} {l r : SExpr} : NamesIn K A l → NoBits Γ l r → Bitless Γ K A (.cmp o l r)
  | cmpRight {o : Cmp} {l r : SExpr} : NamesIn K A l → Bitless Γ K A r → Bitless Γ K A (.cmp o l r)

/-- How a key is described: `KeyInfo{ id: 1; name: "k"; type: { .. }; }`. -/
def keyText (x : SymTexts) (ki : VarInfo) : Str :=
  c!"KeyInfo{ id: " ++ natDec ki.id ++ c!"; name: \"" ++ ki.name ++ c!"\"; type: { " ++ x.shortType ki.ty ++ c!" }; }"

/-- What is wrong with a key of the table: the callback fails, or the key is not to be skipped and has a type without
representation. -/
inductive KeyFault (x : SymTexts) (skip : Str → MRes Bool) (n : Str) (ki : VarInfo) : Code → Str → Prop where
  | callback {c : Code} {m : Str} : skip n = .err c m → KeyFault x skip n ki c m
  | noWidth : skip n = .ok false → (∀ w, ¬ HasWidth ki.ty w) →
      KeyFault x skip n ki .invalidArgument (c!"expected a type with bitwidth, but got: " ++ x.type ki.ty)
  | zero : skip n = .ok false → HasWidth ki.ty 0 →
      KeyFault x skip n ki .invalidArgument (c!"expected a key type with bitwidth > 0, but got: " ++ keyText x ki)
  | range {w : Int} : skip n = .ok false → ki.ty = .range w → w ≠ 0 → KeyFault x skip n ki .unimplemented rangesText
  | bits {w : Int} : skip n = .ok false → ki.ty = .fixedUnsigned w → w ≠ 0 →
      KeyFault x skip n ki .invalidArgument (c!"expected a match type, but got: " ++ keyText x ki)

/-- Nothing is wrong with a key of the table. -/
def KeyFine (skip : Str → MRes Bool) (n : Str) (ki : VarInfo) : Prop :=
  skip n = .ok true ∨ skip n = .ok false ∧ SymSupported ki.ty

/-- The keys that are represented. -/
def Represented (ti : TableInfo) (skip : Str → MRes Bool) (n : Str) : Prop :=
  ∃ ki, (n, ki) ∈ ti.keysByName ∧ skip n = .ok false

/-- The attributes that are represented. -/
def RepresentedAttr (ti : TableInfo) (n : Str) : Prop := n = c!"priority" ∧ HasPriority ti

/-- What is wrong with a constraint `e`, read as `s`, for a solver for the table: it is not a condition, or it cannot be
translated. -/
inductive SolverFault (x : SymTexts) (ti : TableInfo) (skip : Str → MRes Bool) (e : Expr) (s : SExpr) :
    Code → Str → Prop where
  | type : e.ty ≠ .boolean → SolverFault x ti skip e s .invalidArgument
      (c!"expected a constraint of type boolean, but got:\n" ++ x.expression e)
  | untranslatable {c : Code} {m : Str} : e.ty = .boolean →
      Untranslatable (sigOf (.table ti.keysByName)) (Represented ti skip) (RepresentedAttr ti) s c m →
      SolverFault x ti skip e s c m

/-- Z3 stops the process when the solver translates the constraint. -/
def SolverCrash (ti : TableInfo) (skip : Str → MRes Bool) (e : Expr) (s : SExpr) : Prop :=
  e.ty = .boolean ∧ Bitless (sigOf (.table ti.keysByName)) (Represented ti skip) (RepresentedAttr ti) s

/-- Some entry in canonical form, which omits the keys to be skipped, satisfies the constraint (with ordered comparisons
of bit strings as the solver makes them, C34). -/
def Satisfiable (ti : TableInfo) (skip : Str → MRes Bool) (s : SExpr) : Prop :=
  ∃ entry ρ, CanonicalEntry ti (fun n => skip n = .ok true) entry ∧ EntryEnv ti entry ρ ∧
    SignedHolds (sigOf (.table ti.keysByName)) ρ s

/-- What is reported if a solver for the table cannot be created: what is wrong with the first key, in the order of
names, with which something is wrong; or what is wrong with the constraint; or that it cannot be satisfied. -/
inductive CreateFault (x : SymTexts) (ti : TableInfo) (skip : Str → MRes Bool) : Code → Str → Prop where
  | key {n : Str} {ki : VarInfo} {c : Code} {m : Str} : (n, ki) ∈ ti.keysByName → KeyFault x skip n ki c m →
      (∀ n' ki', (n', ki') ∈ ti.keysByName → Before n' n → KeyFine skip n' ki') → CreateFault x ti skip c m
  | constraint {e : Expr} {s : SExpr} {c : Code} {m : Str} :
      (∀ n ki, (n, ki) ∈ ti.keysByName → KeyFine skip n ki) → ti.constraint = some e →
      Checked (.table ti.keysByName) e s → SolverFault x ti skip e s c m → CreateFault x ti skip c m
  | unsatisfiable {e : Expr} {s : SExpr} :
      (∀ n ki, (n, ki) ∈ ti.keysByName → KeyFine skip n ki) → ti.constraint = some e →
      Checked (.table ti.keysByName) e s → (∀ c m, ¬ SolverFault x ti skip e s c m) → ¬ SolverCrash ti skip e s →
      ¬ Satisfiable ti skip s →
      CreateFault x ti skip .invalidArgument (c!"TableInfo provided an unsatisfiable constraint. " ++
        c!"ConstraintSolver must contain a satisfiable constraint at all times so creation failed.\n " ++
        c!"Unsatisfiable Constraint: " ++ ti.source.str)

/-- Z3 stops the process when a solver for the table is created. -/
def CreateCrash (ti : TableInfo) (skip : Str → MRes Bool) : Prop :=
  (∀ n ki, (n, ki) ∈ ti.keysByName → KeyFine skip n ki) ∧ ∃ e s, ti.constraint = some e ∧
    Checked (.table ti.keysByName) e s ∧ SolverCrash ti skip e s

/-- The callback returns: it answers, or it fails with a status. -/
def Returns (skip : Str → MRes Bool) : Prop := ∀ n, (∃ b, skip n = .ok b) ∨ ∃ c m, skip n = .err c m

/-- No width is negative. -/
def NonNegWidths (ti : TableInfo) : Prop := ∀ n ki w, (n, ki) ∈ ti.keysByName → HasWidth ki.ty w → 0 ≤ w

end P4C.Spec
