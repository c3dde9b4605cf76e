import Verif.Model.Basic

/-
A model of the part of Z3 (through `z3++.h`) used by the symbolic interpreter: sorted terms with their
standard (SMT-LIB) semantics, and a solver as an oracle.
-/

namespace P4C

/-- Z3 sorts. -/
inductive Srt where
  | bool
  | int
  | bv (w : Nat)
deriving DecidableEq, Repr

/-- Values of a sort. -/
abbrev Srt.den : Srt → Type
  | .bool => Bool
  | .int => Int
  | .bv w => BitVec w

/-- Z3 terms. A constant is identified by its name and its sort. -/
inductive Term : Srt → Type where
  | boolVal (b : Bool) : Term .bool
  | intVal (z : Int) : Term .int
  | bvVal {w : Nat} (v : BitVec w) : Term (.bv w)
  | const (name : Str) (s : Srt) : Term s
  | eq {s : Srt} (a b : Term s) : Term .bool
  | ne {s : Srt} (a b : Term s) : Term .bool
  | not (a : Term .bool) : Term .bool
  | and (a b : Term .bool) : Term .bool
  | or (a b : Term .bool) : Term .bool
  | implies (a b : Term .bool) : Term .bool
  | lt (a b : Term .int) : Term .bool
  | le (a b : Term .int) : Term .bool
  | gt (a b : Term .int) : Term .bool
  | ge (a b : Term .int) : Term .bool
  | slt {w : Nat} (a b : Term (.bv w)) : Term .bool
  | sle {w : Nat} (a b : Term (.bv w)) : Term .bool
  | sgt {w : Nat} (a b : Term (.bv w)) : Term .bool
  | sge {w : Nat} (a b : Term (.bv w)) : Term .bool
  | neg (a : Term .int) : Term .int
  | bvneg {w : Nat} (a : Term (.bv w)) : Term (.bv w)
  | sub (a b : Term .int) : Term .int
  | int2bv (w : Nat) (a : Term .int) : Term (.bv w)
  | bvand {w : Nat} (a b : Term (.bv w)) : Term (.bv w)
  | shl {w : Nat} (a b : Term (.bv w)) : Term (.bv w)
  | lshr {w : Nat} (a b : Term (.bv w)) : Term (.bv w)

/-- An interpretation of the constants. -/
abbrev Interp := (name : Str) → (s : Srt) → s.den

/-- Standard semantics of terms. -/
def Term.den (m : Interp) : {s : Srt} → Term s → s.den
  | _, .boolVal b => b
  | _, .intVal z => z
  | _, .bvVal v => v
  | _, .const n s => m n s
  | _, @Term.eq .bool a b => (a.den m : Bool) == b.den m
  | _, @Term.eq .int a b => (a.den m : Int) == b.den m
  | _, @Term.eq (.bv w) a b => (a.den m : BitVec w) == b.den m
  | _, @Term.ne .bool a b => (a.den m : Bool) != b.den m
  | _, @Term.ne .int a b => (a.den m : Int) != b.den m
  | _, @Term.ne (.bv w) a b => (a.den m : BitVec w) != b.den m
  | _, .not a => !(a.den m)
  | _, .and a b => a.den m && b.den m
  | _, .or a b => a.den m || b.den m
  | _, .implies a b => !(a.den m) || b.den m
  | _, .lt a b => decide ((a.den m : Int) < b.den m)
  | _, .le a b => decide ((a.den m : Int) ≤ b.den m)
  | _, .gt a b => decide ((b.den m : Int) < a.den m)
  | _, .ge a b => decide ((b.den m : Int) ≤ a.den m)
  | _, @Term.slt w a b => (a.den m : BitVec w).slt (b.den m)
  | _, @Term.sle w a b => (a.den m : BitVec w).sle (b.den m)
  | _, @Term.sgt w a b => (b.den m : BitVec w).slt (a.den m)
  | _, @Term.sge w a b => (b.den m : BitVec w).sle (a.den m)
  | _, .neg a => -(a.den m : Int)
  | _, @Term.bvneg w a => -(a.den m : BitVec w)
  | _, .sub a b => (a.den m : Int) - b.den m
  | _, .int2bv w a => BitVec.ofInt w (a.den m)
  | _, @Term.bvand w a b => (a.den m : BitVec w) &&& b.den m
  | _, @Term.shl w a b => (a.den m : BitVec w) <<< (b.den m : BitVec w)
  | _, @Term.lshr w a b => (a.den m : BitVec w) >>> (b.den m : BitVec w)

/-- `z3::expr`: a term of some sort. -/
structure Z3Expr where
  srt : Srt
  term : Term srt

namespace Z3Expr

/-- Apply a binary operation to operands of the same sort; Z3 throws on a sort mismatch. -/
def sameSort {α : Type} (a b : Z3Expr) (f : (s : Srt) → Term s → Term s → Res α) : Res α :=
  if h : b.srt = a.srt then f a.srt a.term (h ▸ b.term) else .crash

/-- z3++ `operator==`. -/
def eq (a b : Z3Expr) : Res Z3Expr := sameSort a b fun _ x y => .ok ⟨.bool, .eq x y⟩
/-- z3++ `operator!=`. -/
def ne (a b : Z3Expr) : Res Z3Expr := sameSort a b fun _ x y => .ok ⟨.bool, .ne x y⟩

/-- The operators `<`, `<=`, `>`, `>=` of z3++: integer comparison on integers, *signed* comparison on
bit-vectors, unsupported otherwise. -/
def cmp (fi : Term .int → Term .int → Term .bool)
    (fb : (w : Nat) → Term (.bv w) → Term (.bv w) → Term .bool) (a b : Z3Expr) : Res Z3Expr :=
  sameSort a b fun s =>
    match s with
    | .int => fun x y => .ok ⟨.bool, fi x y⟩
    | .bv w => fun x y => .ok ⟨.bool, fb w x y⟩
    | .bool => fun _ _ => .crash

/-- z3++ `operator<`. -/
def lt : Z3Expr → Z3Expr → Res Z3Expr := cmp .lt fun _ => .slt
/-- z3++ `operator<=`. -/
def le : Z3Expr → Z3Expr → Res Z3Expr := cmp .le fun _ => .sle
/-- z3++ `operator>`. -/
def gt : Z3Expr → Z3Expr → Res Z3Expr := cmp .gt fun _ => .sgt
/-- z3++ `operator>=`. -/
def ge : Z3Expr → Z3Expr → Res Z3Expr := cmp .ge fun _ => .sge

/-- A boolean operand; z3++ asserts/throws otherwise. -/
def asBool : Z3Expr → Res (Term .bool)
  | ⟨.bool, t⟩ => .ok t
  | _ => .crash

/-- A boolean connective of z3++. -/
def conn (f : Term .bool → Term .bool → Term .bool) (a b : Z3Expr) : Res Z3Expr := do
  let x ← asBool a
  let y ← asBool b
  .ok ⟨.bool, f x y⟩

/-- z3++ `operator&&`. -/
def and : Z3Expr → Z3Expr → Res Z3Expr := conn .and
/-- z3++ `operator||`. -/
def or : Z3Expr → Z3Expr → Res Z3Expr := conn .or
/-- `z3::implies`. -/
def implies : Z3Expr → Z3Expr → Res Z3Expr := conn .implies
/-- z3++ `operator!`. -/
def not (a : Z3Expr) : Res Z3Expr := do
  let x ← asBool a
  .ok ⟨.bool, .not x⟩
/-- z3++ unary `operator-`. -/
def neg : Z3Expr → Res Z3Expr
  | ⟨.int, t⟩ => .ok ⟨.int, .neg t⟩
  | ⟨.bv _, t⟩ => .ok ⟨_, .bvneg t⟩
  | ⟨.bool, _⟩ => .crash
/-- `z3::int2bv`: the operand must be an integer and the width positive. -/
def int2bv (w : Int) : Z3Expr → Res Z3Expr
  | ⟨.int, t⟩ => if w ≤ 0 then .crash else .ok ⟨.bv w.toNat, .int2bv w.toNat t⟩
  | _ => .crash

end Z3Expr

/-- `ctx.bv_val(-1, w)`: all ones; the width must be positive. -/
def bvAllOnes (w : Int) : Res Z3Expr :=
  if w ≤ 0 then .crash else .ok ⟨.bv w.toNat, .bvVal (BitVec.allOnes w.toNat)⟩

/-- Digits only, at least one? -/
def isDecimalNat (s : Str) : Bool := !s.isEmpty && s.all fun c => 48 ≤ c.toNat && c.toNat ≤ 57

/-- `ctx.int_val(const char*)` for a decimal number with optional sign. Z3 also understands some other
notations (`1/1`, `1e3`); these are treated as errors (which Z3 reports by an exception), a
simplification that is irrelevant for expressions produced by the parser. -/
def intVal (s : Str) : Res Z3Expr :=
  let s := cstr s
  let ok := match s with
    | '-' :: cs => isDecimalNat cs
    | _ => isDecimalNat s
  if ok then
    match setStr 10 s with
    | some z => .ok ⟨.int, .intVal z⟩
    | none => .crash
  else .crash

/-- What `solver.check()` followed by `get_model()` returns. `val` is the interpretation used by
`model.eval(.., /*model_completion=*/true)`; `hasInterp` is `model.has_interp`. -/
inductive CheckResult where
  | sat (val : Interp) (hasInterp : Str → Srt → Bool)
  | unsat
  | unknown

/-- Z3's decision procedure as an oracle. The result may depend on the number of calls made before (the
first argument) and on the assertions on the solver stack. -/
structure Z3Oracle where
  check : Nat → List (Term .bool) → CheckResult

/-- The oracle is sound: models satisfy the assertions, and `unsat` is only answered if there is no
model. (Nothing is assumed about `hasInterp`.) -/
structure Z3Oracle.Sound (z : Z3Oracle) : Prop where
  sat : ∀ n as val h, z.check n as = .sat val h → ∀ a ∈ as, a.den val = true
  unsat : ∀ n as, z.check n as = .unsat → ∀ val : Interp, ∃ a ∈ as, a.den val = false

end P4C
