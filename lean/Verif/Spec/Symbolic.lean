import Verif.Model.Symbolic
import Verif.Spec.Verdict

/-
Notions used in the properties of the symbolic interpreter.
-/

namespace P4C.Spec

/-- A constraint contains no ordered comparison (`<`, `<=`, `>`, `>=`) at a type `bit<W>` or `exact<W>`: only integers
(literals, prefix lengths, the priority) are compared in this way. -/
def NoOrderedBits (Γ : Sig) : SExpr → Prop
  | .not e | .neg e | .field e _ => NoOrderedBits Γ e
  | .conn _ l r => NoOrderedBits Γ l ∧ NoOrderedBits Γ r
  | .cmp o l r => NoOrderedBits Γ l ∧ NoOrderedBits Γ r ∧
      (o.isOrder = true → HasTy Γ l .arbitraryInt ∧ HasTy Γ r .arbitraryInt)
  | _ => True

/-- A value of type `bit<W>` or `exact<W>` whose most significant bit is not set. -/
def TopClear (t : Ty) (v : Value) : Prop :=
  ∃ w z : Int, (t = .fixedUnsigned w ∨ t = .exact w) ∧ orderKey v = some z ∧ 2 * z < 2 ^ w.toNat

/-- All ordered comparisons made in evaluating the constraint are between integers or between bit strings whose most
significant bit is not set. -/
def OrderSafe (Γ : Sig) (ρ : Env) : SExpr → Prop
  | .not e | .neg e | .field e _ => OrderSafe Γ ρ e
  | .conn _ l r => OrderSafe Γ ρ l ∧ OrderSafe Γ ρ r
  | .cmp o l r => OrderSafe Γ ρ l ∧ OrderSafe Γ ρ r ∧
      (o.isOrder = true → ∀ a b t v w, Means Γ ρ l a v → Means Γ ρ r b w → IsJoin a b t →
        t = .arbitraryInt ∨ TopClear t (convert a t v) ∧ TopClear t (convert b t w))
  | _ => True

/-- The names occurring in a constraint satisfy `K` (keys) and `A` (attributes); there are no parameters. -/
def NamesIn (K A : Str → Prop) : SExpr → Prop
  | .key n => K n
  | .attr n => A n
  | .param _ => False
  | .not e | .neg e | .field e _ => NamesIn K A e
  | .cmp _ l r | .conn _ l r => NamesIn K A l ∧ NamesIn K A r
  | _ => True

/-- Positive bit widths. -/
def PosWidth : Ty → Prop
  | .fixedUnsigned w | .exact w | .ternary w | .lpm w | .range w | .optionalMatch w => 0 < w
  | _ => True

/-- Under the interpretation `m`, the symbolic result of type `t` has the value `v`. -/
inductive SymVal (m : Interp) : Ty → SymResult → Value → Prop where
  | bool (t : Term .bool) : SymVal m .boolean (.expr ⟨.bool, t⟩) (.bool (t.den m))
  | int (t : Term .int) : SymVal m .arbitraryInt (.expr ⟨.int, t⟩) (.int (t.den m))
  | bit (w : Int) (t : Term (.bv w.toNat)) : SymVal m (.fixedUnsigned w) (.expr ⟨.bv w.toNat, t⟩)
      (.int ((t.den m : BitVec w.toNat).toNat : Nat))
  | exact (w : Int) (t : Term (.bv w.toNat)) : SymVal m (.exact w) (.key (.exact ⟨.bv w.toNat, t⟩))
      (.exact ((t.den m : BitVec w.toNat).toNat : Nat))
  | ternary (w : Int) (t k : Term (.bv w.toNat)) :
      SymVal m (.ternary w) (.key (.ternary ⟨.bv w.toNat, t⟩ ⟨.bv w.toNat, k⟩))
      (.ternary ((t.den m : BitVec w.toNat).toNat : Nat) ((k.den m : BitVec w.toNat).toNat : Nat))
  | optional (w : Int) (t k : Term (.bv w.toNat)) :
      SymVal m (.optionalMatch w) (.key (.ternary ⟨.bv w.toNat, t⟩ ⟨.bv w.toNat, k⟩))
      (.ternary ((t.den m : BitVec w.toNat).toNat : Nat) ((k.den m : BitVec w.toNat).toNat : Nat))
  | lpm (w : Int) (t : Term (.bv w.toNat)) (p : Term .int) :
      SymVal m (.lpm w) (.key (.lpm ⟨.bv w.toNat, t⟩ ⟨.int, p⟩))
      (.lpm ((t.den m : BitVec w.toNat).toNat : Nat) (p.den m))

/-- The symbolic environment describes `ρ` under `m`. -/
structure EnvCorr (m : Interp) (Γ : Sig) (env : SymEnv) (ρ : Env) : Prop where
  key : ∀ n k, lookup n env.keys = some k → ∃ t v, Γ.key n = some t ∧ ρ.key n = some v ∧ PosWidth t ∧ SymVal m t (.key k) v
  attr : ∀ n z, lookup n env.attrs = some z → n = c!"priority" ∧ ∃ t : Term .int, z = ⟨.int, t⟩ ∧
    ρ.priority = some (t.den m)

/-- All the names of the constraint are known. -/
def Known (env : SymEnv) (s : SExpr) : Prop :=
  NamesIn (fun n => hasKey n env.keys = true) (fun n => hasKey n env.attrs = true) s

/-- No redundant leading zero, not empty (P4Runtime specification, section 8.4). -/
def CanonicalBytes (bs : Bytes) : Prop := bs ≠ [] ∧ ∀ b rest, bs = b :: rest → rest ≠ [] → b ≠ 0

/-- A match for a key of the given type in canonical form: byte strings without redundant leading zeros, a value that
fits the width and has no bits outside mask or prefix, and no wildcard. -/
inductive CanonicalMatch : Ty → MatchVal → Prop where
  | exact {w : Nat} {v : Bytes} : CanonicalBytes v → bytesNat v < 2 ^ w → CanonicalMatch (.exact w) (.exact v)
  | optional {w : Nat} {v : Bytes} : CanonicalBytes v → bytesNat v < 2 ^ w →
      CanonicalMatch (.optionalMatch w) (.optional v)
  | ternary {w : Nat} {v m : Bytes} : CanonicalBytes v → CanonicalBytes m → bytesNat m < 2 ^ w → bytesNat m ≠ 0 →
      bytesNat v &&& bytesNat m = bytesNat v → CanonicalMatch (.ternary w) (.ternary v m)
  | lpm {w p : Nat} {v : Bytes} : CanonicalBytes v → bytesNat v < 2 ^ w → 0 < p → p ≤ w → 2 ^ (w - p) ∣ bytesNat v →
      CanonicalMatch (.lpm w) (.lpm v p)

/-- Tables with a key of one of these kinds have priorities. -/
def HasPriority (ti : TableInfo) : Prop :=
  ∃ n ki, (n, ki) ∈ ti.keysByName ∧ ∃ w, ki.ty = .ternary w ∨ ki.ty = .optionalMatch w

/-- An entry of the table in canonical form that omits the keys in `Skipped`. -/
structure CanonicalEntry (ti : TableInfo) (Skipped : Str → Prop) (entry : RtEntry) : Prop where
  table : entry.tableId = ti.id
  keys : ∀ m ∈ entry.matches_, ∃ n ki, (n, ki) ∈ ti.keysByName ∧ ¬ Skipped n ∧ m.fieldId = ki.id ∧
    CanonicalMatch ki.ty m.val
  once : (entry.matches_.map FieldMatch.fieldId).Nodup
  exact : ∀ n ki w, (n, ki) ∈ ti.keysByName → ki.ty = .exact w → ¬ Skipped n →
    ∃ m ∈ entry.matches_, m.fieldId = ki.id
  priority : (HasPriority ti ∧ 0 < entry.priority ∧ entry.priority < 2 ^ 31) ∨ (¬ HasPriority ti ∧ entry.priority = 0)

/-- The keys in `Skipped` may be omitted from entries. -/
def Omittable (ti : TableInfo) (Skipped : Str → Prop) : Prop :=
  ∀ n ki, (n, ki) ∈ ti.keysByName → Skipped n → ∃ v, WildcardOf ki.ty v

/-- Histories of a solver for the table `ti`, with the list of the constraints it has accepted. -/
inductive Reachable (z : Z3Oracle) (sys : Sys) (ti : TableInfo) (skip : Str → Res Bool) : Solver → List Expr → Prop where
  | create {s : Solver} : Solver.create z ti skip = .ok s → Reachable z sys ti skip s ti.constraint.toList
  | accepted {s s' : Solver} {cs : List Expr} {c : Expr} {src : ConstraintSource} : Reachable z sys ti skip s cs →
      s.addConstraint z c src = (.ok true, s') → Reachable z sys ti skip s' (c :: cs)
  | rejected {s s' : Solver} {cs : List Expr} {c : Expr} {src : ConstraintSource} {r : Res Bool} :
      Reachable z sys ti skip s cs → s.addConstraint z c src = (r, s') → r ≠ .ok true → Reachable z sys ti skip s' cs
  | acceptedText {s s' : Solver} {cs : List Expr} {text : Str} {e c : Expr} : Reachable z sys ti skip s cs →
      s.addConstraintStr z sys text = (.ok true, s') →
      parseConstraint sys .table ⟨text, { src := .tableName ti.name }⟩ = .ok e →
      inferAndCheck ti.source (.table ti.keysByName) e = .ok c → Reachable z sys ti skip s' (c :: cs)
  | rejectedText {s s' : Solver} {cs : List Expr} {text : Str} {r : Res Bool} : Reachable z sys ti skip s cs →
      s.addConstraintStr z sys text = (r, s') → r ≠ .ok true → Reachable z sys ti skip s' cs
  | concretize {s s' : Solver} {cs : List Expr} {r : Res RtEntry} : Reachable z sys ti skip s cs →
      s.concretize z = (r, s') → Reachable z sys ti skip s' cs

/-- The constraint only mentions keys of the table that are not in `Skipped`, and the priority only if the table has
priorities. -/
def Expressible (ti : TableInfo) (Skipped : Str → Prop) (s : SExpr) : Prop :=
  NamesIn (fun n => ∃ ki, (n, ki) ∈ ti.keysByName ∧ ¬ Skipped n) (fun n => n = c!"priority" ∧ HasPriority ti) s

/-- Types of keys with a symbolic counterpart. -/
inductive SymSupported : Ty → Prop where
  | exact {w : Int} : 0 < w → SymSupported (.exact w)
  | ternary {w : Int} : 0 < w → SymSupported (.ternary w)
  | optional {w : Int} : 0 < w → SymSupported (.optionalMatch w)
  | lpm {w : Int} : 0 < w → SymSupported (.lpm w)

/-- The skip function answers for all keys of the table, and the keys that are not skipped are supported. -/
def KeysSupported (ti : TableInfo) (skip : Str → Res Bool) : Prop :=
  ∀ n ki, (n, ki) ∈ ti.keysByName → skip n = .ok true ∨ skip n = .ok false ∧ SymSupported ki.ty

/-- The solver never gives up. -/
def Z3Oracle.Decides (z : Z3Oracle) : Prop := ∀ n as, z.check n as ≠ .unknown

/-- The answer of the solver depends only on the assertions. -/
def Z3Oracle.Deterministic (z : Z3Oracle) : Prop := ∀ n n' as, z.check n as = z.check n' as

/-- Models give a value to the priority if it is constrained to be positive and to fit an `int32`. -/
def Z3Oracle.InterpretsPriority (z : Z3Oracle) : Prop := ∀ n as val h, z.check n as = .sat val h →
  (∀ a ∈ priorityAssertions, a ∈ as) → h c!"priority" .int = true

/-- The states differ at most in the number of calls of Z3 made. -/
structure SameState (s s' : Solver) : Prop where
  assertions : s'.assertions = s.assertions
  table : s'.table = s.table
  env : s'.env = s.env
  skip : s'.skip = s.skip

/-- Operations on a solver. -/
inductive Op where
  | add (c : Expr) (src : ConstraintSource)
  | addText (text : Str)
  | concretize

/-- Answers of a solver. -/
inductive Answer where
  | accepted (r : Res Bool)
  | entry (r : Res RtEntry)

/-- The answers to a sequence of operations. -/
def answers (z : Z3Oracle) (sys : Sys) : Solver → List Op → List Answer
  | _, [] => []
  | s, .add c src :: ops => .accepted (s.addConstraint z c src).1 :: answers z sys (s.addConstraint z c src).2 ops
  | s, .addText t :: ops => .accepted (s.addConstraintStr z sys t).1 :: answers z sys (s.addConstraintStr z sys t).2 ops
  | s, .concretize :: ops => .entry (s.concretize z).1 :: answers z sys (s.concretize z).2 ops

/-- The names of the Z3 constants for the keys of the table are different: names contain no NUL character, and no key
is called like the mask of another one of the same width. -/
structure NamesDistinct (ti : TableInfo) : Prop where
  noNul : ∀ n ki, (n, ki) ∈ ti.keysByName → '\x00' ∉ n
  noMask : ∀ n ki w, (n, ki) ∈ ti.keysByName → (ki.ty = .ternary w ∨ ki.ty = .optionalMatch w) →
    ∀ ki', (n ++ c!"_mask", ki') ∈ ti.keysByName →
      ki'.ty ≠ .exact w ∧ ki'.ty ≠ .ternary w ∧ ki'.ty ≠ .lpm w ∧ ki'.ty ≠ .optionalMatch w

end P4C.Spec
