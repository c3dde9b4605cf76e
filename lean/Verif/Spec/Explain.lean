import Verif.Model.Interpreter
import Verif.Spec.Numeral

/-
Explanations: which subexpressions justify the value of an expression.
-/

namespace P4C.Spec

/-- The expression evaluates to the boolean `b`, without a cache. -/
def Val (ctx : EvalCtx) (e : Expr) (b : Bool) : Prop := evalToBool ctx e [] none = .ok (b, none)

/-- `Forces ctx n m`: the node `m` is an operand of `n`, and the value it has alone determines the value of `n`:
the operand of a negation, a false operand of a conjunction, a true operand of a disjunction, a false
antecedent, or a true consequent. Nodes are given with their addresses. -/
inductive Forces (ctx : EvalCtx) : Node → Node → Prop where
  | not {i : Info} {e : Expr} {p : Path} : Forces ctx (.boolNeg i e, p) (e, 0 :: p)
  | andLeft {i : Info} {l r : Expr} {p : Path} : Val ctx l false → Forces ctx (.bin i .and l r, p) (l, 0 :: p)
  | andRight {i : Info} {l r : Expr} {p : Path} : Val ctx r false → Forces ctx (.bin i .and l r, p) (r, 1 :: p)
  | orLeft {i : Info} {l r : Expr} {p : Path} : Val ctx l true → Forces ctx (.bin i .or l r, p) (l, 0 :: p)
  | orRight {i : Info} {l r : Expr} {p : Path} : Val ctx r true → Forces ctx (.bin i .or l r, p) (r, 1 :: p)
  | impliesLeft {i : Info} {l r : Expr} {p : Path} : Val ctx l false →
      Forces ctx (.bin i .implies l r, p) (l, 0 :: p)
  | impliesRight {i : Info} {l r : Expr} {p : Path} : Val ctx r true →
      Forces ctx (.bin i .implies l r, p) (r, 1 :: p)

/-- A chain of such operands. -/
inductive Justifies (ctx : EvalCtx) : Node → Node → Prop where
  | self (n : Node) : Justifies ctx n n
  | step {n m k : Node} : Forces ctx n m → Justifies ctx m k → Justifies ctx n k

/-- The size of an expression as described in ast.h:84-90: the number of its negations, binary operators and
other operands. -/
def weight : Expr → Nat
  | .bin _ _ l r => 1 + weight l + weight r
  | .boolNeg _ e => 1 + weight e
  | _ => 1

/-- The first address is to the left of the second. (An address lists the choices from the node to the root.) -/
def LeftOf (p q : Path) : Prop := ∃ a x y, p = x ++ 0 :: a ∧ q = y ++ 1 :: a

/-- Comparisons, boolean constants and connectives. -/
def Explains : Expr → Prop
  | .boolConst _ _ => True
  | .bin _ op _ _ => op ≠ .unknown
  | _ => False

/-- The boolean skeleton of an expression: the nodes reached from the root via negations and connectives. -/
inductive Skeleton : Expr → Expr → Prop where
  | self (e : Expr) : Skeleton e e
  | not {i : Info} {x e : Expr} : Skeleton x e → Skeleton x (.boolNeg i e)
  | left {i : Info} {op : BinOp} {x l r : Expr} : op = .and ∨ op = .or ∨ op = .implies → Skeleton x l →
      Skeleton x (.bin i op l r)
  | right {i : Info} {op : BinOp} {x l r : Expr} : op = .and ∨ op = .or ∨ op = .implies → Skeleton x r →
      Skeleton x (.bin i op l r)

/-- Operands. -/
def child : Expr → Nat → Option Expr
  | .boolNeg _ e, 0 | .arithNeg _ e, 0 | .typeCast _ e, 0 | .field _ e _, 0 => some e
  | .bin _ _ l _, 0 => some l
  | .bin _ _ _ r, 1 => some r
  | _, _ => none

/-- The node of the expression with the given address. -/
def nodeAt (root : Expr) : Path → Option Expr
  | [] => some root
  | k :: p => (nodeAt root p).bind fun e => child e k

/-- Contents of an evaluation cache that are right for the nodes of the expression `root`: every entry is the
value of the node with that address. -/
def CorrectValues (ctx : EvalCtx) (root : Expr) (m : EvalCache) : Prop :=
  ∀ p b, lookup p m = some b → ∃ e, nodeAt root p = some e ∧ Val ctx e b

/-- The same for the sizes in a size cache. -/
def CorrectSizes (root : Expr) (m : SizeCache) : Prop :=
  ∀ p n, lookup p m = some n → ∃ e, nodeAt root p = some e ∧ weight e = n ∧ NoBareParam e
where
  /-- No action parameter is an operand of a comparison, except inside casts. -/
  NoBareParam : Expr → Prop
    | .bin _ _ l r => NoBareParam l ∧ NoBareParam r
    | .boolNeg _ e => NoBareParam e
    | .actionParam _ _ => False
    | .notSet _ => False
    | _ => True

/-- The value of the expression is forced along one path only: no node on a justifying path has two operands
each of which forces its value. -/
def NoTie (ctx : EvalCtx) (n : Node) : Prop :=
  ∀ m, Justifies ctx n m → ∀ a b, Forces ctx m a → Forces ctx m b → a = b

/-- Lexicographic order of byte strings. -/
def Before (a b : Str) : Prop :=
  (∃ c s, b = a ++ c :: s) ∨ ∃ p c d s t, a = p ++ c :: s ∧ b = p ++ d :: t ∧ c.toNat < d.toNat

/-- The key or parameter `n` occurs in the expression. -/
def Mentions : Expr → Str → Prop
  | .key _ m, n | .actionParam _ m, n => n = m
  | .boolNeg _ e, n | .arithNeg _ e, n | .typeCast _ e, n | .field _ e _, n => Mentions e n
  | .bin _ _ l r, n => Mentions l n ∨ Mentions r n
  | _, _ => False

/-- Two entries (with the same priority), or two action invocations, that agree on the names in `P`. -/
def SameOn (P : Str → Prop) : CtxVals → CtxVals → Prop
  | .table a, .table b => a.priority = b.priority ∧ ∀ n, P n → lookup n a.keys = lookup n b.keys
  | .action a, .action b => ∀ n, P n → lookup n a.params = lookup n b.params
  | _, _ => False

theorem SameOn.mono {P Q : Str → Prop} {a b : CtxVals} (h : SameOn P a b) (hq : ∀ n, Q n → P n) : SameOn Q a b := by
  cases a <;> cases b
  · exact ⟨h.1, fun n hn => h.2 n (hq n hn)⟩
  · exact h.elim
  · exact h.elim
  · exact fun n hn => h n (hq n hn)

/-- How the value of a key is written in an explanation, with decimal numerals. -/
inductive ValueText : Value → Str → Prop where
  | exact {v : Int} {s : Str} : IntNumeral v s → ValueText (.exact v) (c!"Exact{.value = " ++ s ++ c!"}")
  | ternary {v m : Int} {s t : Str} : IntNumeral v s → IntNumeral m t →
      ValueText (.ternary v m) (c!"Ternary{.value = " ++ s ++ c!", .mask = " ++ t ++ c!"}")
  | lpm {v p : Int} {s t : Str} : IntNumeral v s → IntNumeral p t →
      ValueText (.lpm v p) (c!"Lpm{.value = " ++ s ++ c!", .prefix_length = " ++ t ++ c!"}")
  | range {l h : Int} {s t : Str} : IntNumeral l s → IntNumeral h t →
      ValueText (.range l h) (c!"Range{.low = " ++ s ++ c!", .high = " ++ t ++ c!"}")

end P4C.Spec
