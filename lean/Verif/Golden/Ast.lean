import Verif.Model.Ast

/-
The tests of `p4_constraints/ast_test.cc`, run on the model. Addresses of subexpressions are paths.
-/

namespace P4C.Golden.Ast

/-- `Size` with an empty cache: the size and the cache afterwards. -/
def sized (e : Expr) : Res (Nat × SizeCache) := sizeC e [] []

/-- Constants, keys and so on. -/
def bool (b : Bool) : Expr := .boolConst {} b
@[inherit_doc bool] def int (s : Str) : Expr := .intConst {} s
@[inherit_doc bool] def key (s : Str) : Expr := .key {} s
@[inherit_doc bool] def bin (op : BinOp) (l r : Expr) : Expr := .bin {} op l r

-- SizeOfBooleanConstantsOneAndNotCached … SizeOfAttrAccessOneAndNotCached
example : ∀ e ∈ [bool true, bool false, int c!"0", int c!"-1", int c!"1", int c!"42", int c!"-9042852073498123679518173785123857",
    .field {} (key c!"A") c!"B", .field {} (.field {} (.field {} (key c!"A") c!"B") c!"C") c!"D", .attr {} c!"priority"],
    sized e = .ok (1, []) := by decide +kernel

/-- `n` negations. -/
def negs (f : Expr → Expr) : Nat → Expr → Expr
  | 0, e => e
  | n + 1, e => f (negs f n e)

-- SizeOfArithmeticNegationOneAndNotCached
example : ∀ n ∈ [1, 2, 3, 4], sized (negs (.arithNeg {}) n (int c!"42")) = .ok (1, []) := by decide +kernel

-- SizeOfBooleanNegationAddsOneAndCached
example : ∀ i ∈ [0, 1, 2, 3], sized (negs (.boolNeg {}) (i + 1) (bool true)) =
    .ok (i + 2, (List.range (i + 1)).map fun j => (List.replicate j 0, i + 2 - j)) := by decide +kernel

-- SizeOfBinaryBooleanExpressionAddsOneAndCached, SizeOfBinaryNonBooleanExpressionAddsOneAndCached
example : sized (bin .and (bool true) (bool false)) = .ok (3, [([], 3)]) := by decide +kernel
example : sized (bin .ne (key c!"ether_type") (int c!"2048")) = .ok (3, [([], 3)]) := by decide +kernel

/-- `ether_type != 0x0800 && ether_type != 0x86dd` -/
def constraint1 : Expr := bin .and (bin .ne (key c!"ether_type") (int c!"2048")) (bin .ne (key c!"ether_type") (int c!"34525"))

-- SizeOfConstraint1SevenAndCached
example : sized constraint1 = .ok (7, [([], 7), ([1], 3), ([0], 3)]) := by decide +kernel

/-- `ttl::mask != 0 -> (is_ip == 1 || is_ipv4 == 1 || is_ipv6 == 1)` -/
def constraint2 : Expr :=
  bin .implies (bin .ne (.field {} (key c!"ttl") c!"mask") (int c!"0"))
    (bin .or (bin .or (bin .eq (key c!"is_ip") (int c!"1")) (bin .eq (key c!"is_ipv4") (int c!"1")))
      (bin .eq (key c!"is_ipv6") (int c!"1")))

-- SizeOfConstraint2FifthteenAndCached
example : ∃ c, sized constraint2 = .ok (15, c) ∧
    c.isPerm [([], 15), ([0], 3), ([1], 11), ([0, 1], 7), ([1, 1], 3), ([0, 0, 1], 3), ([1, 0, 1], 3)] = true :=
  ⟨_, rfl, by decide +kernel⟩

-- CacheIsUsed, NoCacheOkay
example : sizeC constraint1 [] [([], 343)] = .ok (343, [([], 343)]) := by decide +kernel
example : size constraint1 = .ok 7 := by decide +kernel

-- ReturnsEmptyForActionParameter
example : (getVariables (bin .ge (.actionParam {} c!"1") (.actionParam {} c!"2"))).isPerm [c!"1", c!"2"] = true := by decide +kernel

end P4C.Golden.Ast
