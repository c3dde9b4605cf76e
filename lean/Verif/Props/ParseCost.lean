import Verif.Proofs.ParseCost
import Verif.Props.Grammar
import Verif.Props.Quoting

/-!
# C89: the cost of reading a constraint
-/

namespace P4C

open Spec

/-- C89: the metered parser and the metered type checker give the same results. -/
theorem C89_same_results (sys : Sys) (k : ConstraintKind) (src : ConstraintSource) (sc : Scope) (e : Expr) :
    (parseConstraintC sys k src).res = parseConstraint sys k src ∧
    (inferAndCheckC src sc e).res = inferAndCheck src sc e :=
  ⟨res_parseTokensC sys k (tokenize src) src, res_inferC src sc e⟩

/-- C89: whether a text can be parsed or not, the number of calls and of iterations of loops is linear in its length, the
recursion is no deeper than its length and two, and the number of nodes copied is less than half of the square of its
length and one. -/
theorem C89_parse (sys : Sys) (k : ConstraintKind) (src : ConstraintSource) :
    (parseConstraintC sys k src).calls ≤ 3 * src.str.length + 4 ∧
    (parseConstraintC sys k src).depth ≤ src.str.length + 2 ∧
    2 * (parseConstraintC sys k src).copied ≤ (src.str.length + 1) * (src.str.length + 1) := by
  obtain ⟨h1, h2, h3, -⟩ := costTokens sys k (tokenize src) src
  have h4 := lexed_length (tokenize_lexed src)
  have h5 := square_le h4
  unfold parseConstraintC
  exact ⟨by omega, by omega, by omega⟩

/-- C89: parsing copies each node once for each operator above it: the number of nodes copied is the sum of their depths. -/
theorem C89_copied {sys : Sys} {k : ConstraintKind} {src : ConstraintSource} {e : Expr}
    (h : parseConstraint sys k src = .ok e) : (parseConstraintC sys k src).copied = depths 0 e :=
  ((costTokens sys k (tokenize src) src).2.2.2 e ((res_parseTokensC sys k (tokenize src) src).trans h)).1

/-- C89: checking types takes at most one call for each node, no deeper than the tree, and copies nothing; if it succeeds,
exactly so. -/
theorem C89_check (src : ConstraintSource) (sc : Scope) (e : Expr) :
    (inferAndCheckC src sc e).calls ≤ nodes e ∧ (inferAndCheckC src sc e).depth ≤ height e ∧
    (inferAndCheckC src sc e).copied = 0 ∧
    ((∃ e', inferAndCheck src sc e = .ok e') →
      (inferAndCheckC src sc e).calls = nodes e ∧ (inferAndCheckC src sc e).depth = height e) :=
  ⟨(costInfer src sc e).1, (costInfer src sc e).2.1, (costInfer src sc e).2.2, fun ⟨_, h⟩ => costInfer_ok h⟩

/-- C89: the tree of a constraint that is accepted is no higher than its text is long, and casts add at most two. -/
theorem C89_height {sys : Sys} {k : ConstraintKind} {src src' : ConstraintSource} {sc : Scope} {e e' : Expr}
    (h : parseConstraint sys k src = .ok e) (h' : inferAndCheck src' sc e = .ok e') :
    height e ≤ src.str.length ∧ height e' ≤ height e + 2 := by
  have := nodes_text (parseConstraint_iff.1 h)
  have := height_le_nodes e
  exact ⟨by omega, (height_infer h').1⟩

/-- C89: it is the square in fact. A conjunction of `n + 1` constants, of `8 * n + 5` characters, is accepted, and parsing
it copies `n * (n + 1)` nodes. Its tree is of height `n + 1`, and so deep is the recursion of the type checker. -/
theorem C89_quadratic (sys : Sys) (k : ConstraintKind) (sc : Scope) (n : Nat) {src : ConstraintSource}
    (hs : src.str = trues n) : src.str.length = 8 * n + 5 ∧
    ∃ e, parseConstraint sys k src = .ok e ∧ (∃ e', inferAndCheck src sc e = .ok e') ∧
      (parseConstraintC sys k src).copied = n * (n + 1) ∧ (inferAndCheckC src sc e).depth = n + 1 := by
  refine ⟨by rw [hs]; exact trues_length n, ?_⟩
  obtain ⟨e, h1, h2⟩ := C24_print_parse_text (sys := sys) (k := k) natDec_val (truesExpr_writable k n)
    (hs.trans (trues_text natDec n 0 (by omega)))
  obtain ⟨g1, g2, g3⟩ := trues_shape n h2
  obtain ⟨e', h3, -⟩ := infer_complete (src := src) (sc := sc) h2 (truesExpr_ty _ n)
  exact ⟨e, h1, ⟨e', h3⟩, (C89_copied h1).trans g2, (costInfer_ok h3).2.trans g3⟩

/-- C89: the depth of the recursion is not bounded either. A constant with `n` negations, of `2 * n + 5` characters, is
accepted, and the recursion of the parser and that of the type checker are both deeper than `n`. -/
theorem C89_deep (sys : Sys) (k : ConstraintKind) (sc : Scope) (n : Nat) {src : ConstraintSource}
    (hs : src.str = bangs n) : src.str.length = 2 * n + 5 ∧
    ∃ e, parseConstraint sys k src = .ok e ∧ (∃ e', inferAndCheck src sc e = .ok e') ∧
      n < (parseConstraintC sys k src).depth ∧ n < (inferAndCheckC src sc e).depth := by
  refine ⟨by rw [hs]; exact bangs_length n, ?_⟩
  obtain ⟨e, h1, h2⟩ := C24_print_parse_text (sys := sys) (k := k) natDec_val (bangsExpr_writable k n)
    (hs.trans (bangs_text natDec n 0 (by omega)))
  obtain ⟨g1, g2⟩ := bangs_shape n h2
  obtain ⟨e', h3, -⟩ := infer_complete (src := src) (sc := sc) h2 (bangsExpr_ty _ n)
  have h4 := ((costTokens sys k (tokenize src) src).2.2.2 e ((res_parseTokensC sys k (tokenize src) src).trans h1)).2
  have h5 := (costInfer_ok h3).2
  refine ⟨e, h1, ⟨e', h3⟩, ?_, by omega⟩
  unfold parseConstraintC
  omega

/-- A constraint of 25 characters and 12 tokens, with 9 nodes of depths 0 to 4: 18 calls and iterations, a recursion of
depth 4, and 18 nodes copied. -/
example : ((parseConstraintC Ex.sys .table (Ex.src c!"!(x::mask == 1) || y == 2")).calls,
    (parseConstraintC Ex.sys .table (Ex.src c!"!(x::mask == 1) || y == 2")).depth,
    (parseConstraintC Ex.sys .table (Ex.src c!"!(x::mask == 1) || y == 2")).copied) = (18, 4, 18) := by decide +kernel

/-- The texts of `C89_quadratic` and of `C89_deep`. -/
example : String.ofList (trues 2) = "true && true && true " ∧ String.ofList (bangs 2) = "! ! true " := by decide +kernel

end P4C
