import Verif.Proofs.Cost
import Verif.Proofs.Program

/-
The size of constraints and the length of their texts.
-/

namespace P4C

open Spec

theorem dotted_length {sep : Str} {ts : List Token} {n : Str} {a b : Loc} (h : Dotted sep ts n a b) : 1 ≤ ts.length := by
  induction h with
  | one => simp
  | snoc => simp

theorem G_nodes {pton : Str → Option Bytes} {k : ConstraintKind} {n : Nat} {ts : List Token} {e : Expr}
    (h : G pton k n ts e) : nodes e ≤ ts.length := by
  induction h with
  | true_ | false_ | numeral | address | attr => simp [nodes]
  | key _ h | param _ h => exact dotted_length h
  | paren _ _ _ ih | not _ _ ih | neg _ _ ih | trailing _ _ ih => simp [nodes]; omega
  | up _ _ ih => exact ih
  | field _ _ _ ih => simp [nodes]; omega
  | bin _ _ _ ih ih' => simp [nodes]; omega

theorem spelling_pos {k : Kind} {t s : Str} (h : Spells k t s) : 1 ≤ s.length := by
  cases h with
  | keyword h =>
    have : ∀ x ∈ keywords, 1 ≤ x.2.length := by decide
    exact this _ h
  | decimal h => exact List.length_pos_iff.2 h
  | _ => simp

theorem lexed_length {l : Loc} {s : Str} {ts : List Token} (h : Lexed l s ts) : ts.length ≤ s.length + 1 := by
  induction h with
  | eof => simp
  | bad => simp
  | tok h _ _ ih =>
    have := spelling_pos h
    simp
    omega
  | _ => simp at *; omega

/-- The number of casts that can be on top of an expression. -/
def castLevel : Ty → Nat
  | .arbitraryInt => 0
  | .fixedUnsigned _ => 1
  | _ => 2

theorem castLevel_step {a b : Ty} (h : CastStep a b) : castLevel a + 1 ≤ castLevel b := by
  cases h <;> simp [castLevel]

theorem castLevel_le (t : Ty) : castLevel t ≤ 2 := by
  cases t <;> simp [castLevel]

theorem nodes_strip {e : Expr} (h : WellElab e) : nodes e + 2 ≤ 3 * nodes (strip e) + castLevel e.ty := by
  induction e with
  | boolConst | intConst | key | actionParam | attr | notSet => simp [nodes, strip]
  | boolNeg i e ih | arithNeg i e ih | field i e f ih =>
    have := ih h.2
    have := castLevel_le e.ty
    simp only [nodes, strip]
    omega
  | typeCast i e ih =>
    have := ih h.2.1
    have := castLevel_step h.2.2.1
    simp only [nodes, strip]
    show _ ≤ _ + castLevel i.ty
    omega
  | bin i op l r ihl ihr =>
    have := ihl h.2.1
    have := ihr h.2.2
    have := castLevel_le l.ty
    have := castLevel_le r.ty
    simp only [nodes, strip]
    omega

theorem nodes_castFree {e : Expr} (h : CastFree e) : nodes (strip e) = nodes e := by
  induction e with
  | boolConst | intConst | key | actionParam | attr | notSet => rfl
  | boolNeg i e ih | arithNeg i e ih | field i e f ih => simp only [nodes, strip, ih h]
  | typeCast i e ih => exact h.elim
  | bin i op l r ihl ihr => simp only [nodes, strip, ihl h.1, ihr h.2]

theorem nodes_infer {src : ConstraintSource} {sc : Scope} {e e' : Expr} (h : inferAndCheck src sc e = .ok e') :
    nodes e' ≤ 3 * nodes e := by
  have h1 := infer_strip h
  have h2 := nodes_strip h1.2
  rw [h1.1, nodes_castFree (infer_castFree h)] at h2
  have := castLevel_le e'.ty
  omega

theorem nodes_text {sys : Sys} {k : ConstraintKind} {src : ConstraintSource} {e : Expr}
    (h : Constraint sys.inetPton6 k (tokenize src) e) : nodes e ≤ src.str.length := by
  obtain ⟨toks, last, h1, _, hg⟩ := parseConstraint_split.1 (parseConstraint_iff.2 h)
  have h2 := G_nodes hg
  have h3 := lexed_length (tokenize_lexed src)
  rw [h1, List.length_append, List.length_singleton] at h3
  omega

theorem nodesOf_text {sys : Sys} {k : ConstraintKind} {p : Preamble} {sc : Scope} {o : Option Expr} {src : ConstraintSource}
    (h : parseAndCheck sys k p sc = .ok (o, src)) : nodesOf o ≤ 3 * src.str.length := by
  rcases parseAndCheck_iff.1 h with ⟨_, rfl, rfl⟩ | ⟨e, c, s, _, hc, _, hi, rfl⟩
  · exact Nat.zero_le _
  · have := nodes_text hc
    have := nodes_infer hi
    simp only [nodesOf]
    omega

theorem nodesFor_text {sys : Sys} {p : P4Info} {ci : ConstraintInfo} (h : p4ToConstraintInfo sys p = .ok ci)
    (entry : RtEntry) : nodesFor ci entry ≤ 3 * textFor ci entry := by
  unfold nodesFor textFor
  rw [Nat.mul_add]
  refine Nat.add_le_add ?_ ?_
  · cases hl : lookup entry.tableId ci.tables with
    | none => exact Nat.zero_le _
    | some ti =>
      obtain ⟨d, _, _, hd⟩ := (table_of_info h).1 hl
      obtain ⟨_, _, _, _, hp⟩ := parseTableInfo_parts hd
      exact nodesOf_text hp
  · induction (actionsOf entry.action).getD [] with
    | nil => exact Nat.zero_le _
    | cons a as ih =>
      simp only [List.map_cons, List.sum_cons, Nat.mul_add]
      refine Nat.add_le_add ?_ ih
      cases hl : lookup a.actionId ci.actions with
      | none => exact Nat.zero_le _
      | some ai =>
        obtain ⟨d, _, _, hd⟩ := (action_of_info h).1 hl
        obtain ⟨_, _, _, _, hp⟩ := parseActionInfo_parts hd
        exact nodesOf_text hp

end P4C
