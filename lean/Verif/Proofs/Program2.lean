import Verif.Proofs.Program
import Verif.Model.Cli

/-
Outcomes of reading a program, and the command line tool.
-/

namespace P4C

open Spec

/-! ### Outcomes of type checking -/

theorem quotingError_outcome {α : Type} (src : ConstraintSource) (a b : Loc) :
    (∃ x, (quotingError src a b : Res α) = .err x) ∨
      ((quotingError src a b : Res α) = .crash ∧ quoteSub src a b = .crash) := by
  unfold quotingError
  have := quoteSub_ne_oof src a b
  cases h : quoteSub src a b with
  | ok s => exact .inl ⟨_, rfl⟩
  | err x => exact .inl ⟨_, rfl⟩
  | crash => exact .inr ⟨rfl, rfl⟩
  | oof => exact (this h).elim

theorem runtimeTypeError_outcome {α : Type} (src : ConstraintSource) (a b : Loc) :
    (∃ x, (runtimeTypeError src a b : Res α) = .err x) ∨
      ((runtimeTypeError src a b : Res α) = .crash ∧ quoteSub src a b = .crash) := by
  unfold runtimeTypeError
  have := quoteSub_ne_oof src a b
  cases h : quoteSub src a b with
  | ok s => exact .inl ⟨_, rfl⟩
  | err x => exact .inl ⟨_, rfl⟩
  | crash => exact .inr ⟨rfl, rfl⟩
  | oof => exact (this h).elim

/-- The outcome of type checking: a tree, an error, or a crash when quoting from the begin of one node to the end of
another. -/
def InferOutcome (src : ConstraintSource) (e : Expr) (r : Res Expr) : Prop :=
  (∃ e', r = .ok e') ∨ (∃ x, r = .err x) ∨ (r = .crash ∧ ∃ x y, NodeOf x e ∧ NodeOf y e ∧
    (Nested e → LocLe x.start y.stop) ∧ quoteSub src x.start y.stop = .crash)

theorem LocLt.le {a b : Loc} (h : LocLt a b) : LocLe a b := by
  unfold LocLt at h
  unfold LocLe
  omega

theorem nested_lt {e : Expr} (h : Nested e) : LocLt e.start e.stop := by
  cases e <;> first | exact h.1 | exact h

theorem infer_node {src : ConstraintSource} {e x : Expr} (hx : NodeOf x e) :
    InferOutcome src e (quotingError src x.start x.stop) := by
  rcases quotingError_outcome (α := Expr) src x.start x.stop with h | ⟨h1, h2⟩
  · exact .inr (.inl h)
  · exact .inr (.inr ⟨h1, x, x, hx, hx, fun hn => LocLt.le (nested_lt (nested_node hx hn).1), h2⟩)

theorem InferOutcome.bind {src : ConstraintSource} {e x : Expr} {r : Res Expr} {f : Expr → Res Expr}
    (h : InferOutcome src x r) (hs : ∀ y, NodeOf y x → NodeOf y e) (hn : Nested e → Nested x)
    (hf : ∀ e', r = .ok e' → InferOutcome src e (f e')) : InferOutcome src e (r >>= f) := by
  rcases h with ⟨e', rfl⟩ | ⟨c, rfl⟩ | ⟨rfl, y, z, h1, h2, h3, h4⟩
  · exact hf e' rfl
  · exact .inr (.inl ⟨c, rfl⟩)
  · exact .inr (.inr ⟨rfl, y, z, hs _ h1, hs _ h2, fun h => h3 (hn h), h4⟩)

theorem infer_ends {src : ConstraintSource} {sc : Scope} {e e' : Expr} (h : inferAndCheck src sc e = .ok e') :
    (quotingError src e'.start e'.stop : Res Expr) = quotingError src e.start e.stop := by
  obtain ⟨h1, h2⟩ := infer_span h
  rw [h1, h2]

theorem infer_outcome (src : ConstraintSource) (sc : Scope) (e : Expr) :
    InferOutcome src e (inferAndCheck src sc e) := by
  induction e with
  | boolConst i b => exact .inl ⟨_, rfl⟩
  | intConst i s => exact .inl ⟨_, rfl⟩
  | notSet i => exact infer_node (.self (.notSet i))
  | typeCast i e => exact infer_node (.self (.typeCast i e))
  | key i n =>
    unfold inferAndCheck
    cases sc with
    | action _ => exact infer_node (.self (.key i n))
    | table keys =>
      dsimp only
      cases lookup n keys with
      | none => exact infer_node (.self (.key i n))
      | some ki =>
        dsimp only
        split
        · exact infer_node (.self (.key i n))
        · exact .inl ⟨_, rfl⟩
  | actionParam i n =>
    unfold inferAndCheck
    cases sc with
    | table _ => exact infer_node (.self (.actionParam i n))
    | action keys =>
      dsimp only
      cases lookup n keys with
      | none => exact infer_node (.self (.actionParam i n))
      | some ki =>
        dsimp only
        split
        · exact infer_node (.self (.actionParam i n))
        · exact .inl ⟨_, rfl⟩
  | boolNeg i e ih =>
    unfold inferAndCheck
    refine ih.bind (fun y hy => .boolNeg hy) (fun h => h.2.2.2) fun e' he => ?_
    split
    · rw [infer_ends he]
      exact infer_node (.boolNeg (.self e))
    · exact .inl ⟨_, rfl⟩
  | arithNeg i e ih =>
    unfold inferAndCheck
    refine ih.bind (fun y hy => .arithNeg hy) (fun h => h.2.2.2) fun e' he => ?_
    split
    · rw [infer_ends he]
      exact infer_node (.arithNeg (.self e))
    · exact .inl ⟨_, rfl⟩
  | field i e f ih =>
    unfold inferAndCheck
    refine ih.bind (fun y hy => .field hy) (fun h => h.2.2.2) fun e' he => ?_
    split
    · exact infer_node (.self (.field i e f))
    · exact .inl ⟨_, rfl⟩
  | attr i n =>
    unfold inferAndCheck
    split
    · exact infer_node (.self (.attr i n))
    · split
      · rcases runtimeTypeError_outcome (α := Expr) src i.start i.stop with h | ⟨h1, h2⟩
        · exact .inr (.inl h)
        · exact .inr (.inr ⟨h1, .attr i n, .attr i n, .self _, .self _, fun hn => LocLt.le (nested_lt hn), h2⟩)
      · exact .inl ⟨_, rfl⟩
  | bin i op l r ihl ihr =>
    unfold inferAndCheck
    refine ihl.bind (fun y hy => .left hy) (fun h => h.2.2.2.2.1) fun l' hl => ?_
    refine ihr.bind (fun y hy => .right hy) (fun h => h.2.2.2.2.2) fun r' hr => ?_
    have hun : ∀ f : Ty × Expr × Expr → Res Expr, (∀ x, InferOutcome src (.bin i op l r) (f x)) →
        InferOutcome src (.bin i op l r) (unify src l' r' >>= f) := by
      intro f hf
      unfold unify
      split
      · rcases quotingError_outcome (α := Ty × Expr × Expr) src l'.start r'.stop with ⟨x, h⟩ | ⟨h1, h2⟩
        · rw [h]
          exact .inr (.inl ⟨x, rfl⟩)
        · rw [h1]
          rw [(infer_span hl).1, (infer_span hr).2] at h2
          refine .inr (.inr ⟨rfl, l, r, .left (.self l), .right (.self r), fun hn => ?_, h2⟩)
          have h3 := LocLt.le (nested_lt hn.2.2.2.2.1)
          have h4 := LocLt.le (nested_lt hn.2.2.2.2.2)
          have h5 := hn.2.2.1
          unfold LocLe at *
          omega
      · exact hf _
    cases op with
    | unknown => exact .inr (.inl ⟨_, rfl⟩)
    | and =>
      dsimp only
      split
      · rw [infer_ends hl]
        exact infer_node (.left (.self l))
      · split
        · rw [infer_ends hr]
          exact infer_node (.right (.self r))
        · exact .inl ⟨_, rfl⟩
    | or =>
      dsimp only
      split
      · rw [infer_ends hl]
        exact infer_node (.left (.self l))
      · split
        · rw [infer_ends hr]
          exact infer_node (.right (.self r))
        · exact .inl ⟨_, rfl⟩
    | implies =>
      dsimp only
      split
      · rw [infer_ends hl]
        exact infer_node (.left (.self l))
      · split
        · rw [infer_ends hr]
          exact infer_node (.right (.self r))
        · exact .inl ⟨_, rfl⟩
    | _ =>
      dsimp only
      refine hun _ fun x => ?_
      split
      · exact infer_node (.self (.bin i _ l r))
      · exact .inl ⟨_, rfl⟩

/-! ### Outcomes of reading a program -/

/-- On one line, nothing crashes. -/
theorem infer_oneLine {sys : Sys} {k : ConstraintKind} {src : ConstraintSource} {e : Expr} {sc : Scope}
    (hn : '\n' ∉ src.str) (hr : '\r' ∉ src.str) (hc : 0 ≤ src.loc.col) (h : parseConstraint sys k src = .ok e) :
    inferAndCheck src sc e ≠ .crash := by
  intro hcr
  rcases infer_outcome src sc e with ⟨e', he⟩ | ⟨x, hx⟩ | ⟨_, x, y, hx, hy, hle, hq⟩
  · rw [hcr] at he
    cases he
  · rw [hcr] at hx
    cases hx
  · have aux : ∀ q, q <+: src.str → (advance src.loc q).line = src.loc.line := by
      rintro q ⟨t, ht⟩
      have hq : ∀ c, c ∉ src.str → c ∉ q := fun c hc hcq => hc (by rw [← ht]; simp [hcq])
      rw [advance_line ht.symm (crLf_of hr) (by rintro ⟨y, rfl⟩; exact hq _ hr (by simp))]
      rw [List.count_eq_zero.2 (hq _ hn)]
      simp
    obtain ⟨p, m, r, h1, h2, h3, _⟩ := node_found h (oneLine_of hn hr) hx
    obtain ⟨p', m', r', h1', h2', h3', _⟩ := node_found h (oneLine_of hn hr) hy
    have l1 : x.start.line = src.loc.line := by rw [h2, aux p ⟨m ++ r, by rw [h1]; simp⟩]
    have l2 : y.stop.line = src.loc.line := by rw [h3', aux (p' ++ m') ⟨r', by rw [h1']⟩]
    have hnest := (C28_spans h).1
    have := hle hnest
    refine quoteSub_ne_crash (by rw [l1, l2]) ?_ ?_ hq
    · rw [h2]
      exact advance_col_nonneg hc p
    · unfold LocLe at this
      omega

/-- The constraint attached, if any, is on a single line. -/
def OneLined (k : ConstraintKind) (p : Preamble) : Prop :=
  ∀ src, Attached k p (some src) → '\n' ∉ src.str ∧ '\r' ∉ src.str

theorem parseAndCheck_ext {sys : Sys} {k : ConstraintKind} {p : Preamble} {sc : Scope} {src : ConstraintSource}
    (h : extractConstraint k p = .ok (some src)) : parseAndCheck sys k p sc =
      (parseConstraint sys k src >>= fun e => inferAndCheck src sc e >>= fun e => .ok (some e, src)) := by
  unfold parseAndCheck
  rw [h]
  rfl

theorem parseAndCheck_outcome {sys : Sys} {k : ConstraintKind} {p : Preamble} {sc : Scope} :
    parseAndCheck sys k p sc ≠ .oof ∧ (OneLined k p → parseAndCheck sys k p sc ≠ .crash) := by
  rcases extract_total k p with ⟨o, ho⟩ | ho
  · cases o with
    | none =>
      unfold parseAndCheck
      rw [ho]
      exact ⟨nofun, fun _ => nofun⟩
    | some src =>
      have hcol : src.loc.col = 0 := (extract_loc ho).2
      rw [parseAndCheck_ext ho]
      rcases parse_outcomes (sys := sys) (k := k) (src := src) (by omega) with ⟨e, he⟩ | he | he
      · rw [he, Res.ok_bind]
        rcases infer_outcome src sc e with ⟨e', h⟩ | ⟨x, h⟩ | ⟨h, _⟩
        · rw [h]
          exact ⟨nofun, fun _ => nofun⟩
        · rw [h]
          exact ⟨nofun, fun _ => nofun⟩
        · refine ⟨by rw [h]; nofun, fun hl => ?_⟩
          obtain ⟨h1, h2⟩ := hl src (attached_iff.1 ho)
          exact (infer_oneLine h1 h2 (by omega) he h).elim
      · rw [he]
        exact ⟨nofun, fun _ => nofun⟩
      · rw [he]
        exact ⟨nofun, fun _ => nofun⟩
  · unfold parseAndCheck
    rw [ho]
    exact ⟨nofun, fun _ => nofun⟩

theorem parseKeys_outcome (fs : List MatchField) : ∀ m, (∃ m', parseKeys m fs = .ok m') ∨ ∃ x, parseKeys m fs = .err x := by
  induction fs with
  | nil => exact fun m => .inl ⟨m, rfl⟩
  | cons f fs ih =>
    intro m
    unfold parseKeys
    have ht : (∃ t, parseKeyType f = .ok t) ∨ ∃ x, parseKeyType f = .err x := by
      unfold parseKeyType
      split <;> first | exact .inl ⟨_, rfl⟩ | exact .inr ⟨_, rfl⟩
    rcases ht with ⟨t, ht⟩ | ⟨x, hx⟩
    · rw [ht]
      rcases insertVar_total ⟨f.id, f.name, t⟩ m with ⟨m', hm⟩ | hm
      · change (∃ m', (insertVar ⟨f.id, f.name, t⟩ m >>= fun m => parseKeys m fs) = .ok m') ∨
          ∃ x, (insertVar ⟨f.id, f.name, t⟩ m >>= fun m => parseKeys m fs) = .err x
        rw [hm]
        exact ih m'
      · change (∃ m', (insertVar ⟨f.id, f.name, t⟩ m >>= fun m => parseKeys m fs) = .ok m') ∨
          ∃ x, (insertVar ⟨f.id, f.name, t⟩ m >>= fun m => parseKeys m fs) = .err x
        rw [hm]
        exact .inr ⟨_, rfl⟩
    · rw [hx]
      exact .inr ⟨_, rfl⟩

theorem parseTableInfo_outcome {sys : Sys} {d : TableDecl} : parseTableInfo sys d ≠ .oof ∧
    (OneLined .table d.preamble → parseTableInfo sys d ≠ .crash) := by
  unfold parseTableInfo
  rcases parseKeys_outcome d.matchFields ([], []) with ⟨⟨a, b⟩, h⟩ | ⟨x, h⟩
  · rw [h, Res.ok_bind]
    obtain ⟨h1, h2⟩ := parseAndCheck_outcome (sys := sys) (k := .table) (p := d.preamble) (sc := .table b)
    exact ⟨bind_ne_oof h1 fun _ => nofun, fun hl => bind_ne_crash (h2 hl) fun _ _ => nofun⟩
  · rw [h]
    exact ⟨nofun, fun _ => nofun⟩

theorem parseActionInfo_outcome {sys : Sys} {d : ActionDecl} : parseActionInfo sys d ≠ .oof ∧
    (OneLined .action d.preamble → parseActionInfo sys d ≠ .crash) := by
  unfold parseActionInfo
  rw [parseParamDecls_eq]
  rcases insertVars_total (d.params.map paramOf) ([], []) with ⟨⟨a, b⟩, h⟩ | h
  · rw [h, Res.ok_bind]
    obtain ⟨h1, h2⟩ := parseAndCheck_outcome (sys := sys) (k := .action) (p := d.preamble) (sc := .action b)
    exact ⟨bind_ne_oof h1 fun _ => nofun, fun hl => bind_ne_crash (h2 hl) fun _ _ => nofun⟩
  · rw [h]
    exact ⟨nofun, fun _ => nofun⟩

theorem collect_outcome {δ ι : Type} {parse : δ → Res ι} {id : δ → Nat} (ds : List δ) :
    ∀ acc, (∃ acc', collect parse id acc ds = .ok acc') ∨
      (collect parse id acc ds = .crash ∧ ∃ d ∈ ds, parse d = .crash) ∨
      (collect parse id acc ds = .oof ∧ ∃ d ∈ ds, parse d = .oof) := by
  induction ds with
  | nil => exact fun acc => .inl ⟨acc, by rw [collect]⟩
  | cons d ds ih =>
    rintro ⟨m, b⟩
    have lift : ∀ acc, (∃ acc', collect parse id acc ds = .ok acc') ∨
        (collect parse id acc ds = .crash ∧ ∃ x ∈ d :: ds, parse x = .crash) ∨
        (collect parse id acc ds = .oof ∧ ∃ x ∈ d :: ds, parse x = .oof) := by
      intro acc
      rcases ih acc with h | ⟨h, x, hx, hp⟩ | ⟨h, x, hx, hp⟩
      · exact .inl h
      · exact .inr (.inl ⟨h, x, List.mem_cons_of_mem _ hx, hp⟩)
      · exact .inr (.inr ⟨h, x, List.mem_cons_of_mem _ hx, hp⟩)
    rw [collect]
    cases hp : parse d with
    | ok i =>
      dsimp only
      cases insertNew (id d) i m with
      | some m' => exact lift _
      | none => exact lift _
    | err x => exact lift _
    | crash => exact .inr (.inl ⟨rfl, d, List.mem_cons_self, hp⟩)
    | oof => exact .inr (.inr ⟨rfl, d, List.mem_cons_self, hp⟩)

theorem p4ToConstraintInfo_outcome {sys : Sys} {p : P4Info} :
    (∃ ci, p4ToConstraintInfo sys p = .ok ci) ∨ p4ToConstraintInfo sys p = .err .invalidArgument ∨
    (p4ToConstraintInfo sys p = .crash ∧
      ((∃ d ∈ p.tables, ¬ OneLined .table d.preamble) ∨ ∃ d ∈ p.actions, ¬ OneLined .action d.preamble)) := by
  have e1 : p4ToConstraintInfo sys p =
      (collect (parseTableInfo sys) (fun t => t.preamble.id) ([], false) p.tables >>= fun x =>
       collect (parseActionInfo sys) (fun a => a.preamble.id) ([], false) p.actions >>= fun y =>
       if x.2 || y.2 then .err .invalidArgument else .ok ⟨y.1, x.1⟩) := rfl
  rw [e1]
  rcases collect_outcome (parse := parseTableInfo sys) (id := fun t => t.preamble.id) p.tables ([], false) with
    ⟨x, h⟩ | ⟨h, d, hd, hp⟩ | ⟨h, d, hd, hp⟩
  · rw [h, Res.ok_bind]
    rcases collect_outcome (parse := parseActionInfo sys) (id := fun t => t.preamble.id) p.actions ([], false) with
      ⟨y, h⟩ | ⟨h, d, hd, hp⟩ | ⟨h, d, hd, hp⟩
    · rw [h, Res.ok_bind]
      split
      · exact .inr (.inl rfl)
      · exact .inl ⟨_, rfl⟩
    · rw [h]
      exact .inr (.inr ⟨rfl, .inr ⟨d, hd, fun ho => parseActionInfo_outcome.2 ho hp⟩⟩)
    · exact (parseActionInfo_outcome.1 hp).elim
  · rw [h]
    exact .inr (.inr ⟨rfl, .inl ⟨d, hd, fun ho => parseTableInfo_outcome.2 ho hp⟩⟩)
  · exact (parseTableInfo_outcome.1 hp).elim

/-! ### Coercion of ids -/

theorem coerce_toNat (id : BitVec 32) : (coerceToTableId id).toNat = 2 * 2 ^ 24 + id.toNat % 2 ^ 24 := by
  unfold coerceToTableId
  rw [BitVec.toNat_or, BitVec.toNat_and]
  have h1 : (0x00FFFFFF#32).toNat = 2 ^ 24 - 1 := rfl
  have h2 : (0x02#32 <<< 24).toNat = 2 <<< 24 := rfl
  rw [h1, h2, Nat.and_two_pow_sub_one_eq_mod, Nat.or_comm,
    ← Nat.shiftLeft_add_eq_or_of_lt (Nat.mod_lt _ (Nat.two_pow_pos 24)), Nat.shiftLeft_eq]

theorem coerceId_eq (id : Nat) : coerceId id = 2 * 2 ^ 24 + id % 2 ^ 24 := by
  unfold coerceId
  rw [coerce_toNat, BitVec.toNat_ofNat, Nat.mod_mod_of_dvd]
  exact ⟨2 ^ 8, by decide⟩

theorem coerceId_iff (a b : Nat) : coerceId a = coerceId b ↔ a % 2 ^ 24 = b % 2 ^ 24 := by
  rw [coerceId_eq, coerceId_eq]
  omega

/-! ### The command line tool -/

theorem checkFiles_ok {ci : ConstraintInfo} {fs : List (Str × FileRead RtEntry)} {rs : List (Str × Report)} :
    checkFiles ci fs = .ok rs ↔ Each (fun f r => r.1 = f.1 ∧ checkFile ci f.2 = .ok r.2) fs rs := by
  induction fs generalizing rs with
  | nil =>
    constructor
    · intro h
      cases h
      exact .nil
    · intro h
      cases h
      rfl
  | cons f fs ih =>
    rw [checkFiles]
    simp only [Res.bind_eq_ok]
    constructor
    · rintro ⟨r, hr, rs', hrs, h⟩
      cases h
      exact .cons ⟨rfl, hr⟩ (ih.1 hrs)
    · intro h
      cases h with
      | cons h1 h2 =>
        rename_i r rs
        exact ⟨r.2, h1.2, rs, ih.2 h2, by rw [← h1.1]⟩

end P4C
