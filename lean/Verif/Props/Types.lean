import Verif.Proofs.ParseTotal
import Verif.Proofs.Again
import Verif.Proofs.Elab
import Verif.Props.Examples

/-
Types: properties C13, C14, C15, C16, C17.
-/

namespace P4C

open Spec

/-! ### C13: castability -/

/-- C13 (1): castability is the strict part of "converts by legal steps", and a strict partial order. -/
theorem C13_castability_order :
    (∀ a b, strictlyAbove b a = true ↔ a ≠ b ∧ CastsTo a b) ∧
    (∀ a, strictlyAbove a a = false) ∧
    (∀ a b c, strictlyAbove a b = true → strictlyAbove b c = true → strictlyAbove a c = true) ∧
    (∀ a b, strictlyAbove a b = true → strictlyAbove b a = false) := by
  refine ⟨fun a b => ⟨fun h => ⟨?_, castsTo_iff.2 (.inr h)⟩, ?_⟩, strictlyAbove_irrefl,
    fun _ _ _ => strictlyAbove_trans, fun _ _ => strictlyAbove_asymm⟩
  · rintro rfl; rw [strictlyAbove_irrefl] at h; cases h
  · rintro ⟨hne, hc⟩
    rcases castsTo_iff.1 hc with rfl | h
    · exact absurd rfl hne
    · exact h

/-- C13 (2): the common type is the least upper bound, it exists exactly if there is an upper bound, and it
does not depend on the order of the operands. -/
theorem C13_least_upper_bound (a b : Ty) :
    (∀ t, leastUpperBound a b = some t ↔ IsJoin a b t) ∧
    (leastUpperBound a b = none ↔ ¬ ∃ u, CastsTo a u ∧ CastsTo b u) ∧
    leastUpperBound a b = leastUpperBound b a :=
  ⟨fun _ => lub_iff, lub_none, lub_comm a b⟩

/-- C13 (3): operands of `==` and `!=` are accepted exactly if their types have an upper bound. -/
theorem C13_comparable {src : ConstraintSource} {sc : Scope} {i : Info} {op : BinOp} {l r l' r' : Expr}
    (ho : op = .eq ∨ op = .ne) (hl : inferAndCheck src sc l = .ok l') (hr : inferAndCheck src sc r = .ok r') :
    (∃ e', inferAndCheck src sc (.bin i op l r) = .ok e') ↔ ∃ u, CastsTo l'.ty u ∧ CastsTo r'.ty u := by
  constructor
  · rintro ⟨e', h⟩
    obtain ⟨l2, r2, hl2, hr2, ⟨hc, _⟩ | ⟨_, t, hj, _⟩⟩ := infer_bin.1 h
    · rcases ho with rfl | rfl <;> cases hc
    · rw [hl] at hl2; rw [hr] at hr2; cases hl2; cases hr2
      exact ⟨t, hj.1, hj.2.1⟩
  · rintro ⟨u, h1, h2⟩
    cases hj : leastUpperBound l'.ty r'.ty with
    | none => exact absurd ⟨u, h1, h2⟩ (lub_none.1 hj)
    | some t =>
      refine ⟨_, infer_bin.2 ⟨l', r', hl, hr, .inr ⟨?_, t, lub_iff.1 hj, ?_, rfl⟩⟩⟩
      · rcases ho with rfl | rfl <;> rfl
      · rcases ho with rfl | rfl <;> intro h <;> cases h

example : leastUpperBound (.fixedUnsigned 8) (.ternary 8) = some (.ternary 8) ∧
    leastUpperBound (.fixedUnsigned 8) (.ternary 9) = none ∧
    leastUpperBound .arbitraryInt (.lpm 9) = some (.lpm 9) := by decide

/-! ### C14: type checking only annotates -/

/-- C14: on success, the result is the input up to types and casts (locations are part of what remains),
every cast is a legal conversion step, and every node has a supported type. -/
theorem C14_only_annotates {src : ConstraintSource} {sc : Scope} {e e' : Expr}
    (h : inferAndCheck src sc e = .ok e') : strip e' = strip e ∧ WellElab e' ∧ CastFree e :=
  ⟨(infer_strip h).1, (infer_strip h).2, infer_castFree h⟩

/-- C14, supplement: on input without types (as produced by the parser) nothing is lost by `strip`. -/
theorem C14_recovers_input {src : ConstraintSource} {sc : Scope} {e e' : Expr}
    (h : inferAndCheck src sc e = .ok e') (hu : strip e = e) : strip e' = e := by
  rw [(infer_strip h).1, hu]

example : strip (Ex.expr Ex.tc1) = Ex.expr Ex.tc1 ∧
    Ex.isOk (inferAndCheck (Ex.ti Ex.tc1).source (.table (Ex.ti Ex.tc1).keysByName) (Ex.expr Ex.tc1)) = true ∧
    (Ex.ti Ex.tc1).constraint ≠ some (Ex.expr Ex.tc1) := by decide +kernel

/-! ### C15: the type checker accepts exactly the well-formed constraints -/

/-- C15: acceptance and the inferred type are given by the typing rules, and types are unique. -/
theorem C15_accepts_exactly {src : ConstraintSource} {sc : Scope} {e : Expr} {s : SExpr}
    (ha : abs e = some s) :
    (∀ t, (∃ e', inferAndCheck src sc e = .ok e' ∧ e'.ty = t) ↔ HasTy (sigOf sc) s t) ∧
    (∀ t u, HasTy (sigOf sc) s t → HasTy (sigOf sc) s u → t = u) := by
  refine ⟨fun t => ⟨?_, infer_complete ha⟩, fun t u => hasTy_unique⟩
  rintro ⟨e', h, rfl⟩
  exact infer_sound h ha

example : HasTy (sigOf (.table (Ex.ti Ex.tc1).keysByName)) Ex.s1 .boolean := (Ex.case1 5).boolean

example : ¬ ∃ t, HasTy (sigOf (.table (Ex.ti Ex.tc1).keysByName)) (.cmp .lt (.key c!"tern") (.int 3)) t := by
  rintro ⟨t, h⟩
  obtain ⟨e', h', _⟩ := infer_complete (src := ⟨c!"tern < 3", {}⟩)
    (e := .bin {} .lt (.key {} c!"tern") (.intConst {} c!"3")) (by decide +kernel) h
  have : Ex.isOk (inferAndCheck ⟨c!"tern < 3", {}⟩ (.table (Ex.ti Ex.tc1).keysByName)
    (.bin {} .lt (.key {} c!"tern") (.intConst {} c!"3"))) = false := by decide +kernel
  rw [h'] at this
  cases this

/-! ### C16: type checking twice -/

/-- C16: checking a checked constraint succeeds exactly if no cast was inserted, and then changes
nothing. -/
theorem C16_not_repeated {src src' : ConstraintSource} {sc : Scope} {e e' : Expr}
    (h : inferAndCheck src sc e = .ok e') :
    (CastFree e' → inferAndCheck src' sc e' = .ok e') ∧
    (∀ e'', inferAndCheck src' sc e' = .ok e'' → CastFree e' ∧ e'' = e') := by
  refine ⟨infer_again h, fun e'' h' => ?_⟩
  have hc := infer_castFree h'
  rw [infer_again h hc] at h'
  cases h'
  exact ⟨hc, rfl⟩

/-- C16: if a cast was inserted, then checking again fails at a cast: with InvalidArgument, with Internal if the cast is not at a
place in the text, or with a crash while the place is quoted. -/
theorem C16_repeated {src src' : ConstraintSource} {sc : Scope} {e e' : Expr} (h : inferAndCheck src sc e = .ok e')
    (hc : ¬ CastFree e') :
    ∃ i x, NodeOf (.typeCast i x) e' ∧
      ((∃ q, quoteSub src' i.start i.stop = .ok q ∧ inferAndCheck src' sc e' = .err .invalidArgument) ∨
       (∃ c, quoteSub src' i.start i.stop = .err c ∧ inferAndCheck src' sc e' = .err .internal) ∨
       (quoteSub src' i.start i.stop = .crash ∧ inferAndCheck src' sc e' = .crash)) := by
  obtain ⟨i, x, h1, h2⟩ := infer_again_cast (src' := src') h hc
  refine ⟨i, x, h1, ?_⟩
  rw [h2]
  unfold quotingError
  cases hq : quoteSub src' i.start i.stop with
  | ok q => exact .inl ⟨q, rfl, rfl⟩
  | err c => exact .inr (.inl ⟨c, rfl, rfl⟩)
  | crash => exact .inr (.inr ⟨rfl, rfl⟩)
  | oof => exact (quoteSub_ne_oof _ _ _ hq).elim

example : ∃ e', inferAndCheck {} (.table []) (.bin {} .and (.boolConst {} true) (.boolConst {} false)) = .ok e' ∧
    CastFree e' := ⟨_, rfl, trivial, trivial⟩

example : ∃ e', inferAndCheck {} (.table [(c!"k", ⟨1, c!"k", .exact 8⟩)])
    (.bin {} .eq (.key {} c!"k") (.intConst {} c!"1")) = .ok e' ∧ ¬ CastFree e' :=
  ⟨_, rfl, fun h => h.2⟩

/-! ### C17: the meaning of implicit conversions -/

/-- Evaluation of an accepted equality. -/
theorem eval_eq_checked {src : ConstraintSource} {sc : Scope} {ctx : EvalCtx} {i : Info} {l r l' r' e' : Expr}
    {t : Ty} {v w : Value} (h : inferAndCheck src sc (.bin i .eq l r) = .ok e')
    (hl : inferAndCheck src sc l = .ok l') (hr : inferAndCheck src sc r = .ok r')
    (ht : IsJoin l'.ty r'.ty t) (hn : NonNeg t) (hv : evalP ctx l' = .ok v) (hw : evalP ctx r' = .ok w) :
    evalP ctx e' = .ok (.bool (decide (convert l'.ty t v = convert r'.ty t w))) := by
  obtain ⟨l2, r2, hl2, hr2, ⟨hc, _⟩ | ⟨_, t', hj, _, rfl⟩⟩ := infer_bin.1 h
  · cases hc
  · rw [hl] at hl2; rw [hr] at hr2; cases hl2; cases hr2
    cases isJoin_unique ht hj
    have e1 := evalP_cast ht.1 hn hv
    have e2 := evalP_cast ht.2.1 hn hw
    have s1 := convert_shape ht.1 (evalP_shape hv)
    have s2 := convert_shape ht.2.1 (evalP_shape hw)
    obtain ⟨c, hc, he⟩ := (evalP_cmp (i := i.withTy .boolean) (op := .eq) (o := .eq) rfl rfl e1 e2 s1 s2
      (by intro h; cases h)).2 (by intro h; cases h)
    cases hc
    exact he

/-- C17 (1): comparing an integer with a `bit<W>` value compares modulo 2^W. -/
theorem C17_int_bit {src : ConstraintSource} {sc : Scope} {ctx : EvalCtx} {i : Info} {l r l' r' e' : Expr}
    {W : Nat} {a z : Int} (h : inferAndCheck src sc (.bin i .eq l r) = .ok e')
    (hl : inferAndCheck src sc l = .ok l') (hr : inferAndCheck src sc r = .ok r')
    (tl : l'.ty = .fixedUnsigned W) (tr : r'.ty = .arbitraryInt)
    (hv : eval ctx l' [] none = .ok (.int a, none)) (hw : eval ctx r' [] none = .ok (.int z, none)) :
    eval ctx e' [] none = .ok (.bool (decide (a = z % 2 ^ W)), none) := by
  rw [eval_none] at hv hw ⊢
  have hj : IsJoin l'.ty r'.ty (.fixedUnsigned W) := by
    rw [tl, tr]; exact lub_iff.1 (by simp [leastUpperBound, strictlyAbove])
  rw [eval_eq_checked h hl hr hj (Int.natCast_nonneg _) hv hw, tl, tr]
  simp [convert]

/-- -1 is the all-ones value. -/
theorem C17_minus_one (W : Nat) : (-1 : Int) % 2 ^ W = 2 ^ W - 1 := by
  have hp : (0 : Int) < 2 ^ W := pow_pos' W
  have h := Int.add_mul_emod_self_left (-1) (2 ^ W) 1
  rw [← h, Int.emod_eq_of_lt (by omega) (by omega)]
  omega

/-- The value of a key that is the exact match for `b`. -/
inductive MatchesExactly (W : Nat) (b : Int) : Ty → Value → Prop where
  | exact : MatchesExactly W b (.exact W) (.exact b)
  | ternary : MatchesExactly W b (.ternary W) (.ternary b (2 ^ W - 1))
  | optional : MatchesExactly W b (.optionalMatch W) (.ternary b (2 ^ W - 1))
  | lpm : MatchesExactly W b (.lpm W) (.lpm b W)
  | range : MatchesExactly W b (.range W) (.range b b)

theorem matchesExactly_iff {W : Nat} {b : Int} {t : Ty} {v : Value} (hm : CastStep (.fixedUnsigned W) t) :
    v = exactMatch t b ↔ MatchesExactly W b t v := by
  cases hm <;> constructor <;> intro h <;> first | (cases h; rfl) | (subst h; constructor)

/-- C17 (2): comparing a key with a `bit<W>` value holds exactly if the key is the exact match for the
value. -/
theorem C17_bit_key {src : ConstraintSource} {sc : Scope} {ctx : EvalCtx} {i : Info} {l r l' r' e' : Expr}
    {W : Nat} {t : Ty} {b : Int} {v : Value} (h : inferAndCheck src sc (.bin i .eq l r) = .ok e')
    (hl : inferAndCheck src sc l = .ok l') (hr : inferAndCheck src sc r = .ok r')
    (tl : l'.ty = t) (tr : r'.ty = .fixedUnsigned W) (hm : CastStep (.fixedUnsigned W) t)
    (hv : eval ctx l' [] none = .ok (v, none)) (hw : eval ctx r' [] none = .ok (.int b, none)) :
    ∃ c, eval ctx e' [] none = .ok (.bool c, none) ∧
      (c = true ↔ MatchesExactly W b t v) := by
  rw [eval_none] at hv hw
  have hj : IsJoin l'.ty r'.ty t := by
    rw [tl, tr]
    apply lub_iff.1
    cases hm <;> simp [leastUpperBound, strictlyAbove, typeBitwidth]
  have hn : NonNeg t := by
    cases hm <;> exact Int.natCast_nonneg _
  refine ⟨_, eval_none.2 (eval_eq_checked h hl hr hj hn hv hw), ?_⟩
  rw [tl, tr, convert_refl, decide_eq_true_iff, ← matchesExactly_iff hm]
  cases hm <;> simp [convert, exactMatch]

/-- C17 (3): comparing a key with an integer goes through `bit<W>`: the key must be the exact match for
the integer modulo 2^W. -/
theorem C17_int_key {src : ConstraintSource} {sc : Scope} {ctx : EvalCtx} {i : Info} {l r l' r' e' : Expr}
    {W : Nat} {t : Ty} {z : Int} {v : Value} (h : inferAndCheck src sc (.bin i .eq l r) = .ok e')
    (hl : inferAndCheck src sc l = .ok l') (hr : inferAndCheck src sc r = .ok r')
    (tl : l'.ty = t) (tr : r'.ty = .arbitraryInt) (hm : CastStep (.fixedUnsigned W) t)
    (hv : eval ctx l' [] none = .ok (v, none)) (hw : eval ctx r' [] none = .ok (.int z, none)) :
    ∃ c, eval ctx e' [] none = .ok (.bool c, none) ∧
      (c = true ↔ MatchesExactly W (z % 2 ^ W) t v) := by
  rw [eval_none] at hv hw
  have hj : IsJoin l'.ty r'.ty t := by
    rw [tl, tr]
    apply lub_iff.1
    cases hm <;> simp [leastUpperBound, strictlyAbove]
  have hn : NonNeg t := by
    cases hm <;> exact Int.natCast_nonneg _
  refine ⟨_, eval_none.2 (eval_eq_checked h hl hr hj hn hv hw), ?_⟩
  rw [tl, tr, convert_refl, decide_eq_true_iff, ← matchesExactly_iff hm]
  cases hm <;> simp [convert, exactMatch]

example : reasonEntryViolatesConstraint (Ex.entry 5) (Ex.ci c!"ex == 4294967301 && opt == -13" c!"true")
    = .ok [] := by decide +kernel

end P4C
