import Verif.Proofs.Utility
import Verif.Proofs.Explained
import Verif.Spec.Quote
import Verif.Props.Explain

/-
C109: the size of syntax trees. C110: equality of source locations, and widths of types.
-/

namespace P4C

open Spec

/-! ### C109 -/

/-- C109, the part that holds: without parameters of actions among the parts that count, `Size` returns the size as
documented. Missing: such parameters, see `C109_fails_param`. -/
theorem C109_size_partial (e : Expr) (hp : ∀ x q i m, CountedPart e [] x q → x ≠ .actionParam i m) (n : Nat) :
    size e = .ok n ↔ HasSize e n :=
  (size_sized e n).trans ⟨And.left, fun h => ⟨h, hp⟩⟩

/-- C109: in any case what it returns is the size as documented, and there is only one. -/
theorem C109_right {e : Expr} {n : Nat} (h : size e = .ok n) : HasSize e n ∧ ∀ m, HasSize e m → m = n := by
  obtain ⟨h1, h2⟩ := (size_sized e n).1 h
  refine ⟨h1, fun m hm => ?_⟩
  have := (size_sized e m).2 ⟨hm, h2⟩
  rw [h] at this
  exact (Res.ok.inj this).symm

/-- C109: exactly when there is an error, and which. -/
theorem C109_error (e : Expr) :
    ((∃ n, size e = .ok n) ∨ size e = .err .invalidArgument) ∧
    (size e = .err .invalidArgument ↔
      ∃ x q, CountedPart e [] x q ∧ ((∃ i, x = .notSet i) ∨ ∃ i m, x = .actionParam i m)) := by
  refine ⟨size_error e, ?_⟩
  have key : (∃ n, size e = .ok n) ↔ ∀ x q, CountedPart e [] x q → (∀ i, x ≠ .notSet i) ∧ ∀ i m, x ≠ .actionParam i m := by
    rw [← sizedNoParam_iff]
    exact exists_congr fun n => size_sized e n
  constructor
  · intro h
    refine Classical.byContradiction fun hn => ?_
    obtain ⟨n, hn⟩ := key.2 fun x q hx => ⟨fun i hi => hn ⟨x, q, hx, .inl ⟨i, hi⟩⟩, fun i m hi => hn ⟨x, q, hx, .inr ⟨i, m, hi⟩⟩⟩
    rw [hn] at h
    cases h
  · rintro ⟨x, q, hx, h⟩
    rcases size_error e with hs | hs
    · obtain ⟨g1, g2⟩ := key.1 hs x q hx
      rcases h with ⟨i, h⟩ | ⟨i, m, h⟩
      · exact absurd h (g1 i)
      · exact absurd h (g2 i m)
    · exact hs

/-- C109: constraints of tables have a size, before and after they are type checked. -/
theorem C109_table {src : ConstraintSource} {ks : List (Str × VarInfo)} {e c : Expr}
    (h : inferAndCheck src (.table ks) e = .ok c) : (∃ n, size e = .ok n) ∧ ∃ n, size c = .ok n := by
  exact ⟨⟨_, size_weight.2 ⟨rfl, infer_bare_table h⟩⟩, ⟨_, size_weight.2 ⟨rfl, infer_noBare h⟩⟩⟩

/-- C109: a cache with right sizes makes no difference. Afterwards it holds what it held, and otherwise only sizes of binary
expressions and boolean negations; among them that of the argument, and if it held no size of a part before, those of all. -/
theorem C109_cache {e : Expr} {p : Path} {c : SizeCache} (hr : RightSizes e p c) :
    (size e = .err .invalidArgument → sizeC e p c = .err .invalidArgument) ∧
    ∀ n, size e = .ok n → ∃ c', sizeC e p c = .ok (n, c') ∧ RightSizes e p c' ∧
      (∀ q m, lookup q c = some m → lookup q c' = some m) ∧
      (∀ q m, lookup q c' = some m → lookup q c = some m ∨ ∃ x, CountedPart e p x q ∧ Composite x ∧ HasSize x m) ∧
      (Composite e → lookup p c' = some n) ∧
      ((∀ x q, CountedPart e p x q → lookup q c = none) → ∀ x q, CountedPart e p x q → Composite x →
        ∃ m, HasSize x m ∧ lookup q c' = some m) := by
  obtain ⟨h1, h2⟩ := sizeC_filled e p c hr
  refine ⟨fun h => h2 ?_, fun n hn => ?_⟩
  · rintro ⟨n, hn⟩
    rw [(size_sized e n).2 hn] at h
    cases h
  · obtain ⟨c', e1, hf⟩ := h1 n ((size_sized e n).1 hn)
    have hr' : RightSizes e p c' := rightSizes_filled hr hf fun x q x' => counted_unique
    refine ⟨c', e1, hr', hf.kept, fun q m hl => ?_, hf.root, fun hn x q hx hc => ?_⟩
    · exact (hf.only q m hl).imp_right fun ⟨x, g1, g2, g3⟩ => ⟨x, g1, g2, g3.1⟩
    · obtain ⟨m, hm⟩ := hf.all hn x q hx hc
      exact ⟨m, (hr' x q m hx hm).1, hm⟩

/-- C109 is false: there is an error for parameters of actions, and so for syntax trees of constraints of actions that are
accepted. -/
theorem C109_fails_param : ∃ sys p ci a e n, p4ToConstraintInfo sys p = .ok ci ∧ a ∈ ci.actions.map Prod.snd ∧ a.constraint = some e ∧
    HasSize e n ∧ (∀ x, NodeOf x e → ∀ i, x ≠ .notSet i) ∧ size e = .err .invalidArgument := by
  refine ⟨Ex.sys, Ex.p4info c!"true" c!"p <= q", Ex.ci c!"true" c!"p <= q", Ex.ai c!"p <= q", .bin _ _ (.actionParam _ _) (.actionParam _ _), 3,
    Ex.get_of_isOk (by decide +kernel), by decide +kernel, rfl, ?_, ?_, rfl⟩
  · exact .bin _ _ (.other (fun h => by cases h) (fun i h => by cases h)) (.other (fun h => by cases h) (fun i h => by cases h))
  · intro x hx i
    cases hx with
    | self => intro h; cases h
    | left h | right h => cases h; intro h; cases h

/-- C109 is false: there is no error for some syntax trees that are not valid. -/
theorem C109_fails_valid : ∃ e x i, NodeOf x e ∧ x = .notSet i ∧ size e = .ok 1 :=
  ⟨.arithNeg {} (.notSet {}), .notSet {}, {}, .arithNeg (.self _), rfl, rfl⟩

/-- `!(ex == 2) && true`. -/
def Ex.sized : Expr := .bin {} .and (.boolNeg {} (.bin {} .eq (.key {} c!"ex") (.intConst {} c!"2"))) (.boolConst {} true)

/-- It has size 6, which is what is returned, and no part of it is a parameter. -/
example : HasSize Ex.sized 6 ∧ size Ex.sized = .ok 6 ∧ ∀ x q i m, CountedPart Ex.sized [] x q → x ≠ .actionParam i m := by
  have h : size Ex.sized = .ok 6 := rfl
  exact ⟨(C109_right h).1, h, ((size_sized _ _).1 h).2⟩

/-- A cache that holds the size of the negation, which is not asked for again, and one that holds nothing. -/
example : RightSizes Ex.sized [] [([0], 4)] ∧ (∀ q m, lookup q [([0], 4)] = some m → lookup q [([], 6), ([0], 4)] = some m) ∧
    sizeC Ex.sized [] [([0], 4)] = .ok (6, [([], 6), ([0], 4)]) ∧
    sizeC Ex.sized [] [] = .ok (6, [([], 6), ([0], 4), ([0, 0], 3)]) := by
  refine ⟨fun x q n hx hl => ?_, fun q m h => ?_, rfl, rfl⟩
  · rw [lookup_cons] at hl
    split at hl
    · rename_i hq
      subst hq
      cases hl
      cases counted_unique hx (.left .here)
      exact (size_sized _ _).1 rfl
    · cases hl
  · rw [lookup_cons] at h
    split at h
    · rename_i hq; subst hq; exact h
    · cases h

/-- A constraint of a table, as type checked. -/
example : ∃ c, inferAndCheck (Ex.ti c!"true").source (.table (Ex.ti c!"true").keysByName) Ex.sized = .ok c :=
  ⟨_, rfl⟩

/-- An error: one part of `p == <nothing>` is not set, the other a parameter. -/
example : size (.bin {} .eq (.actionParam {} c!"p") (.notSet {})) = .err .invalidArgument :=
  (C109_error _).2.2 ⟨_, _, .right .here, .inl ⟨_, rfl⟩⟩

/-! ### C110 -/

/-- C110, the part that holds: source locations that are not in actions are equal iff they are the same. Missing: those in
actions, see `C110_fails`. -/
theorem C110_locations_partial {a b : Loc} (ha : ∀ n, a.src ≠ .actionName n) : locEq a b = true ↔ a = b := by
  obtain ⟨l, c, s⟩ := a
  obtain ⟨l', c', s'⟩ := b
  cases s with
  | actionName n => exact absurd rfl (ha n)
  | _ => cases s' <;> simp [locEq, Loc.sourceCase, Loc.filePath, Loc.tableName, and_assoc] <;> intros <;> exact decide_eq_true_iff

/-- C110: exactly which source locations are equal. -/
theorem C110_exact (a b : Loc) : locEq a b = true ↔
    a = b ∨ ∃ n m, a.src = .actionName n ∧ b.src = .actionName m ∧ a.line = b.line ∧ a.col = b.col := by
  obtain ⟨l, c, s⟩ := a
  obtain ⟨l', c', s'⟩ := b
  cases s <;> cases s' <;> simp [locEq, Loc.sourceCase, Loc.filePath, Loc.tableName, and_assoc] <;>
    intros <;> first | exact decide_eq_true_iff | exact ⟨‹_›, ‹_›⟩

/-- C110: this is an equivalence relation, and never holds for locations on different lines, in different columns, or in
sources of different kinds. -/
theorem C110_equivalence : (∀ a, locEq a a = true) ∧ (∀ a b, locEq a b = true → locEq b a = true) ∧
    (∀ a b c, locEq a b = true → locEq b c = true → locEq a c = true) ∧
    ∀ a b, locEq a b = true → a.line = b.line ∧ a.col = b.col ∧ a.sourceCase = b.sourceCase := by
  simp only [locEq, Bool.and_eq_true, decide_eq_true_eq]
  exact ⟨fun _ => by simp, fun _ _ h => by simp [h], fun _ _ _ h h' => by simp [h, h'], fun _ _ h => ⟨h.1.1.1.1, h.1.1.1.2, h.1.1.2⟩⟩

/-- C110 is false: all locations in actions with the same line and column are equal, even those in different actions, which
have different sources according to `HaveSameSource`, and so can not be quoted together. -/
theorem C110_fails : ∃ a b, locEq a b = true ∧ a ≠ b ∧ haveSameSource a b = false ∧
    ∀ src, quoteSub src a b = .err .invalidArgument := by
  refine ⟨{ src := .actionName c!"a" }, { src := .actionName c!"b" }, rfl, by simp, rfl, fun src => ?_⟩
  simp [quoteSub, haveSameSource]

/-- C110: the width of a type is that of types of a fixed size; other types have none, and asking for it with a status is an
InvalidArgument error. -/
theorem C110_width (t : Ty) : (∀ w, typeBitwidth t = some w ↔ FixedSize t w) ∧ (∀ w, typeBitwidthOrStatus t = .ok w ↔ FixedSize t w) ∧
    ((¬ ∃ w, FixedSize t w) → typeBitwidth t = none ∧ typeBitwidthOrStatus t = .err .invalidArgument) := by
  have h : ∀ w, typeBitwidth t = some w ↔ FixedSize t w := fun w => by
    constructor
    · intro h
      cases t <;> simp only [typeBitwidth, Option.some.injEq, reduceCtorEq] at h <;> subst h <;> constructor
    · intro h
      cases h <;> rfl
  refine ⟨h, fun w => ?_, fun hn => ?_⟩
  · rw [← h]
    unfold typeBitwidthOrStatus
    cases typeBitwidth t <;> simp
  · have : typeBitwidth t = none := by
      cases ht : typeBitwidth t with
      | none => rfl
      | some w => exact absurd ⟨w, (h w).1 ht⟩ hn
    exact ⟨this, by unfold typeBitwidthOrStatus; rw [this]⟩

/-- C110: `SetTypeBitwidth` returns whether the type is one of a fixed size. If so it changes the width only, otherwise
nothing. -/
theorem C110_set (t : Ty) (w : Int) :
    ((setTypeBitwidthB t w).2 = true ↔ ∃ v, FixedSize t v) ∧ (setTypeBitwidthB t w).1.case = t.case ∧
    ((setTypeBitwidthB t w).2 = true → FixedSize (setTypeBitwidthB t w).1 w) ∧
    ((setTypeBitwidthB t w).2 = false → (setTypeBitwidthB t w).1 = t) ∧ (setTypeBitwidthB t w).1 = setTypeBitwidth t w := by
  cases t <;>
    refine ⟨⟨fun h => ?_, fun h => ?_⟩, rfl, fun h => ?_, fun h => ?_, rfl⟩ <;>
    first
      | cases h; done
      | exact ⟨_, by constructor⟩
      | constructor
      | rfl
      | (obtain ⟨v, h⟩ := h; cases h)

/-- C110: `TypeCaseToType` returns a type of the given case, the width or name of which is not set; and a type is determined by
its case, its width, and its name if it is not supported. -/
theorem C110_case : (∀ c, (typeCaseToType c).case = c) ∧ (∀ c w, FixedSize (typeCaseToType c) w → w = 0) ∧
    (∀ c n, typeCaseToType c = .unsupported n → n = []) ∧ (∀ t w, FixedSize t w → setTypeBitwidth (typeCaseToType t.case) w = t) ∧
    ∀ t, (¬ ∃ w, FixedSize t w) → (∀ n, t ≠ .unsupported n) → typeCaseToType t.case = t := by
  refine ⟨fun c => by cases c <;> rfl, fun c w h => by cases c <;> cases h <;> rfl, fun c n h => by cases c <;> cases h <;> rfl,
    fun t w h => by cases h <;> rfl, fun t h hn => ?_⟩
  cases t with
  | fixedUnsigned | exact | ternary | lpm | range | optionalMatch => exact absurd ⟨_, by constructor⟩ h
  | unsupported n => exact absurd rfl (hn n)
  | _ => rfl

/-- Locations in tables. -/
example : locEq { line := 1, src := .tableName c!"t" } { line := 1, src := .tableName c!"u" } = false ∧
    locEq { line := 1, src := .tableName c!"t" } { line := 1, src := .filePath c!"t" } = false ∧
    locEq { line := 1, col := 2, src := .tableName c!"t" } { line := 1, col := 2, src := .tableName c!"t" } = true := by
  decide

example : FixedSize (.lpm 5) 5 ∧ (¬ ∃ w, FixedSize .boolean w) ∧ setTypeBitwidthB (.lpm 5) 7 = (.lpm 7, true) ∧
    setTypeBitwidthB .boolean 7 = (.boolean, false) := ⟨.lpm 5, nofun, rfl, rfl⟩

end P4C
