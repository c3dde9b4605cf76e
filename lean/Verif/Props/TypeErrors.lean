import Verif.Proofs.TypeFault
import Verif.Props.Diagnosis
import Verif.Props.Grammar

/-
Messages of type errors: property C54.
-/

namespace P4C

open Spec

/-! ### C54: type errors blame the first ill-typed part of a constraint and say what is wrong with it -/

/-- C54: the errors of the type checker on a parsed constraint: it fails if and only if there is a part without a type
whose own parts have types, and everything to the left of it has a type; then the message quotes the place of the
fault and describes it. Types are named as in `PrintedName`. Missing from the full statement: LPM types are given a wrong
name (`C54_fails_name`); faults that span lines may crash the process (`C48_fails`); texts with lone carriage
returns. -/
theorem C54_blames_partial {x : Texts} {sys : Sys} {k : ConstraintKind} {src : ConstraintSource} {sc : Scope} {e : Expr}
    (hp : parseConstraint sys k src = .ok e) (hcr : CrLf src.str) (hset : src.loc.src ≠ .notSet)
    (hline : 0 ≤ src.loc.line) (hcol : 0 ≤ src.loc.col) (c : Code) (m : Str) :
    inferAndCheckM x src sc e = .err c m ↔ c = .invalidArgument ∧
      ∃ y a b text quotation, First (sigOf sc) e y ∧ Fault PrintedName sc.isAction (sigOf sc) y a b text ∧
        Quotation src a b quotation ∧ m = quotation ++ c!"Type error: " ++ text := by
  obtain ⟨s, hs⟩ := parsed_abs hp
  constructor
  · intro he
    rcases blame (x := x) (src := src) (sc := sc) hs with ⟨e', h, _⟩ | ⟨y, a, b, text, hf, h, hr⟩
    · rw [h] at he; cases he
    · obtain ⟨hq, ⟨q, hok⟩ | ⟨hc, _⟩⟩ := fault_quoted hp hcr hset hline hcol hf h
      · rw [hr, typeErrorM, quotingErrorM, hok] at he
        cases he
        exact ⟨rfl, y, a, b, text, q, hf, h, (hq q).1 hok, rfl⟩
      · rw [hr, typeErrorM, quotingErrorM, hc] at he
        cases he
  · rintro ⟨rfl, y, a, b, text, q, hf, h, hquo, rfl⟩
    have hok := ((fault_quoted hp hcr hset hline hcol hf h).1 q).2 hquo
    rw [blame_fault hs hf h, typeErrorM, quotingErrorM, hok]

/-- C54: the remaining outcomes. The type checker succeeds if the constraint has a type; it crashes only if there is a
fault that spans lines. -/
theorem C54_otherwise {x : Texts} {sys : Sys} {k : ConstraintKind} {src : ConstraintSource} {sc : Scope} {e : Expr}
    (hp : parseConstraint sys k src = .ok e) (hcr : CrLf src.str) (hset : src.loc.src ≠ .notSet)
    (hline : 0 ≤ src.loc.line) (hcol : 0 ≤ src.loc.col) :
    (∃ e', inferAndCheckM x src sc e = .ok e' ∧ Typed (sigOf sc) e e'.ty) ∨
      (∃ m, inferAndCheckM x src sc e = .err .invalidArgument m) ∨
      (inferAndCheckM x src sc e = .crash ∧ ∃ y a b text, First (sigOf sc) e y ∧
        Fault PrintedName sc.isAction (sigOf sc) y a b text ∧ a.line ≠ b.line) := by
  obtain ⟨s, hs⟩ := parsed_abs hp
  rcases blame (x := x) (src := src) (sc := sc) hs with ⟨e', h, ht, _⟩ | ⟨y, a, b, text, hf, h, hr⟩
  · exact .inl ⟨e', h, ht⟩
  · obtain ⟨hq, ⟨q, hok⟩ | ⟨hc, hl⟩⟩ := fault_quoted hp hcr hset hline hcol hf h
    · rw [hr, typeErrorM, quotingErrorM, hok]
      exact .inr (.inl ⟨_, rfl⟩)
    · rw [hr, typeErrorM, quotingErrorM, hc]
      exact .inr (.inr ⟨rfl, y, a, b, text, hf, h, hl⟩)

/-- C54: there is at most one such fault, and at most one description of it; and there is none if the constraint has a
type. -/
theorem C54_unique {sc : Scope} {e y y' : Expr} {a b a' b' : Loc} {m m' : Str} (hf : First (sigOf sc) e y)
    (h : Fault PrintedName sc.isAction (sigOf sc) y a b m) :
    (First (sigOf sc) e y' → Fault PrintedName sc.isAction (sigOf sc) y' a' b' m' → y = y' ∧ a = a' ∧ b = b' ∧ m = m') ∧
      ∀ t, ¬ Typed (sigOf sc) e t := by
  refine ⟨fun hf' h' => ?_, fun t ht => ?_⟩
  · have := first_unique hf h hf' h'
    subst this
    exact ⟨rfl, fault_unique h h'⟩
  · obtain ⟨u, hu⟩ := typed_part hf ht
    exact fault_untyped h hu

/-- C54: the messages modelled here are those of the errors of the other properties. -/
theorem C54_same_errors (x : Texts) (src : ConstraintSource) (sc : Scope) (e : Expr) :
    (inferAndCheckM x src sc e).erase = inferAndCheck src sc e :=
  erase_inferAndCheck x src sc e

/-- C54: names of supported types other than LPM are right and tell the types apart. -/
theorem C54_names {t u : Ty} (ht : Supported t) (hu : Supported u) (hl : ∀ w, t ≠ .lpm w) (hl' : ∀ w, u ≠ .lpm w)
    {s : Str} (h : PrintedName t s) (h' : PrintedName u s) : TyName t s ∧ t = u := by
  have hi : ∀ {a b : Int}, intDec a = intDec b → a = b := intDec_inj
  refine ⟨?_, ?_⟩
  · cases h with
    | right h _ => exact h
    | lpm => exact absurd rfl (hl _)
  · have e := (reported_iff.1 h).symm.trans (reported_iff.1 h')
    cases t <;> cases u <;> simp [typeName] at e <;> first
      | rfl
      | (rw [hi e]; done)
      | exact absurd rfl (hl _)
      | exact absurd rfl (hl' _)
      | exact absurd rfl ht.1
      | exact absurd rfl hu.1
      | exact absurd rfl (ht.2 _)
      | exact absurd rfl (hu.2 _)

/-- The type error of a constraint of the example table, as text. -/
def Ex.typeError (tc : Str) : MRes Expr :=
  inferAndCheckM Ex.texts (Ex.src tc) (.table (Ex.ti c!"true").keysByName)
    (Ex.get (.notSet {}) (parseConstraint Ex.sys .table (Ex.src tc)))

/-- The hypotheses hold for `pre < 3`. -/
example : (∃ e, parseConstraint Ex.sys .table (Ex.src c!"pre < 3") = .ok e) ∧ CrLf (Ex.src c!"pre < 3").str ∧
    (Ex.src c!"pre < 3").loc.src ≠ .notSet ∧ 0 ≤ (Ex.src c!"pre < 3").loc.line ∧ 0 ≤ (Ex.src c!"pre < 3").loc.col :=
  ⟨⟨_, rfl⟩, Ex.crlf (by decide), by simp [Ex.src], by simp [Ex.src], by simp [Ex.src]⟩

/-- The first fault of `1 < 2 && ::prio == 3` is the attribute. -/
example (Γ : Sig) (i j k l m n o : Info) :
    First Γ (.bin i .and (.bin j .lt (.intConst k c!"1") (.intConst l c!"2")) (.bin m .eq (.attr n c!"prio") (.intConst o c!"3")))
      (.attr n c!"prio") ∧
    Fault PrintedName false Γ (.attr n c!"prio") n.start n.stop c!"unknown attribute 'prio'" := by
  refine ⟨.right (t := .boolean) ⟨.cmp .lt (.int 1) (.int 2), by rfl, ?_⟩ (.left (.self _)), .unknownAttr (by decide)⟩
  exact .cmp (.int 1) (.int 2) ⟨.refl _, .refl _, fun _ h _ => h⟩ (fun _ => .int)

/-- Some messages. -/
example :
    Ex.typeError c!"ex == 1 && opt == ran" = .err .invalidArgument
      (c!"In @entry_restriction of table 't'; at offset line 1, columns 12 to 21:\n1 | ex == 1 && opt == ran\n" ++
        c!"  |            ^^^^^^^^^^\nType error: cannot unify types optional<4> and range<8>") ∧
    Ex.typeError c!"true;\n!opt::value == 3" = .err .invalidArgument
      (c!"In @entry_restriction of table 't'; at offset line 2, columns 2 to 11:\n  | true;\n2 | !opt::value == 3\n" ++
        c!"  |  ^^^^^^^^^^\nType error: expected type bool, got bit<4>") ∧
    Ex.typeError c!"ex < 5 && tern < 3" = .err .invalidArgument
      (c!"In @entry_restriction of table 't'; at offset line 1, columns 11 to 18:\n1 | ex < 5 && tern < 3\n" ++
        c!"  |           ^^^^^^^^\nType error: operand type ternary<8> does not support ordered comparison") := by
  decide +kernel

/-- C54 fails: the message says that values of type `bit<16>` cannot be compared, which they can; the operand is of type
`lpm<16>`. -/
theorem C54_fails_name : Ex.typeError c!"pre < 3" = .err .invalidArgument
      (c!"In @entry_restriction of table 't'; at offset line 1, columns 1 to 7:\n1 | pre < 3\n" ++
        c!"  | ^^^^^^^\nType error: operand type bit<16> does not support ordered comparison") ∧
    Ordered (.fixedUnsigned 16) ∧ ¬ TyName (.lpm 16) c!"bit<16>" := by
  refine ⟨by decide +kernel, .bit 16, fun h => ?_⟩
  generalize he : c!"bit<16>" = s at h
  cases h with
  | lpm h => exact absurd (congrArg List.head? he) (by simp)

end P4C
