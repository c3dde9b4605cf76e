import Verif.Proofs.DiagnoseAny
import Verif.Props.SymFault
import Verif.Props.TypeErrors

/-
C43, C52, C53 and C54 for texts with any carriage returns.
-/

namespace P4C

open Spec

/-- C43, exactly: the error is Internal if and only if the first token that cannot continue the constraint is preceded by
correct address literals only, and either the source has no name or this token is on a line that the source does not have.
(Otherwise, by `C43_no_crash`, there is a tree or InvalidArgument.) -/
theorem C43_internal {sys : Sys} {k : ConstraintKind} {src : ConstraintSource} (hline : 0 ≤ src.loc.line)
    (hcol : 0 ≤ src.loc.col) : parseConstraint sys k src = .err .internal ↔
      ∃ before t after, Culprit (tokenize src) before t after ∧
        AddressesOk sys.inetPton6 (tokenize src) before.length ∧
        Missing src t.start t.stop := by
  constructor
  · intro h
    have he := erase_parseConstraint Ex.texts sys k src
    rw [h] at he
    cases hm : parseConstraintM Ex.texts sys k src with
    | err c m =>
      rw [hm] at he
      cases he
      rcases diagnose_any hline hcol hm with ⟨hc, _⟩ | ⟨b, t, a, d, hc, hok, _, ⟨hi, _⟩ | ⟨_, hq, _⟩⟩
      · cases hc
      · cases hi
      · exact ⟨b, t, a, hc, hok, (token_unquoted hline hcol (by rw [hc.1]; simp)).1 hq⟩
    | _ => rw [hm] at he; cases he
  · rintro ⟨b, t, a, hc, hok, hn⟩
    have hn := (token_unquoted hline hcol (t := t) (by rw [hc.1]; simp)).2 hn
    obtain ⟨d, _, ⟨q, hq, _⟩ | ⟨_, h⟩⟩ := culprit_reported Ex.texts (k := k) hline hcol hc hok
    · exact (hn q hq).elim
    · rw [← erase_parseConstraint Ex.texts, h]
      rfl

/-- C52 for any text: what is reported if the token cannot be quoted. -/
theorem C52_any {x : Texts} {sys : Sys} {k : ConstraintKind} {src : ConstraintSource} (hline : 0 ≤ src.loc.line)
    (hcol : 0 ≤ src.loc.col) {c : Code} {m : Str} (h : parseConstraintM x sys k src = .err c m) :
    (∃ before t after complaint, Culprit (tokenize src) before t after ∧
        AddressesOk sys.inetPton6 (tokenize src) before.length ∧ Complaint (before.map (·.kind)) t complaint ∧
        Shown .invalidArgument c!"Parse error: " x.quoteFailure src t.start t.stop complaint c m) ∨
      c = .invalidArgument ∧ ∃ before i s after, Literal (tokenize src) before i s after ∧
        AddressesOk sys.inetPton6 (tokenize src) before.length ∧ AddressFault sys.inetPton6 i.text s.text m :=
  syntax_any hline hcol h

/-- C53 for any text: the listed tokens if the token cannot be quoted, and if the text before has errors in addresses. -/
theorem C53_any {x : Texts} {sys : Sys} {k : ConstraintKind} {src : ConstraintSource} (hline : 0 ≤ src.loc.line)
    (hcol : 0 ≤ src.loc.col) {before after : List Token} {t : Token} (ht : Culprit (tokenize src) before t after)
    (hk : t.kind ≠ .unexpectedChar)
    (hi : ∀ op n u o, Infix t.kind op n (n + 1) (n + 1) → before.map (·.kind) = u ++ [o] → o ∉ operandEnds)
    (ha : AddressesOk sys.inetPton6 (tokenize src) before.length) :
    ∃ list ks c m, Listing ks list ∧ Possible (before.map (·.kind)) ks ∧ Enumerated (before.map (·.kind)) t.kind ks ∧
      Shown .invalidArgument c!"Parse error: " x.quoteFailure src t.start t.stop
        (c!"unexpected token: " ++ nameOf t.kind ++ c!". Expected " ++ list ++ c!".") c m ∧
      parseConstraintM x sys k src = .err c m := by
  have hr := culprit_rejected (sys := sys) (k := k) ht
  rcases parseM_outcomes x (sys := sys) (k := k) hcol with ⟨e, h⟩ | ⟨c, m, h⟩
  · have := erase_parseConstraint x sys k src
    rw [h] at this
    exact (hr e this.symm).elim
  · rcases C52_any hline hcol h with ⟨b, t', a, text, hc, _, hx, hm⟩ | ⟨_, b, i, s, a, hl, hok, hf⟩
    · obtain ⟨rfl, rfl, rfl⟩ := culprit_unique ht hc
      cases hx with
      | character h => exact absurd h hk
      | token _ hl hp he => exact ⟨_, _, c, m, hl, hp, he, by simpa using hm, h⟩
      | association h1 h2 h3 => exact absurd h2 (hi _ _ _ _ h3 h1)
    · exact ((C52_exclusive hl hok hf).1 ht ha).elim

/-- C54 for any text: what is reported if the fault cannot be quoted. -/
theorem C54_any {x : Texts} {sys : Sys} {k : ConstraintKind} {src : ConstraintSource} {sc : Scope} {e : Expr}
    (hp : parseConstraint sys k src = .ok e) (hline : 0 ≤ src.loc.line) (hcol : 0 ≤ src.loc.col) (c : Code) (m : Str) :
    inferAndCheckM x src sc e = .err c m ↔
      ∃ y a b text, First (sigOf sc) e y ∧ Fault PrintedName sc.isAction (sigOf sc) y a b text ∧
        Shown .invalidArgument c!"Type error: " x.quoteFailure src a b text c m := by
  rcases type_any (x := x) (sc := sc) hp hline hcol with ⟨⟨e', h⟩, t, ht⟩ | ⟨y, a, b, text, hf, hy, hr⟩
  · rw [h]
    refine ⟨nofun, ?_⟩
    rintro ⟨y, a, b, text, hf, hy, _⟩
    exact ((C54_unique (y' := y) (a' := a) (b' := b) (m' := text) hf hy).2 t ht).elim
  · have huniq : (∃ y a b text, First (sigOf sc) e y ∧ Fault PrintedName sc.isAction (sigOf sc) y a b text ∧
        Shown .invalidArgument c!"Type error: " x.quoteFailure src a b text c m) ↔
        Shown .invalidArgument c!"Type error: " x.quoteFailure src a b text c m := by
      constructor
      · rintro ⟨y', a', b', text', hf', hy', hs⟩
        obtain ⟨rfl, rfl, rfl, rfl⟩ := (C54_unique hf hy).1 hf' hy'
        exact hs
      · exact fun hs => ⟨y, a, b, text, hf, hy, hs⟩
    rw [huniq]
    rcases hr with ⟨⟨c', m', h, hs⟩, _⟩ | ⟨h, _, _, hs⟩
    · rw [h, hs]
      constructor
      · rintro ⟨⟩
        exact ⟨rfl, rfl⟩
      · rintro ⟨rfl, rfl⟩
        rfl
    · rw [h]
      exact ⟨nofun, fun h' => (hs _ _ h').elim⟩

/-- C54 for any text: the remaining outcomes. -/
theorem C54_crash {x : Texts} {sys : Sys} {k : ConstraintKind} {src : ConstraintSource} {sc : Scope} {e : Expr}
    (hp : parseConstraint sys k src = .ok e) (hline : 0 ≤ src.loc.line) (hcol : 0 ≤ src.loc.col) :
    ((∃ e', inferAndCheckM x src sc e = .ok e') ↔ ∃ t, Typed (sigOf sc) e t) ∧
    (inferAndCheckM x src sc e = .crash ↔ src.loc.src ≠ .notSet ∧
      ∃ y a b text, First (sigOf sc) e y ∧ Fault PrintedName sc.isAction (sigOf sc) y a b text ∧ Unquotable src a b) ∧
    inferAndCheckM x src sc e ≠ .oof := by
  rcases type_any (x := x) (sc := sc) hp hline hcol with ⟨⟨e', h⟩, t, ht⟩ | ⟨y, a, b, text, hf, hy, hr⟩
  · rw [h]
    refine ⟨⟨fun _ => ⟨t, ht⟩, fun _ => ⟨_, rfl⟩⟩, ⟨nofun, ?_⟩, nofun⟩
    rintro ⟨_, y, a, b, text, hf, hy, _⟩
    exact ((C54_unique (y' := y) (a' := a) (b' := b) (m' := text) hf hy).2 t ht).elim
  · have hno : ¬ ∃ t, Typed (sigOf sc) e t :=
      fun ⟨t, ht⟩ => (C54_unique (y' := y) (a' := a) (b' := b) (m' := text) hf hy).2 t ht
    rcases hr with ⟨⟨c', m', h, hs⟩, hu⟩ | ⟨h, hset, hu, _⟩
    · rw [h]
      refine ⟨⟨nofun, fun h => (hno h).elim⟩, ⟨nofun, ?_⟩, nofun⟩
      rintro ⟨hset, y', a', b', text', hf', hy', hu'⟩
      obtain ⟨rfl, rfl, rfl, rfl⟩ := (C54_unique hf hy).1 hf' hy'
      exact (hu ⟨hset, hu'⟩).elim
    · rw [h]
      exact ⟨⟨nofun, fun h => (hno h).elim⟩, ⟨fun _ => ⟨hset, y, a, b, text, hf, hy, hu⟩, fun _ => rfl⟩, nofun⟩

/-- Texts with a lone carriage return: the token `)` is on the second line, which does not exist; but it does here. -/
example : parseConstraint Ex.sys .table (Ex.src c!"\r)") = .err .internal ∧
    parseConstraint Ex.sys .table (Ex.src c!"\r)\n") = .err .internal ∧
    parseConstraint Ex.sys .table (Ex.src c!"\r)\n ") = .err .invalidArgument ∧
    Ex.fault (parseConstraintM Ex.texts Ex.sys .table (Ex.src c!"\r)\n ")) = some (.invalidArgument,
      c!"In @entry_restriction of table 't'; at offset line 2, column 1:\n  | \r)\n2 |  \n  | ^\nParse error: unexpected token: ). Expected true, false, <BINARY>, <OCTARY>, <DECIMAL>, <HEXADEC>, <ID>, ::, !, -, or (.") := by
  decide +kernel

/-- The hypotheses of `C53_any` for the first of these texts. -/
example : ∃ list ks c m, Listing ks list ∧ Possible [] ks ∧ Enumerated [] .rpar ks ∧
    Shown .invalidArgument c!"Parse error: " Ex.texts.quoteFailure (Ex.src c!"\r)")
      { src := .tableName c!"t", line := 1, col := 0 } { src := .tableName c!"t", line := 1, col := 1 }
      (c!"unexpected token: )" ++ c!". Expected " ++ list ++ c!".") c m ∧
    parseConstraintM Ex.texts Ex.sys .table (Ex.src c!"\r)") = .err c m := by
  refine C53_any (src := Ex.src c!"\r)") (before := []) (after := (tokenize (Ex.src c!"\r)")).drop 1)
    (t := ⟨.rpar, c!")", { src := .tableName c!"t", line := 1, col := 0 }, { src := .tableName c!"t", line := 1, col := 1 }⟩)
    (by decide) (by decide) ⟨by decide +kernel, ⟨[.id, .endOfInput], _, (Shape.name .one).down (by decide), rfl⟩, ?_⟩
    nofun ?_ ?_
  · exact fail_not_viable (bad := fun _ => False) (f := 5) (a := []) (r := []) (d := .expected operandStarts) rfl
  · intro op n u o _ h
    simp at h
  · intro b i s a _ h
    simp at h

end P4C
