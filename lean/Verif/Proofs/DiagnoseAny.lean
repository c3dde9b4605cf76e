import Verif.Props.Diagnosis
import Verif.Proofs.QuoteAny
/-!
# Syntax errors of texts with any carriage returns
-/
namespace P4C
open Spec

/-- The message of a syntax error, for any text. -/
theorem diagnose_any {x : Texts} {sys : Sys} {k : ConstraintKind} {src : ConstraintSource} (hline : 0 ≤ src.loc.line)
    (hcol : 0 ≤ src.loc.col) {c : Code} {m : Str} (h : parseConstraintM x sys k src = .err c m) :
    (c = .invalidArgument ∧ ∃ before i s after, Literal (tokenize src) before i s after ∧
        AddressFault sys.inetPton6 i.text s.text m ∧ AddressesOk sys.inetPton6 (tokenize src) before.length) ∨
      ∃ before t after d, Culprit (tokenize src) before t after ∧ AddressesOk sys.inetPton6 (tokenize src) before.length ∧
        ReasonOk (kinds before) t.kind d ∧
        ((c = .invalidArgument ∧ ∃ q, Quotation src t.start t.stop q ∧ m = q ++ c!"Parse error: " ++ reasonText t d) ∨
          c = .internal ∧ (∀ q, ¬ Quotation src t.start t.stop q) ∧
            m = x.quoteFailure src t.start t.stop ++ reasonText t d) := by
  rcases diagnose_tokens x sys k src (tokenize_numTok src) (tokenize_last src) with ⟨e, h', _⟩ | h' | ⟨_, h', hlit⟩ |
    ⟨before, t, after, d, hcul, hok, hd, h'⟩
  · unfold parseConstraintM at h; rw [h'] at h; cases h
  · unfold parseConstraintM at h; rw [h'] at h; cases h
  · unfold parseConstraintM at h; rw [h'] at h; cases h; exact .inl ⟨rfl, hlit⟩
  · right
    unfold parseConstraintM at h
    rw [h'] at h
    unfold parseErrorM quotingErrorM at h
    have ht : t ∈ tokenize src := by rw [hcul.1]; simp
    obtain ⟨p1, p2, p3⟩ := lexed_flat (tokenize_lexed src) hcol t ht
    have p4 := lexed_lines (tokenize_lexed src) t ht
    have hiff : ∀ q, quoteSub src t.start t.stop = .ok q ↔ Quotation src t.start t.stop q :=
      fun q => quoteSub_iff p4 (by omega) p2 (by omega)
    refine ⟨before, t, after, d, hcul, hok, hd, ?_⟩
    cases hq : quoteSub src t.start t.stop with
    | ok q =>
      rw [hq] at h
      cases h
      exact .inl ⟨rfl, q, (hiff q).1 hq, rfl⟩
    | err =>
      rw [hq] at h
      cases h
      refine .inr ⟨rfl, fun q hq' => ?_, rfl⟩
      rw [(hiff q).2 hq'] at hq
      cases hq
    | crash => rw [hq] at h; cases h
    | oof => rw [hq] at h; cases h

/-- Parsing ends with a tree or an error. -/
theorem parseM_outcomes (x : Texts) {sys : Sys} {k : ConstraintKind} {src : ConstraintSource} (hcol : 0 ≤ src.loc.col) :
    (∃ e, parseConstraintM x sys k src = .ok e) ∨ ∃ c m, parseConstraintM x sys k src = .err c m := by
  have he := erase_parseConstraint x sys k src
  cases h : parseConstraintM x sys k src with
  | ok e => exact .inl ⟨e, rfl⟩
  | err c m => exact .inr ⟨c, m, rfl⟩
  | _ => rw [h] at he; rcases C43_no_crash (sys := sys) (k := k) hcol with ⟨o, h1⟩ | h1 | h1 <;> rw [h1] at he <;> cases he

theorem culprit_reported (x : Texts) {sys : Sys} {k : ConstraintKind} {src : ConstraintSource} (hline : 0 ≤ src.loc.line)
    (hcol : 0 ≤ src.loc.col) {before after : List Token} {t : Token} (hc : Culprit (tokenize src) before t after)
    (ha : AddressesOk sys.inetPton6 (tokenize src) before.length) :
    ∃ d, ReasonOk (kinds before) t.kind d ∧
      ((∃ q, Quotation src t.start t.stop q ∧
          parseConstraintM x sys k src = .err .invalidArgument (q ++ c!"Parse error: " ++ reasonText t d)) ∨
        (∀ q, ¬ Quotation src t.start t.stop q) ∧
          parseConstraintM x sys k src = .err .internal (x.quoteFailure src t.start t.stop ++ reasonText t d)) := by
  rcases parseM_outcomes x (sys := sys) (k := k) hcol with ⟨e, h⟩ | ⟨c, m, h⟩
  · have := erase_parseConstraint x sys k src
    rw [h] at this
    exact (culprit_rejected hc e this.symm).elim
  · rcases diagnose_any hline hcol h with ⟨_, b, i, s, a, hl, hf, hok⟩ | ⟨b, t', a, d, hc', hok, hd, hr⟩
    · exact ((C52_exclusive hl hok hf).1 hc ha).elim
    · obtain ⟨rfl, rfl, rfl⟩ := culprit_unique hc hc'
      refine ⟨d, hd, ?_⟩
      rcases hr with ⟨rfl, q, hq, rfl⟩ | ⟨rfl, hq, rfl⟩
      · exact .inl ⟨q, hq, h⟩
      · exact .inr ⟨hq, h⟩

/-- Where a token is. -/
theorem token_where {src : ConstraintSource} (hline : 0 ≤ src.loc.line) (hcol : 0 ≤ src.loc.col) {t : Token}
    (ht : t ∈ tokenize src) : t.start.src = src.loc.src ∧ t.stop.src = src.loc.src ∧ 0 ≤ t.start.line ∧ 0 ≤ t.start.col ∧
      0 ≤ t.stop.col ∧ LocLe t.start t.stop := by
  obtain ⟨p1, p2, p3⟩ := lexed_flat (tokenize_lexed src) hcol t ht
  have p4 := lexed_lines (tokenize_lexed src) t ht
  obtain ⟨p5, p6⟩ := lexed_src (tokenize_lexed src) t ht
  exact ⟨p5, p6, by omega, p2, by omega, .inr ⟨p1.symm, p3⟩⟩

/-- When a token cannot be quoted. -/
theorem token_unquoted {src : ConstraintSource} (hline : 0 ≤ src.loc.line) (hcol : 0 ≤ src.loc.col) {t : Token}
    (ht : t ∈ tokenize src) : (∀ q, ¬ Quotation src t.start t.stop q) ↔ Missing src t.start t.stop := by
  obtain ⟨h1, h2, h3, h4, h5, h6⟩ := token_where hline hcol ht
  have p1 := (lexed_flat (tokenize_lexed src) hcol t ht).1
  rcases quoteSub_outcomes h1 h2 h3 h4 h5 h6 with ⟨⟨q, _, hq⟩, hm, _⟩ | ⟨_, hm, hq⟩ | ⟨_, _, hu, _⟩
  · exact ⟨fun h => (h q hq).elim, fun h => (hm h).elim⟩
  · exact ⟨fun _ => hm, fun _ => hq⟩
  · exact (hu.1 p1.symm).elim

/-- The message of a syntax error, for any text. -/
theorem syntax_any {x : Texts} {sys : Sys} {k : ConstraintKind} {src : ConstraintSource} (hline : 0 ≤ src.loc.line)
    (hcol : 0 ≤ src.loc.col) {c : Code} {m : Str} (h : parseConstraintM x sys k src = .err c m) :
    (∃ before t after complaint, Culprit (tokenize src) before t after ∧
        AddressesOk sys.inetPton6 (tokenize src) before.length ∧ Complaint (before.map (·.kind)) t complaint ∧
        Shown .invalidArgument c!"Parse error: " x.quoteFailure src t.start t.stop complaint c m) ∨
      c = .invalidArgument ∧ ∃ before i s after, Literal (tokenize src) before i s after ∧
        AddressesOk sys.inetPton6 (tokenize src) before.length ∧ AddressFault sys.inetPton6 i.text s.text m := by
  rcases diagnose_any hline hcol h with ⟨hc, b, i, s, a, hl, hf, hok⟩ | ⟨b, t, a, d, hc, hok, hd, hr⟩
  · exact .inr ⟨hc, b, i, s, a, hl, hok, hf⟩
  · refine .inl ⟨b, t, a, _, hc, hok, reason_complaint hd, ?_⟩
    rcases hr with ⟨rfl, q, hq, rfl⟩ | ⟨rfl, hq, rfl⟩
    · exact .quoted hq
    · exact .missing ((token_unquoted hline hcol (by rw [hc.1]; simp)).1 hq)

/-- The message of a type error, for any text. -/
theorem type_any {x : Texts} {sys : Sys} {k : ConstraintKind} {src : ConstraintSource} {sc : Scope} {e : Expr}
    (hp : parseConstraint sys k src = .ok e) (hline : 0 ≤ src.loc.line) (hcol : 0 ≤ src.loc.col) :
    ((∃ e', inferAndCheckM x src sc e = .ok e') ∧ ∃ t, Typed (sigOf sc) e t) ∨
    ∃ y a b text, First (sigOf sc) e y ∧ Fault PrintedName sc.isAction (sigOf sc) y a b text ∧
      ((∃ c m, inferAndCheckM x src sc e = .err c m ∧
          ∀ c' m', Shown .invalidArgument c!"Type error: " x.quoteFailure src a b text c' m' ↔ c' = c ∧ m' = m) ∧
        ¬ (src.loc.src ≠ .notSet ∧ Unquotable src a b) ∨
       inferAndCheckM x src sc e = .crash ∧ src.loc.src ≠ .notSet ∧ Unquotable src a b ∧
        ∀ c m, ¬ Shown .invalidArgument c!"Type error: " x.quoteFailure src a b text c m) := by
  obtain ⟨s, hs⟩ := parsed_abs hp
  rcases blame (x := x) (src := src) (sc := sc) hs with ⟨e', h, ht, _⟩ | ⟨y, a, b, text, hf, h, hr⟩
  · exact .inl ⟨⟨e', h⟩, _, ht⟩
  · refine .inr ⟨y, a, b, text, hf, h, ?_⟩
    obtain ⟨h1, h2, h3, h4, h5, h6⟩ := fault_where hp hcol hf h
    have hiff : ∀ q, quoteSub src a b = .ok q ↔ Quotation src a b q := fun q => quoteSub_any_iff (by omega) h4 h5
    rw [hr, typeErrorM, quotingErrorM]
    rcases quoteSub_outcomes h1 h2 (by omega) h4 h5 h6 with ⟨⟨q, hq, hq'⟩, hm, hu⟩ | ⟨hq, hm, hno⟩ | ⟨hq, hset, hu, hm, hno⟩
    · rw [hq]
      refine .inl ⟨⟨_, _, rfl, fun c' m' => ⟨?_, ?_⟩⟩, fun h => hu h.2⟩
      · rintro (⟨hq2⟩ | ⟨hm2⟩)
        · rw [(hiff _).2 hq2] at hq
          cases hq
          exact ⟨rfl, rfl⟩
        · exact (hm hm2).elim
      · rintro ⟨rfl, rfl⟩
        exact .quoted hq'
    · rw [hq]
      refine .inl ⟨⟨_, _, rfl, fun c' m' => ⟨?_, ?_⟩⟩, fun h => ?_⟩
      · rintro (⟨hq2⟩ | ⟨hm2⟩)
        · exact (hno _ hq2).elim
        · exact ⟨rfl, rfl⟩
      · rintro ⟨rfl, rfl⟩
        exact .missing hm
      · rcases hm with hm | ⟨_, hm⟩
        · exact h.1 hm
        · obtain ⟨_, _, line, p, _, g2, g3, _⟩ := h.2
          have := hm _ _ g2
          omega
    · rw [hq]
      refine .inr ⟨rfl, hset, hu, ?_⟩
      rintro c m (⟨hq2⟩ | ⟨hm2⟩)
      · exact hno _ hq2
      · exact hm hm2

end P4C
