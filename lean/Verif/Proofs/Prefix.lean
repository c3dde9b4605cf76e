import Verif.Proofs.Diagnose
import Verif.Proofs.Follow
import Verif.Proofs.Layout
import Verif.Proofs.Compose
import Verif.Props.Diagnosis
import Verif.Proofs.DiagnoseAny

/-!
# Syntax errors and the text after them
-/

namespace P4C

open Spec

/-- The text is empty or ends with a line break. -/
def EndsLine (s : Str) : Prop := s = [] ∨ ∃ w, s = w ++ c!"\n"

theorem EndsLine.rest {a s : Str} (h : EndsLine (a ++ s)) : EndsLine s := by
  rcases h with e | ⟨w, e⟩
  · exact .inl (List.append_eq_nil_iff.1 e).2
  rcases List.eq_nil_or_concat s with rfl | ⟨s', c, rfl⟩
  · exact .inl rfl
  · rw [List.concat_eq_append, ← List.append_assoc] at e
    have := List.append_inj_right' e rfl
    exact .inr ⟨s', by rw [List.concat_eq_append, this]⟩

theorem noRune_append {s v : Str} (h : NoRune s) (hs : s ≠ []) (he : EndsLine s) : NoRune (s ++ v) := by
  rcases he with he | ⟨w, rfl⟩
  · exact absurd he hs
  intro r t hr e
  have hc : ¬ Cont '\n' := fun hd => absurd hd.1 (by decide)
  match w, h, e with
  | [], h, e => exact h ['\n'] [] (.ascii (by decide)) rfl
  | [a], h, e =>
    cases hr with
    | ascii hlt =>
      simp only [List.cons_append, List.cons.injEq] at e
      exact h [a] c!"\n" (.ascii (e.1 ▸ hlt)) rfl
    | two h1 h2 hd | three h1 h2 hd _ | four h1 h2 hd _ _ =>
      simp only [List.cons_append, List.nil_append, List.cons.injEq] at e
      exact hc (e.2.1 ▸ hd)
  | [a, b], h, e =>
    cases hr with
    | ascii hlt =>
      simp only [List.cons_append, List.cons.injEq] at e
      exact h [a] _ (.ascii (e.1 ▸ hlt)) rfl
    | two h1 h2 hd =>
      simp only [List.cons_append, List.nil_append, List.cons.injEq] at e
      obtain ⟨rfl, rfl, e⟩ := e
      exact h [a, b] _ (.two h1 h2 hd) rfl
    | three h1 h2 _ hd | four h1 h2 _ hd _ =>
      simp only [List.cons_append, List.nil_append, List.cons.injEq] at e
      exact hc (e.2.2.1 ▸ hd)
  | [a, b, c], h, e =>
    cases hr with
    | ascii hlt =>
      simp only [List.cons_append, List.cons.injEq] at e
      exact h [a] _ (.ascii (e.1 ▸ hlt)) rfl
    | two h1 h2 hd =>
      simp only [List.cons_append, List.nil_append, List.cons.injEq] at e
      obtain ⟨rfl, rfl, e⟩ := e
      exact h [a, b] _ (.two h1 h2 hd) rfl
    | three h1 h2 hd hd' =>
      simp only [List.cons_append, List.nil_append, List.cons.injEq] at e
      obtain ⟨rfl, rfl, rfl, e⟩ := e
      exact h [a, b, c] _ (.three h1 h2 hd hd') rfl
    | four h1 h2 _ _ hd =>
      simp only [List.cons_append, List.nil_append, List.cons.injEq] at e
      exact hc (e.2.2.2.1 ▸ hd)
  | a :: b :: c :: d :: w, h, e =>
    have : ∃ t', a :: b :: c :: d :: w = r ++ t' := by
      cases hr <;> simp only [List.cons_append, List.nil_append, List.cons.injEq] at e
      · obtain ⟨rfl, _⟩ := e; exact ⟨_, rfl⟩
      · obtain ⟨rfl, rfl, _⟩ := e; exact ⟨_, rfl⟩
      · obtain ⟨rfl, rfl, rfl, _⟩ := e; exact ⟨_, rfl⟩
      · obtain ⟨rfl, rfl, rfl, rfl, _⟩ := e; exact ⟨_, rfl⟩
    obtain ⟨t', ht⟩ := this
    exact h r (t' ++ c!"\n") hr (by rw [ht, List.append_assoc])

theorem endsLine_ne {c : Char} {s : Str} (h : EndsLine (c :: s)) (hc : c ≠ '\n') : s ≠ [] := by
  rintro rfl
  rcases h with h | ⟨w, e⟩
  · cases h
  · cases w with
    | nil => exact hc (by simpa using e)
    | cons _ w => simp at e

/-- The token does not change if more text follows: it is neither the end of the text nor an opening quotation mark. -/
def Settled (t : Token) : Prop := t.kind ≠ .endOfInput ∧ (t.kind = .unexpectedChar → t.text ≠ c!"'")

theorem unlexable_append {c : Char} {s v : Str} (h : Unlexable (c :: s)) (hs : EndsLine (c :: s)) (hc : c ≠ '\'') :
    Unlexable (c :: s ++ v) := by
  have hn : c ≠ '\n' := fun e => h.space '\n' (by decide) (by rw [e]; exact ⟨s, rfl⟩)
  have hne := endsLine_ne hs hn
  obtain ⟨d, s, rfl⟩ := List.exists_cons_of_ne_nil hne
  have two : ∀ {x y : Char}, [x, y] <+: c :: d :: s ++ v → [x, y] <+: c :: d :: s := by
    rintro x y ⟨r, e⟩
    simp only [List.cons_append, List.nil_append, List.cons.injEq] at e
    exact ⟨s, by rw [e.1, e.2.1]; rfl⟩
  refine ⟨fun k t l hk hp => ?_, fun x hx hp => h.space x hx ?_, fun hp => h.comment.1 (two hp), fun hp => h.comment.2 (two hp)⟩
  · by_cases hq : k = .string
    · subst hq
      cases hk with
      | keyword h => simp [keywords] at h
      | string =>
        obtain ⟨r, e⟩ := hp
        simp only [List.cons_append, List.cons.injEq] at e
        exact hc e.1.symm
    · rcases prefix_append_cases hp with hp | ⟨e, _, rfl, _⟩
      · exact h.token k t l hk hp
      · rcases hs with hs | ⟨w, hs⟩
        · cases hs
        · exact spells_no_sep hk hq '\n' (by rw [hs]; simp) (by decide)
  · obtain ⟨r, e⟩ := hp
    simp only [List.cons_append, List.nil_append, List.cons.injEq] at e
    exact ⟨d :: s, by rw [e.1]; rfl⟩

/-- If a text ends with a line break, its tokens do not depend on what follows, unless they are not settled. -/
theorem lexed_prefix {l : Loc} {s : Str} {ts : List Token} (h : Lexed l s ts) (hs : EndsLine s) (v : Str) :
    ∃ us, Lexed l (s ++ v) us ∧ ∀ p t q, ts = p ++ t :: q → Settled t → p ++ [t] <+: us := by
  induction h with
  | eof =>
    obtain ⟨us, hu⟩ := lexed_exists _ v
    refine ⟨us, hu, fun p t q e ht => ?_⟩
    cases p with
    | nil => cases e; exact absurd rfl ht.1
    | cons _ p => simp at e
  | @bad l c s hb =>
    by_cases hc : c = '\''
    · obtain ⟨us, hu⟩ := lexed_exists _ _
      refine ⟨us, hu, fun p t q e ht => ?_⟩
      cases p with
      | nil => cases e; exact absurd (by rw [hc]) (ht.2 rfl)
      | cons _ p => simp at e
    · refine ⟨_, .bad (unlexable_append hb hs hc), fun p t q e _ => ?_⟩
      cases p with
      | nil => cases e; exact List.prefix_refl _
      | cons _ p => simp at e
  | @blank l c s ts hb _ ih =>
    obtain ⟨us, hu, hp⟩ := ih (EndsLine.rest (a := [c]) hs)
    exact ⟨us, .blank hb hu, hp⟩
  | @crlf l s ts _ ih =>
    obtain ⟨us, hu, hp⟩ := ih (EndsLine.rest (a := c!"\r\n") hs)
    exact ⟨us, .crlf hu, hp⟩
  | @cr l s ts hn _ ih =>
    obtain ⟨us, hu, hp⟩ := ih (EndsLine.rest (a := c!"\r") hs)
    refine ⟨us, .cr ?_ hu, hp⟩
    intro t e
    have hne := endsLine_ne hs (by decide)
    cases s with
    | nil => exact hne rfl
    | cons c s =>
      have e' : c :: (s ++ v) = '\n' :: t := e
      rw [List.cons.injEq] at e'
      exact hn s (by rw [e'.1])
  | @lf l s ts _ ih =>
    obtain ⟨us, hu, hp⟩ := ih (EndsLine.rest (a := c!"\n") hs)
    exact ⟨us, .lf hu, hp⟩
  | @line l a s ts ha hl hn _ ih =>
    have hs' := EndsLine.rest (a := '/' :: '/' :: a) hs
    obtain ⟨us, hu, hp⟩ := ih hs'
    have hne : s ≠ [] := by
      rintro rfl
      rcases hs with h | ⟨w, e⟩
      · cases h
      · rw [List.append_nil] at e
        have hm : '\n' ∈ '/' :: '/' :: a := by rw [e]; simp
        simp at hm
        exact (hl _ hm).2 rfl
    refine ⟨us, ?_, hp⟩
    have := Lexed.line (l := l) (s := s ++ v) ha hl ?_ hu
    · simpa using this
    · rcases hn with hn | ⟨t, rfl | rfl⟩
      · exact .inl (noRune_append hn hne hs')
      · exact .inr ⟨t ++ v, .inl rfl⟩
      · exact .inr ⟨t ++ v, .inr rfl⟩
  | @block l a s ts ha hn _ ih =>
    obtain ⟨us, hu, hp⟩ := ih (EndsLine.rest hs)
    refine ⟨us, ?_, hp⟩
    rw [List.append_assoc]
    exact .block ha hn hu
  | @openBlock l a s ts ha hi hn hl ih =>
    by_cases hne : s = []
    · subst hne
      obtain ⟨us, hu⟩ := lexed_exists _ _
      refine ⟨us, hu, fun p t q e ht => ?_⟩
      have e' : tokenizeF 1 [] (advance l (c!"/*" ++ a)) = [⟨.endOfInput, [], advance l (c!"/*" ++ a), advance l (c!"/*" ++ a)⟩] := rfl
      rw [← lexed_tokenizeF hl 1 (by simp), e'] at e
      cases p with
      | nil => cases e; exact absurd rfl ht.1
      | cons _ p => simp at e
    · obtain ⟨us, hu, hp⟩ := ih (EndsLine.rest hs)
      refine ⟨us, ?_, hp⟩
      rw [List.append_assoc]
      exact .openBlock ha hi (noRune_append hn hne (EndsLine.rest hs)) hu
  | @tok l k text lexeme s ts hk hc hl ih =>
    have hs' := EndsLine.rest hs
    obtain ⟨us, hu, hp⟩ := ih hs'
    have hend : ∃ w, s = w ++ c!"\n" := by
      rcases hs' with rfl | hw
      · exfalso
        rw [List.append_nil] at hs
        rcases hs with h | ⟨w, e⟩
        · exact spells_ne_nil hk h
        · exact spells_last hk w e
      · exact hw
    obtain ⟨w, rfl⟩ := hend
    refine ⟨⟨k, text, l, shift l lexeme.length⟩ :: us, ?_, fun p t q e ht => ?_⟩
    · rw [List.append_assoc]
      exact .tok (s := w ++ c!"\n" ++ v) hk
        (by rw [List.append_assoc]; exact chosen_after hk (chosen_shorten hc) (.cons (b := []) .lf .nil) (by simp)) hu
    · cases p with
      | nil =>
        cases e
        exact ⟨us, rfl⟩
      | cons _ p =>
        simp only [List.cons_append, List.cons.injEq] at e
        rw [← e.1]
        exact (List.prefix_cons_inj _).2 (hp p t q e.2 ht)

theorem lexed_tokenize (src : ConstraintSource) : Lexed src.loc src.str (tokenize src) := by
  obtain ⟨ts, h⟩ := lexed_exists src.loc src.str
  rw [tokenize, lexed_tokenizeF h _ (Nat.lt_succ_self _)]
  exact h

theorem tokenize_prefix {u v : Str} {loc : Loc} (hu : EndsLine u) {p q : List Token} {t : Token}
    (h : tokenize ⟨u, loc⟩ = p ++ t :: q) (ht : Settled t) : ∃ r, tokenize ⟨u ++ v, loc⟩ = p ++ t :: r := by
  obtain ⟨us, hl, hp⟩ := lexed_prefix (lexed_tokenize ⟨u, loc⟩) hu v
  have : tokenize ⟨u ++ v, loc⟩ = us := lexed_tokenizeF hl _ (Nat.lt_succ_self _)
  obtain ⟨r, hr⟩ := hp p t q h ht
  exact ⟨r, by rw [this, ← hr]; simp⟩

theorem lineOf_count {s line : Str} {n p : Nat} (h : LineOf s n line p) (hp : p < s.length) (he : EndsLine s) :
    n < s.count '\n' := by
  obtain ⟨a, b, rfl, rfl, rfl, _, h1, h2⟩ := h
  rcases h2 with rfl | ⟨b', rfl⟩
  · exfalso
    rw [List.append_nil] at he hp
    have hne : line ≠ [] := by rintro rfl; simp at hp
    rcases EndsLine.rest he with h | ⟨w, rfl⟩
    · exact hne h
    · simp at h1
  · simp only [List.count_append, List.count_cons_self]; omega

theorem lineOf_append {s line v : Str} {n p : Nat} (h : LineOf s n line p) (hn : n < s.count '\n') :
    LineOf (s ++ v) n line p := by
  obtain ⟨a, b, rfl, h1, rfl, h2, h3, h4⟩ := h
  refine ⟨a, b ++ v, by simp, h1, rfl, h2, h3, ?_⟩
  rcases h4 with rfl | ⟨b', rfl⟩
  · rw [List.append_nil, List.count_append, List.count_eq_zero.2 h3] at hn
    omega
  · exact .inr ⟨b' ++ v, rfl⟩

theorem quotation_append {u v : Str} {loc a b : Loc} {q : Str} (h : Quotation ⟨u, loc⟩ a b q) (hu : EndsLine u) :
    Quotation ⟨u ++ v, loc⟩ a b q := by
  obtain ⟨h1, h2, hd, ex, h3, h4, rfl⟩ := h
  refine ⟨h1, h2, hd, ex, h3, ?_, rfl⟩
  cases h4 with
  | empty e => exact .empty e
  | line g1 g2 g3 g4 g5 g6 g7 =>
    have hn := lineOf_count g3 g4 hu
    refine .line g1 g2 (lineOf_append g3 hn) (by simp at g4 ⊢; omega) ?_ g6 g7
    cases g5 with
    | first e => exact .first e
    | previous e1 e2 => exact .previous e1 (lineOf_append e2 (by simp only at hn ⊢; omega))

theorem literal_transfer {p x y b a : List Token} {i s : Token} (h : Literal (p ++ x) b i s a) (hl : b.length + 4 ≤ p.length) :
    ∃ a', Literal (p ++ y) b i s a' := by
  obtain ⟨l, r, e, h1, h2, h3, h4, h5⟩ := h
  obtain ⟨d, hd⟩ := prefix_of_length e.symm (by simpa using hl)
  exact ⟨d ++ y, l, r, by rw [hd]; simp, h1, h2, h3, h4, h5⟩

/-- The error that the lines `u` give for a token, given for the text that starts with them. -/
theorem culprit_prefix {sys : Sys} {u v : Str} {loc : Loc} (hu : ∃ w, u = w ++ c!"\n") {before after : List Token} {t : Token}
    (hc : Culprit (tokenize ⟨u, loc⟩) before t after) (hok : AddressesOk sys.inetPton6 (tokenize ⟨u, loc⟩) before.length)
    (ht : Settled t) : ∃ rest, Culprit (tokenize ⟨u ++ v, loc⟩) before t rest ∧
      AddressesOk sys.inetPton6 (tokenize ⟨u ++ v, loc⟩) before.length := by
  obtain ⟨e, h1, h2⟩ := hc
  obtain ⟨rest, e'⟩ := tokenize_prefix (v := v) (.inr hu) e ht
  have hc' : Culprit (tokenize ⟨u ++ v, loc⟩) before t rest := ⟨e', h1, h2⟩
  refine ⟨rest, hc', fun b' i' s' a' hl hlt => ?_⟩
  have hb := literal_before hc' hl
  rw [e'] at hl
  obtain ⟨a'', hl''⟩ := literal_transfer (y := t :: after) hl hb
  exact hok b' i' s' a'' (by rw [e]; exact hl'') hlt

theorem address_prefix {sys : Sys} {u v : Str} {loc : Loc} (hu : ∃ w, u = w ++ c!"\n") {before after : List Token}
    {i s : Token} (hl : Literal (tokenize ⟨u, loc⟩) before i s after)
    (hok : AddressesOk sys.inetPton6 (tokenize ⟨u, loc⟩) before.length) :
    ∃ rest, Literal (tokenize ⟨u ++ v, loc⟩) before i s rest ∧
      AddressesOk sys.inetPton6 (tokenize ⟨u ++ v, loc⟩) before.length := by
  obtain ⟨a, b, e, h1, h2, h3, h4, h5⟩ := hl
  obtain ⟨rest, e'⟩ := tokenize_prefix (v := v) (.inr hu) (p := before ++ [i, a, s]) (t := b) (q := after)
    (by rw [e]; simp) ⟨by rw [h4]; decide, by rw [h4]; nofun⟩
  refine ⟨rest, ⟨a, b, by rw [e']; simp, h1, h2, h3, h4, h5⟩, fun b' i' s' a' hl hlt => ?_⟩
  have e1 : tokenize ⟨u ++ v, loc⟩ = (before ++ [i, a, s, b]) ++ rest := by rw [e']; simp
  have e2 : tokenize ⟨u, loc⟩ = (before ++ [i, a, s, b]) ++ after := e
  rw [e1] at hl
  obtain ⟨a'', hl''⟩ := literal_transfer (y := after) hl (by simp; omega)
  exact hok b' i' s' a'' (by rw [e2]; exact hl'') hlt

theorem quotation_unique {src : ConstraintSource} {a b : Loc} {q q' : Str} (h0 : 0 ≤ a.line) (hc : 0 ≤ a.col)
    (hb : 0 ≤ b.col) (h : Quotation src a b q) (h' : Quotation src a b q') : q = q' := by
  have := ((quoteSub_any_iff h0 hc hb).2 h).symm.trans ((quoteSub_any_iff h0 hc hb).2 h')
  cases this
  rfl

/-- A syntax error in the lines `u` is the error of every text that starts with these lines, unless the token cannot be
quoted from `u`. -/
theorem syntax_error_prefix {x : Texts} {sys : Sys} {k : ConstraintKind} {u v : Str} {loc : Loc}
    (hline : 0 ≤ loc.line) (hcol : 0 ≤ loc.col) (hu : ∃ w, u = w ++ c!"\n")
    {c : Code} {m : Str} (h : parseConstraintM x sys k ⟨u, loc⟩ = .err c m)
    (ht : ∀ before t after, Culprit (tokenize ⟨u, loc⟩) before t after →
      AddressesOk sys.inetPton6 (tokenize ⟨u, loc⟩) before.length →
      t.kind ≠ .endOfInput ∧ (t.kind = .unexpectedChar → t.text ≠ c!"'")) :
    ∃ c' m', parseConstraintM x sys k ⟨u ++ v, loc⟩ = .err c' m' ∧ (c = .invalidArgument → c' = c ∧ m' = m) := by
  rcases diagnose_any hline hcol h with ⟨rfl, before, i, s, after, hl, hf, hok⟩ | ⟨before, t, after, d, hc, hok, hr, hm⟩
  · obtain ⟨rest, hl', hok'⟩ := address_prefix (v := v) hu hl hok
    rcases parseM_outcomes x (sys := sys) (k := k) (src := ⟨u ++ v, loc⟩) hcol with ⟨e, he⟩ | ⟨c', m', hm⟩
    · have := erase_parseConstraint x sys k ⟨u ++ v, loc⟩
      rw [he] at this
      exact ((C52_rejected this.symm).2 _ _ _ _ _ hl' hf).elim
    · refine ⟨c', m', hm, fun _ => ?_⟩
      rcases diagnose_any hline hcol hm with ⟨rfl, b', i', s', a', hl2, hf2, hok2⟩ | ⟨b', t', a', d, hc, hok2, _⟩
      · exact ⟨rfl, ((C52_exclusive (t := i) hl' hok' hf).2 hl2 hok2 hf2).2.2.2.2.symm⟩
      · exact absurd hok2 ((C52_exclusive hl' hok' hf).1 hc)
  · obtain ⟨rest, hc', hok'⟩ := culprit_prefix (v := v) hu hc hok (ht _ _ _ hc hok)
    obtain ⟨d', hd', hx⟩ := culprit_reported x (k := k) hline hcol hc' hok'
    obtain ⟨_, _, w1, w2, w3, _⟩ := token_where (src := ⟨u, loc⟩) hline hcol (t := t) (by rw [hc.1]; simp)
    rcases hm with ⟨rfl, q, hq, rfl⟩ | ⟨rfl, hq, rfl⟩
    · have hq' := quotation_append (v := v) hq (.inr hu)
      rcases hx with ⟨q2, hq2, hx⟩ | ⟨hn, _⟩
      · refine ⟨_, _, hx, fun _ => ⟨rfl, ?_⟩⟩
        rw [quotation_unique w1 w2 w3 hq' hq2, complaint_unique (reason_complaint hr) (reason_complaint hd')]
      · exact (hn _ hq').elim
    · rcases hx with ⟨q2, _, hx⟩ | ⟨_, hx⟩
      · exact ⟨_, _, hx, nofun⟩
      · exact ⟨_, _, hx, nofun⟩

end P4C
