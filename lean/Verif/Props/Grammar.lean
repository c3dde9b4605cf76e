import Verif.Proofs.GrammarMore
import Verif.Props.Examples

/-
The grammar: properties C21 (for parsed constraints), C23, C24, C25, C28.
-/

namespace P4C

open Spec

/-- C23: the parser accepts exactly the token sequences of the grammar, and builds the tree of the
derivation. `h`: the text of numeral tokens consists of digits of their base, as the lexer guarantees. -/
theorem C23_grammar {sys : Sys} {k : ConstraintKind} {ts : List Token} {src : ConstraintSource}
    (h : ∀ t ∈ ts, ∀ b, baseOf t.kind = some b → ∃ n, NumVal b t.text n) (e : Expr) :
    parseTokens sys k ts src = .ok e ↔ Constraint sys.inetPton6 k ts e := parseTokens_iff h

/-- C23, for texts. -/
theorem C23_grammar_text (sys : Sys) (k : ConstraintKind) (src : ConstraintSource) (e : Expr) :
    parseConstraint sys k src = .ok e ↔ Constraint sys.inetPton6 k (tokenize src) e := parseConstraint_iff

/-- C23: the grammar is unambiguous. -/
theorem C23_unambiguous {pton : Str → Option Bytes} {k : ConstraintKind} {ts : List Token} {e e' : Expr}
    (hn : ∀ t ∈ ts, ∀ b, baseOf t.kind = some b → ∃ n, NumVal b t.text n)
    (h : Constraint pton k ts e) (h' : Constraint pton k ts e') : e = e' := by
  have h1 := (parseTokens_iff (sys := ⟨pton⟩) (src := {}) hn).2 h
  have h2 := (parseTokens_iff (sys := ⟨pton⟩) (src := {}) hn).2 h'
  rw [h1] at h2
  exact Res.ok.inj h2

/-- The constraint read from a text. -/
def Ex.parsed (s : Str) : Expr := Ex.get (.notSet {}) (parseConstraint Ex.sys .table { str := s })

/-- Precedence and associativity. -/
example : abs (Ex.parsed c!"!ex == 1 && tern == 2 && opt == 3 || ex == 4 -> true; false") =
    some (.conn .and (.conn .implies (.conn .or (.conn .and (.conn .and
      (.cmp .eq (.not (.key c!"ex")) (.int 1)) (.cmp .eq (.key c!"tern") (.int 2)))
      (.cmp .eq (.key c!"opt") (.int 3))) (.cmp .eq (.key c!"ex") (.int 4))) (.bool true)) (.bool false)) := by
  decide +kernel

/-- The hypothesis of C23 is met by tokens of the lexer. -/
example : ∀ t ∈ tokenize { str := c!"a::mask == 0xfF" }, ∀ b, baseOf t.kind = some b → ∃ n, NumVal b t.text n :=
  tokenize_numTok _

/-- Comparisons and implications do not associate. -/
example : parseConstraint Ex.sys .table { str := c!"a == b == c", loc := { src := .tableName c!"t" } } = .err .invalidArgument ∧
    parseConstraint Ex.sys .table { str := c!"a -> b -> c", loc := { src := .tableName c!"t" } } = .err .invalidArgument := by
  decide +kernel

/-- Texts with the same tokens are parsed to the same constraints. -/
theorem same_parse {sys : Sys} {k : ConstraintKind} {src src' : ConstraintSource} {e : Expr}
    (h : SameToks (tokenize src) (tokenize src')) (hp : parseConstraint sys k src = .ok e) :
    ∃ e', parseConstraint sys k src' = .ok e' ∧ abs e' = abs e := by
  obtain ⟨e', h1, h2⟩ := constraint_same (parseConstraint_iff.1 hp) h
  exact ⟨e', parseConstraint_iff.2 h1, h2⟩

/-- C21: inserting white space and comments at a point between tokens, and not inside a comment, does not
change the parsed constraint, except for source locations. -/
theorem C21_insert_separators_parse {sys : Sys} {k : ConstraintKind} {src src' : ConstraintSource} {a b w : Str}
    {ts : List (Kind × Str)} (hs : src.str = a ++ b) (hs' : src'.str = a ++ w ++ b)
    (h : Reads b (a ++ b) ts) (hw : Seps w) (s : SExpr) :
    (∃ e, parseConstraint sys k src = .ok e ∧ abs e = some s) ↔
      (∃ e, parseConstraint sys k src' = .ok e ∧ abs e = some s) := by
  have ht : (tokenize src').map kindText = (tokenize src).map kindText := by
    rw [tokens_src, tokens_src, hs, hs', tokensOf_insert h hw]
  constructor
  · rintro ⟨e, h1, h2⟩
    obtain ⟨e', h3, h4⟩ := same_parse (sameToks_of_kindText ht.symm) h1
    exact ⟨e', h3, h4.trans h2⟩
  · rintro ⟨e, h1, h2⟩
    obtain ⟨e', h3, h4⟩ := same_parse (sameToks_of_kindText ht) h1
    exact ⟨e', h3, h4.trans h2⟩

/-- Every parsed constraint has abstract syntax, so `C21_insert_separators_parse` speaks about every text
that is accepted. -/
theorem parsed_abs {sys : Sys} {k : ConstraintKind} {src : ConstraintSource} {e : Expr}
    (h : parseConstraint sys k src = .ok e) : ∃ s, abs e = some s := by
  obtain ⟨_, _, _, _, hg⟩ := parseConstraint_split.1 h
  exact G_abs hg

/-- C24: every constraint that can be written down at all is parsed back from any text with the tokens of
its pretty-printed form. `num` is any way to write numbers in decimal. -/
theorem C24_print_parse {sys : Sys} {k : ConstraintKind} {num : Nat → Str} (hnum : ∀ n, NumVal 10 (num n) n)
    {s : SExpr} (hw : Writable k s) {src : ConstraintSource}
    (h : (tokenize src).map kindText = print num s 0 ++ [(.endOfInput, [])]) :
    ∃ e, parseConstraint sys k src = .ok e ∧ abs e = some s := by
  obtain ⟨toks, last, _, h2, _, h4⟩ := parseConstraint_tokens (sys := sys) (k := k) h
  obtain ⟨e, h5, h6⟩ := print_reading (pton := sys.inetPton6) hnum s hw 0 (by omega) toks h2
  exact ⟨e, (h4 e).2 h5, h6⟩

/-- C24: in particular from the text with a blank after each token. -/
theorem C24_print_parse_text {sys : Sys} {k : ConstraintKind} {num : Nat → Str} (hnum : ∀ n, NumVal 10 (num n) n)
    {s : SExpr} (hw : Writable k s) {src : ConstraintSource} (h : src.str = toText (print num s 0)) :
    ∃ e, parseConstraint sys k src = .ok e ∧ abs e = some s := by
  refine C24_print_parse hnum hw ?_
  rw [tokens_src, h, tokensOf_text (print_plain hnum s hw 0)]

example : (∀ n, NumVal 10 (natDec n) n) ∧
    String.ofList (toText (print natDec (.conn .and (.conn .or (.key c!"a.b") (.not (.bool true)))
      (.cmp .le (.field (.key c!"x") c!"mask") (.neg (.int 12)))) 0)) =
    "( a . b || ! true ) && x :: mask <= - 12 " := ⟨natDec_val, by decide +kernel⟩

example : Writable .table (.conn .and (.conn .or (.key c!"a.b") (.not (.bool true)))
      (.cmp .le (.field (.key c!"x") c!"mask") (.neg (.int 12)))) := by
  refine ⟨⟨⟨rfl, ?_⟩, trivial⟩, ⟨⟨rfl, ?_⟩, ?_⟩, (by decide : (0 : Int) ≤ 12)⟩
  · intro p hp
    have : p ∈ [c!"a", c!"b"] := hp
    simp only [List.mem_cons, List.not_mem_nil, or_false] at this
    rcases this with rfl | rfl <;> exact ⟨⟨_, _, rfl, by unfold Letter; decide, by simp⟩, by decide, by decide⟩
  · intro p hp
    have : p ∈ [c!"x"] := hp
    rw [List.mem_singleton.1 this]
    exact ⟨⟨_, _, rfl, by unfold Letter; decide, by simp⟩, by decide, by decide⟩
  · exact ⟨⟨_, _, rfl, by unfold Letter; decide, by unfold Letter Digit; decide⟩, by decide, by decide⟩

/-- C25: a constraint `a ; b`, made from the tokens of two constraints, has the conjuncts of `a && b`. The
tokens of `a` must not end with a semicolon. -/
theorem C25_sequence {sys : Sys} {k : ConstraintKind} {a b src : ConstraintSource} {ea eb : Expr}
    {ta tb : List (Kind × Str)} (ha : parseConstraint sys k a = .ok ea) (hb : parseConstraint sys k b = .ok eb)
    (hta : (tokenize a).map kindText = ta ++ [(.endOfInput, [])])
    (htb : (tokenize b).map kindText = tb ++ [(.endOfInput, [])])
    (hl : ta.getLast? ≠ some (.semicolon, c!";"))
    (hsrc : (tokenize src).map kindText = ta ++ (.semicolon, c!";") :: tb ++ [(.endOfInput, [])]) :
    ∃ e s sa sb, parseConstraint sys k src = .ok e ∧ abs e = some s ∧ abs ea = some sa ∧ abs eb = some sb ∧
      conjuncts s = conjuncts (.conn .and sa sb) := by
  obtain ⟨toksa, lasta, hA, h2a, _, h4a⟩ := parseConstraint_tokens (sys := sys) (k := k) hta
  obtain ⟨toksb, lastb, _, h2b, _, h4b⟩ := parseConstraint_tokens (sys := sys) (k := k) htb
  obtain ⟨toks, last, _, h2, _, h4⟩ := parseConstraint_tokens (sys := sys) (k := k) hsrc
  obtain ⟨x, y, rfl, h5, h6⟩ := map_append_inv h2
  obtain ⟨o, z, rfl, h7, _, h8⟩ := map_cons_inv h6
  have hga := (h4a _).1 ha
  have hgb := (h4b _).1 hb
  obtain ⟨ea', hga', haa⟩ := G_same hga (sameToks_of_kindText (h2a.trans h5.symm))
  obtain ⟨eb', hgb', hab⟩ := G_same hgb (sameToks_of_kindText (h2b.trans h8.symm))
  obtain ⟨sa, hsa⟩ := G_abs hga'
  obtain ⟨sb, hsb⟩ := G_abs hgb'
  have h1a : G sys.inetPton6 k 1 x ea' := by
    rcases G_zero_inv hga' rfl with h | ⟨us, o', rfl, ho', hus⟩
    · exact h
    · exfalso
      apply hl
      have htext : o'.text = c!";" := by
        have hm : kindText o' ∈ (tokenize a).map kindText := by
          rw [hta, ← h5]; simp
        obtain ⟨t, ht, hte⟩ := List.mem_map.1 hm
        rw [kindText, kindText, Prod.mk.injEq] at hte
        rcases lexed_spelled (tokenize_lexed a) t ht with h | h | ⟨l, h⟩
        · rw [hte.1, ho'] at h; cases h
        · rw [hte.1, ho'] at h; cases h
        · rw [hte.1, hte.2, ho'] at h
          generalize o'.text = tx at h
          generalize hk : Kind.semicolon = kd at h
          cases h with
          | keyword h =>
            subst hk
            simpa [keywords] using h
          | _ => cases hk
      rw [← h5]
      simp [kindText, ho', htext]
  rcases G_zero_inv hgb' rfl with h1b | ⟨us, o', rfl, ho', h1b⟩
  · obtain ⟨f', hg, hc⟩ := G_seq h1b rfl h1a h7
    obtain ⟨v, hv, hcv⟩ := hc sa sb hsa hsb
    exact ⟨f', v, sa, sb, (h4 _).2 (.up (by omega) hg), hv, haa ▸ hsa, hab ▸ hsb, hcv⟩
  · obtain ⟨f', hg, hc⟩ := G_seq h1b rfl h1a h7
    obtain ⟨v, hv, hcv⟩ := hc sa sb hsa hsb
    refine ⟨f', v, sa, sb, (h4 _).2 ?_, hv, haa ▸ hsa, hab ▸ hsb, hcv⟩
    have := G.trailing hg ho'
    simpa using this

/-- C25: constraints with the same conjuncts have the same meaning and the same typing. -/
theorem C25_meaning {s u : SExpr} (h : conjuncts s = conjuncts u) (Γ : Sig) (ρ : Env) :
    (Holds Γ ρ s ↔ Holds Γ ρ u) ∧ (Fails Γ ρ s ↔ Fails Γ ρ u) ∧ (HasTy Γ s .boolean ↔ HasTy Γ u .boolean) := by
  refine ⟨?_, ?_, ?_⟩
  · unfold Holds; rw [means_conjuncts, means_conjuncts, h]
  · unfold Fails; rw [means_conjuncts, means_conjuncts, h]
  · rw [hasTy_conjuncts, hasTy_conjuncts, h]

/-- C25: `a ;` is parsed to the constraint of `a`. -/
theorem C25_trailing {sys : Sys} {k : ConstraintKind} {a src : ConstraintSource} {ea : Expr}
    {ta : List (Kind × Str)} (ha : parseConstraint sys k a = .ok ea)
    (hta : (tokenize a).map kindText = ta ++ [(.endOfInput, [])])
    (hl : ∀ t, ta.getLast? = some t → t.1 ≠ .semicolon)
    (hsrc : (tokenize src).map kindText = ta ++ [(.semicolon, c!";")] ++ [(.endOfInput, [])]) :
    ∃ e, parseConstraint sys k src = .ok e ∧ abs e = abs ea := by
  obtain ⟨toksa, lasta, hA, h2a, _, h4a⟩ := parseConstraint_tokens (sys := sys) (k := k) hta
  obtain ⟨toks, last, _, h2, _, h4⟩ := parseConstraint_tokens (sys := sys) (k := k) hsrc
  obtain ⟨x, y, rfl, h5, h6⟩ := map_append_inv h2
  obtain ⟨o, rfl, h7, _⟩ := map_one_inv h6
  obtain ⟨ea', hga', haa⟩ := G_same ((h4a _).1 ha) (sameToks_of_kindText (h2a.trans h5.symm))
  rcases G_zero_inv hga' rfl with h | ⟨us, o', rfl, ho', hus⟩
  · exact ⟨ea', (h4 _).2 (.trailing h h7), haa⟩
  · exact absurd ho' (hl (kindText o') (by rw [← h5]; simp))

/-- C25: a leading semicolon is rejected. -/
theorem C25_leading {sys : Sys} {k : ConstraintKind} {src : ConstraintSource} {t : Token} {ts : List Token}
    (h : tokenize src = t :: ts) (ht : t.kind = .semicolon) (e : Expr) : parseConstraint sys k src ≠ .ok e := by
  intro hp
  obtain ⟨toks, last, h1, h2, h3⟩ := parseConstraint_split.1 hp
  obtain ⟨_, hs, _, hne⟩ := G_semi h3
  cases toks with
  | nil => exact hne rfl
  | cons x xs =>
    rw [h] at h1
    injection h1 with h1 _
    subst h1
    exact hs xs t rfl ht

/-- C25: a doubled semicolon is rejected. -/
theorem C25_doubled {sys : Sys} {k : ConstraintKind} {src : ConstraintSource} {t u : Token} {ts us : List Token}
    (h : tokenize src = ts ++ t :: u :: us) (ht : t.kind = .semicolon) (hu : u.kind = .semicolon) (e : Expr) :
    parseConstraint sys k src ≠ .ok e := by
  intro hp
  obtain ⟨toks, last, h1, h2, h3⟩ := parseConstraint_split.1 hp
  obtain ⟨hs, _, _, _⟩ := G_semi h3
  rw [h] at h1
  rcases List.append_eq_append_iff.1 h1 with ⟨d, h4, h5⟩ | ⟨d, h4, h5⟩
  · rcases List.eq_nil_or_concat us with rfl | ⟨vs, w, rfl⟩
    · cases d with
      | nil => simp at h5
      | cons x xs =>
        cases xs with
        | nil =>
          simp only [List.cons_append, List.nil_append, List.cons.injEq, and_true] at h5
          rw [← h5.2, hu] at h2
          cases h2
        | cons y ys => have := congrArg List.length h5; simp at this
    · rw [List.concat_eq_append, show t :: u :: (vs ++ [w]) = (t :: u :: vs) ++ [w] from rfl] at h5
      obtain ⟨h6, _⟩ := List.append_inj' h5 rfl
      exact hs ts vs t u (by rw [h4, ← h6]) ⟨ht, hu⟩
  · have := congrArg List.length h5
    simp at this
    omega

example : abs (Ex.expr c!"ex == 1 -> true; tern == 2 || false; opt == 3;") =
    some (.conn .and (.conn .and (.conn .implies (.cmp .eq (.key c!"ex") (.int 1)) (.bool true))
      (.conn .or (.cmp .eq (.key c!"tern") (.int 2)) (.bool false))) (.cmp .eq (.key c!"opt") (.int 3))) := by
  decide +kernel

example : parseConstraint Ex.sys .table { str := c!"; true", loc := { src := .tableName c!"t" } } = .err .invalidArgument ∧
    parseConstraint Ex.sys .table { str := c!"true ;; true", loc := { src := .tableName c!"t" } } = .err .invalidArgument := by
  decide +kernel

/-- C28: the spans of a parsed constraint are non-empty and well nested, and within the text. -/
theorem C28_spans {sys : Sys} {k : ConstraintKind} {src : ConstraintSource} {e : Expr}
    (h : parseConstraint sys k src = .ok e) :
    Nested e ∧ LocLe src.loc e.start ∧ LocLe e.stop (advance src.loc src.str) := by
  obtain ⟨toks, last, h1, h2, h3⟩ := parseConstraint_split.1 h
  obtain ⟨toks', last', h4, h5, _, h6⟩ := lexed_ordered (tokenize_lexed src)
  rw [h1] at h4
  obtain ⟨rfl, _⟩ := List.append_inj' h4 rfl
  obtain ⟨h7, _, ⟨t, ht, hta⟩, u, hu, hub⟩ := G_spans h3 h5
  exact ⟨h7, (h6 t ht).1.trans hta, hub.trans (h6 u hu).2⟩

example : ∃ e, parseConstraint Ex.sys .table { str := c!"(a ==\n 1)" } = .ok e ∧
    e.start.line = 0 ∧ e.start.col = 1 ∧ e.stop.line = 1 ∧ e.stop.col = 2 :=
  ⟨_, rfl, by decide +kernel⟩

end P4C
