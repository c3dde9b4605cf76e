import Verif.Proofs.Placed

/-
Lexical structure: properties C19, C20, C21, C22.
-/

namespace P4C

open Spec

/-- The lexer reads exactly the lexical structure of the specification, and that is unambiguous. -/
theorem C19_lexical_structure (src : ConstraintSource) (ts : List Token) :
    tokenize src = ts ↔ Lexed src.loc src.str ts := tokenize_iff

/-- C19: tokenizing any text gives proper tokens followed by one final token. The proper tokens cover the
text up to some point; the final token is END_OF_INPUT and that point is the end of the text, or it is
UNEXPECTED_CHAR and neither a token nor white space nor a comment can be read at that point. -/
theorem C19_terminated (src : ConstraintSource) :
    ∃ toks last r, tokenize src = toks ++ [last] ∧
      (∀ t ∈ toks, t.kind ≠ .endOfInput ∧ t.kind ≠ .unexpectedChar) ∧
      Covers r src.str (toks.map kindText) ∧
      ((last.kind = .endOfInput ∧ r = []) ∨ (last.kind = .unexpectedChar ∧ r ≠ [] ∧ Unlexable r)) :=
  lexed_covers (tokenize_lexed src)

example : (tokenize { str := c!"a /*b*/ && $ c" }).map kindText =
    [(.id, c!"a"), (.and, c!"&&"), (.unexpectedChar, c!"$")] := by decide +kernel

/-- C20: every token is found in the text at the location and with the text it carries; tokens come in the
order of the text and do not overlap. Full statement: without the hypothesis `h` that no string literal
spans lines; it fails then (`C20_fails`). -/
theorem C20_locations_partial {src : ConstraintSource}
    (h : ∀ t ∈ tokenize src, t.kind = .string → ∀ c ∈ t.text, c ≠ '\r' ∧ c ≠ '\n') :
    Located src.loc [] src.str (tokenize src) ∧
      (tokenize src).Pairwise fun a b => LocLe a.stop b.start :=
  ⟨tokenize_located h, (tokenize_located h).pairwise⟩

/-- C20 fails as stated: after a string literal with a line break, the identifier `x` on the second line is
reported on the first. -/
theorem C20_fails : ∃ (src : ConstraintSource) (t : Token) (a : Str),
    src.str = a ++ c!"x" ∧ 'x' ∉ a ∧ t ∈ tokenize src ∧ t.kind = .id ∧ t.text = c!"x" ∧
    t.start.line ≠ (advance src.loc a).line :=
  ⟨{ str := c!"'\n' x" }, ⟨.id, c!"x", { col := 4 }, { col := 5 }⟩, c!"'\n' ", by decide +kernel⟩

/-- C20, exactly, for all texts: every token is found in the text, with the text it carries; tokens come in the order of the
text and do not overlap. Locations follow the lines and columns of the text, except that line breaks in string literals count
as columns. -/
theorem C20_exact (src : ConstraintSource) : Placed src.loc src.str (tokenize src) ∧
    (tokenize src).Pairwise fun a b => LocLe a.stop b.start :=
  have h := lexed_inPlace (tokenize_lexed src)
  ⟨h, h.pairwise⟩

/-- C20, exactly, for lines: the line of a token is that of a place in the text where the token is read, less the number of
line breaks in the string literals before it. -/
theorem C20_exact_line {src : ConstraintSource} {before after : List Token} {t : Token}
    (h : tokenize src = before ++ t :: after) :
    ∃ a b, src.str = a ++ b ∧ t.start.line = (advance src.loc a).line - literalBreaks before ∧
      (t.kind = .endOfInput ∧ b = [] ∨ (∃ c r, t.kind = .unexpectedChar ∧ t.text = [c] ∧ b = c :: r ∧ Unlexable b) ∨
        ∃ lexeme r, Spells t.kind t.text lexeme ∧ b = lexeme ++ r ∧ Chosen b t.kind lexeme) := by
  obtain ⟨a, b, h1, h2, h3⟩ := (lexed_inPlace (tokenize_lexed src)).line h
  exact ⟨a, b, h1, by omega, h3⟩

/-- The two line breaks in the string literal are missing from the line of `x`. -/
example : (tokenize { str := c!"'\n\r\n'\n x" }).map (fun t => (t.kind, t.start.line, t.start.col)) =
      [(.string, 0, 0), (.id, 1, 1), (.endOfInput, 1, 2)] ∧
    literalBreaks ((tokenize { str := c!"'\n\r\n'\n x" }).take 1) = 2 ∧ (advance {} c!"'\n\r\n'\n ").line = 3 := by
  decide +kernel

example : (tokenize { str := c!"a\r\n  == 0x1F" }).map (fun t => (t.kind, t.text, t.start.line, t.start.col)) =
    [(.id, c!"a", 0, 0), (.eq, c!"==", 1, 2), (.hexadec, c!"1F", 1, 5), (.endOfInput, [], 1, 9)] := by
  decide +kernel

/-- C21 (tokens): inserting white space and comments at a point between tokens, and not inside a comment,
does not change the tokens, except for their locations. -/
theorem C21_insert_separators {src src' : ConstraintSource} {a b w : Str} {ts : List (Kind × Str)}
    (hs : src.str = a ++ b) (hs' : src'.str = a ++ w ++ b) (h : Reads b (a ++ b) ts) (hw : Seps w) :
    (tokenize src').map kindText = (tokenize src).map kindText := by
  rw [tokens_src, tokens_src, hs, hs', tokensOf_insert h hw]

/-- The condition of `C21_insert_separators` is met: between `a` and `<`, and between `<` and `b`. -/
example : Reads c!"< b" (c!"a" ++ c!"< b") [(.id, c!"a")] ∧ Seps c!" /* hi */\n" := by
  constructor
  · refine .tok (lexeme := c!"a") (.id (.inr (.inl (by decide))) (by simp)) ⟨by decide, by decide, ?_⟩ .done
    intro _ _ k t l hl hp
    have : ∀ n, l ≠ c!"a<" ++ n := by
      rintro n rfl
      cases hl with
      | keyword h => simp [keywords] at h
      | id _ h => exact absurd (h '<' (by simp)) (by unfold Letter Digit; decide)
      | decimal _ h => exact absurd (h '<' (by simp)) (by unfold Digit; decide)
    obtain ⟨u, hu⟩ := hp
    match l with
    | [] => simp
    | [_] => simp
    | x :: y :: z =>
      injection hu with e1 e2
      injection e2 with e2 e3
      exact absurd (by rw [e1, e2]; rfl) (this z)
  · exact .cons .blank (.cons (.block (a := c!" hi ") (.cons (.ascii (by decide)) (.cons (.ascii (by decide))
      (.cons (.ascii (by decide)) (.cons (.ascii (by decide)) .nil)))) (by decide)) (.cons .lf .nil))

/-- C22: any sequence of tokens, each written out in any of its spellings and followed by white space or
comments, is read back. Full statement: without the hypothesis that identifiers do not start with `true`
or `false`, which the language specification does not exclude; it fails then (`C22_fails`). -/
theorem C22_roundtrip_partial (items : List (Kind × Str × Str × Str)) (w0 : Str) (hw0 : Seps w0)
    (h : ∀ k text lexeme w, (k, text, lexeme, w) ∈ items → Spells k text lexeme ∧ Seps w ∧ w ≠ [] ∧
      (k = .id → ¬ c!"true" <+: text ∧ ¬ c!"false" <+: text))
    (src : ConstraintSource) (hs : src.str = w0 ++ (items.map fun i => i.2.2.1 ++ i.2.2.2).flatten) :
    (tokenize src).map kindText = items.map (fun i => (i.1, i.2.1)) ++ [(.endOfInput, [])] := by
  rw [tokens_src, hs, tokensOf_seps hw0]
  clear hs
  induction items with
  | nil => exact tokensOf_eq (l := {}) .eof
  | cons i items ih =>
    obtain ⟨k, text, lexeme, w⟩ := i
    obtain ⟨h1, h2, h3, h4⟩ := h k text lexeme w (List.mem_cons_self ..)
    have hi : k = .id → ¬ c!"true" <+: lexeme ∧ ¬ c!"false" <+: lexeme := by
      intro e
      have := h4 e
      subst e
      cases h1 with
      | keyword _ => exact this
      | id => exact this
    have hc : Chosen (lexeme ++ ([] ++ (w ++ (items.map fun i => i.2.2.1 ++ i.2.2.2).flatten))) k lexeme :=
      chosen_after h1 (by rw [List.append_nil]; exact chosen_alone h1 hi) h2 h3
    simp only [List.map_cons, List.flatten_cons, List.cons_append]
    rw [List.append_assoc]
    refine (tokensOf_tok h1 hc).trans ?_
    rw [List.nil_append, tokensOf_seps h2, ih fun k t l w hm => h k t l w (List.mem_cons_of_mem _ hm)]

/-- C22, exactly: whatever follows them, `true` and `false` are read as such, and reading goes on after them. -/
theorem C22_exact_keywords (src rest : ConstraintSource) :
    (src.str = c!"true" ++ rest.str → (tokenize src).map kindText = (.true_, c!"true") :: (tokenize rest).map kindText) ∧
    (src.str = c!"false" ++ rest.str → (tokenize src).map kindText = (.false_, c!"false") :: (tokenize rest).map kindText) := by
  refine ⟨fun h => ?_, fun h => ?_⟩
  · rw [tokens_src, tokens_src, h]
    exact tokensOf_tok (.keyword (by decide)) ⟨fun _ => rfl, by rintro ⟨t, e⟩; simp at e, fun h => absurd rfl h⟩
  · rw [tokens_src, tokens_src, h]
    exact tokensOf_tok (.keyword (by decide)) ⟨by rintro ⟨t, e⟩; simp at e, fun _ => rfl, fun _ h => absurd rfl h⟩

example : (tokenize { str := c!"falsetrue2" }).map kindText =
    [(.false_, c!"false"), (.true_, c!"true"), (.decimal, c!"2"), (.endOfInput, [])] := by decide +kernel

/-- C22, exactly: a sequence of tokens, written out like that, is read back if and only if no identifier in it starts with
`true` or `false`. -/
theorem C22_exact (items : List (Kind × Str × Str × Str)) (w0 : Str) (hw0 : Seps w0)
    (h : ∀ k text lexeme w, (k, text, lexeme, w) ∈ items → Spells k text lexeme ∧ Seps w ∧ w ≠ [])
    (src : ConstraintSource) (hs : src.str = w0 ++ (items.map fun i => i.2.2.1 ++ i.2.2.2).flatten) :
    (tokenize src).map kindText = items.map (fun i => (i.1, i.2.1)) ++ [(.endOfInput, [])] ↔
      ∀ i ∈ items, i.1 = .id → ¬ c!"true" <+: i.2.1 ∧ ¬ c!"false" <+: i.2.1 := by
  refine ⟨?_, fun hi => C22_roundtrip_partial items w0 hw0
    (fun k t l w hm => let ⟨h1, h2, h3⟩ := h k t l w hm; ⟨h1, h2, h3, hi _ hm⟩) src hs⟩
  rw [tokens_src, hs, tokensOf_seps hw0]
  clear hs
  induction items with
  | nil => exact fun _ i hi => absurd hi (by simp)
  | cons i items ih =>
    obtain ⟨k, text, lexeme, w⟩ := i
    obtain ⟨h1, h2, h3⟩ := h k text lexeme w (List.mem_cons_self ..)
    intro he
    have hi : k = .id → ¬ c!"true" <+: lexeme ∧ ¬ c!"false" <+: lexeme := by
      rintro rfl
      refine ⟨?_, ?_⟩
      · rintro ⟨r, rfl⟩
        have hx := (C22_exact_keywords
          { str := c!"true" ++ (r ++ (w ++ (items.map fun i => i.2.2.1 ++ i.2.2.2).flatten)) }
          { str := r ++ (w ++ (items.map fun i => i.2.2.1 ++ i.2.2.2).flatten) }).1 rfl
        rw [tokens_src] at hx
        simp only [List.map_cons, List.flatten_cons, List.append_assoc] at he hx
        rw [hx] at he
        simp at he
      · rintro ⟨r, rfl⟩
        have hx := (C22_exact_keywords
          { str := c!"false" ++ (r ++ (w ++ (items.map fun i => i.2.2.1 ++ i.2.2.2).flatten)) }
          { str := r ++ (w ++ (items.map fun i => i.2.2.1 ++ i.2.2.2).flatten) }).2 rfl
        rw [tokens_src] at hx
        simp only [List.map_cons, List.flatten_cons, List.append_assoc] at he hx
        rw [hx] at he
        simp at he
    have hc : Chosen (lexeme ++ ([] ++ (w ++ (items.map fun i => i.2.2.1 ++ i.2.2.2).flatten))) k lexeme :=
      chosen_after h1 (by rw [List.append_nil]; exact chosen_alone h1 hi) h2 h3
    have ht := tokensOf_tok h1 hc
    rw [List.nil_append, tokensOf_seps h2] at ht
    simp only [List.map_cons, List.flatten_cons, List.cons_append, List.append_assoc] at he
    rw [ht] at he
    have hr := ih (fun k t l w hm => h k t l w (List.mem_cons_of_mem _ hm)) (List.cons.inj he).2
    intro j hj
    rcases List.mem_cons.1 hj with rfl | hj
    · intro e
      have := hi e
      dsimp only at e
      subst e
      cases h1 with
      | keyword _ => exact this
      | id => exact this
    · exact hr j hj

/-- C22 fails as stated: the identifier `truely` is read as `true` followed by `ly`. -/
theorem C22_fails : Spells .id c!"truely" c!"truely" ∧ (tokenize { str := c!"truely " }).map kindText =
    [(.true_, c!"true"), (.id, c!"ly"), (.endOfInput, [])] :=
  ⟨.id (.inr (.inl (by decide))) (by unfold Letter Digit; decide), by decide +kernel⟩

example : ∀ k text lexeme w, (k, text, lexeme, w) ∈ [(.hexadec, c!"1F", c!"0x1F", c!" "), (.le, c!"<=", c!"<=", c!"\n")] →
    Spells k text lexeme ∧ Seps w ∧ w ≠ [] ∧ (k = .id → ¬ c!"true" <+: text ∧ ¬ c!"false" <+: text) := by
  intro k text lexeme w h
  simp only [List.mem_cons, Prod.mk.injEq, List.not_mem_nil, or_false] at h
  rcases h with ⟨rfl, rfl, rfl, rfl⟩ | ⟨rfl, rfl, rfl, rfl⟩
  · exact ⟨.hexadec (.inl rfl) (by simp) (by unfold HexDigit Digit; decide), .cons .blank .nil, by simp, nofun⟩
  · exact ⟨.keyword (by decide), .cons .lf .nil, by simp, nofun⟩

end P4C
