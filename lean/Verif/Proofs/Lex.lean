import Verif.Proofs.Runes

/-
The tokenizer in terms of the scanner.
-/

namespace P4C

theorem scanPlus_some {g : Grp} {p : Char → Bool} {s : Str} {l : Lexeme} (h : scanPlus g p s = some l) :
    ∃ a b, s = a ++ b ∧ a ≠ [] ∧ (∀ c ∈ a, p c = true) ∧ (∀ c cs, b = c :: cs → p c = false) ∧
      l = (g, a.length, a) := by
  unfold scanPlus at h
  split at h
  · cases h
  · rename_i hne
    cases h
    refine ⟨s.takeWhile p, s.dropWhile p, (List.takeWhile_append_dropWhile).symm, hne, ?_, ?_, rfl⟩
    · intro c hc
      have := List.all_takeWhile (p := p) (l := s)
      rw [List.all_eq_true] at this
      exact this c hc
    · intro c cs hc
      have := List.head?_dropWhile_not p s
      rw [hc] at this
      simpa using this

theorem scanPlus_append {g : Grp} {p : Char → Bool} {a b : Str} (hne : a ≠ []) (ha : ∀ c ∈ a, p c = true)
    (hb : ∀ c cs, b = c :: cs → p c = false) : scanPlus g p (a ++ b) = some (g, a.length, a) := by
  have ht : (a ++ b).takeWhile p = a := by
    rw [List.takeWhile_append_of_pos ha]
    cases b with
    | nil => simp
    | cons c cs => simp [hb c cs rfl]
  unfold scanPlus
  rw [ht, if_neg hne]

theorem scanPlus_none {g : Grp} {p : Char → Bool} {c : Char} {s : Str} (h : p c = false) :
    scanPlus g p (c :: s) = none := by
  unfold scanPlus; simp [h]

theorem scanNum_some {g : Grp} {pre : Str} {p : Char → Bool} {s : Str} {l : Lexeme}
    (h : scanNum g pre p s = some l) :
    ∃ x a b, s = '0' :: x :: (a ++ b) ∧ x ∈ pre ∧ a ≠ [] ∧ (∀ c ∈ a, p c = true) ∧
      (∀ c cs, b = c :: cs → p c = false) ∧ l = (g, a.length + 2, a) := by
  unfold scanNum at h
  split at h
  · split at h
    · rename_i x s hx
      rw [Option.map_eq_some_iff] at h
      obtain ⟨l', hl', rfl⟩ := h
      obtain ⟨a, b, rfl, h1, h2, h3, rfl⟩ := scanPlus_some hl'
      exact ⟨x, a, b, rfl, hx, h1, h2, h3, rfl⟩
    · cases h
  · cases h

theorem scanNum_none {g : Grp} {pre : Str} {p : Char → Bool} {c : Char} {s : Str} (h : c ≠ '0') :
    scanNum g pre p (c :: s) = none := by
  unfold scanNum
  split
  · rename_i heq; cases heq; exact absurd rfl h
  · rfl

theorem scanNum_none' {g : Grp} {pre : Str} {p : Char → Bool} {x : Char} {s : Str} (h : x ∉ pre) :
    scanNum g pre p ('0' :: x :: s) = none := by
  unfold scanNum
  simp [h]

/-- What a scanned lexeme looks like. -/
inductive ScanOk : Str → Lexeme → Prop where
  | whitespace {a b : Str} : a ≠ [] → (∀ c ∈ a, c = ' ' ∨ c = '\t') → ScanOk (a ++ b) (.whitespace, a.length, a)
  | crlf {b : Str} : ScanOk ('\r' :: '\n' :: b) (.newline, 2, c!"\r\n")
  | cr {b : Str} : (∀ cs, b ≠ '\n' :: cs) → ScanOk ('\r' :: b) (.newline, 1, c!"\r")
  | lf {b : Str} : ScanOk ('\n' :: b) (.newline, 1, c!"\n")
  | comment {a b : Str} : Spec.Runes a → (∀ c ∈ a, c ≠ '\r' ∧ c ≠ '\n') →
      (Re.noneOf c!"\r\n").len b = none →
      ScanOk ('/' :: '/' :: (a ++ b)) (.comment, a.length + 2, '/' :: '/' :: a)
  | block {b : Str} : ScanOk ('/' :: '*' :: b) (.beginMultilineComment, 2, c!"/*")
  | fixed {l b : Str} : l ∈ fixedLexemes → ScanOk (l ++ b) (.keyword, l.length, l)
  | punct {c : Char} {b : Str} : c ∈ punctuation → ScanOk (c :: b) (.keyword, 1, [c])
  | id {c : Char} {a b : Str} : isIdStart c = true → (∀ c ∈ a, isIdChar c = true) →
      ScanOk (c :: (a ++ b)) (.id, a.length + 1, c :: a)
  | binary {x : Char} {a b : Str} : x ∈ c!"bB" → a ≠ [] → (∀ c ∈ a, isBin c = true) →
      ScanOk ('0' :: x :: (a ++ b)) (.binary, a.length + 2, a)
  | octary {x : Char} {a b : Str} : x ∈ c!"oO" → a ≠ [] → (∀ c ∈ a, isOct c = true) →
      ScanOk ('0' :: x :: (a ++ b)) (.octary, a.length + 2, a)
  | hexadec {x : Char} {a b : Str} : x ∈ c!"xX" → a ≠ [] → (∀ c ∈ a, isHex c = true) →
      ScanOk ('0' :: x :: (a ++ b)) (.hexadec, a.length + 2, a)
  | decimalD {x : Char} {a b : Str} : x ∈ c!"dD" → a ≠ [] → (∀ c ∈ a, isDec c = true) →
      ScanOk ('0' :: x :: (a ++ b)) (.decimal, a.length + 2, a)
  | decimal {a b : Str} : a ≠ [] → (∀ c ∈ a, isDec c = true) → ScanOk (a ++ b) (.decimal, a.length, a)
  | string {a b : Str} : Spec.Runes a → (∀ c ∈ a, c ≠ '\'') →
      ScanOk ('\'' :: (a ++ '\'' :: b)) (.string, a.length + 2, '\'' :: (a ++ ['\'']))

theorem scan_ok {s : Str} {l : Lexeme} (h : scan s = some l) : ScanOk s l := by
  unfold scan scanSpace scanToken at h
  simp only [Option.or_eq_some_iff] at h
  rcases h with (h | ⟨-, h | ⟨-, h⟩⟩) | ⟨-, h | ⟨-, h | ⟨-, h | ⟨-, h | ⟨-, h | ⟨-, (h | ⟨-, h⟩) | ⟨-, h⟩⟩⟩⟩⟩⟩⟩
  · obtain ⟨a, b, rfl, h1, h2, _, rfl⟩ := scanPlus_some h
    exact .whitespace h1 (by simpa using h2)
  · rw [Option.map_eq_some_iff] at h
    obtain ⟨n, hn, rfl⟩ := h
    unfold newlineLen at hn
    split at hn
    · cases hn; exact .crlf
    · cases hn; exact .cr (by rename_i hne; intro cs he; exact hne cs (by rw [he]))
    · cases hn; exact .lf
    · cases hn
  · unfold scanComment at h
    split at h
    · rename_i r
      cases h
      have hn : (Re.noneOf c!"\r\n").Neg := noneOf_neg rfl
      obtain ⟨a, b, rfl, hmu, ha, ham, hb⟩ := hn.munch_iff (s := r) (Nat.le_refl _)
      have := ScanOk.comment (a := a) (b := b) ha (by
          intro c hc
          simpa [Re.noneOf] using ham c hc) hb
      rw [hmu]
      simpa using this
    · cases h; exact .block
    · cases h
  · rw [Option.map_eq_some_iff] at h
    obtain ⟨n, hn, rfl⟩ := h
    unfold keywordLen at hn
    rw [Option.or_eq_some_iff] at hn
    rcases hn with hn | ⟨_, hn⟩
    · rw [Option.map_eq_some_iff] at hn
      obtain ⟨l, hl, rfl⟩ := hn
      have hp := List.find?_some hl
      have hm := List.mem_of_find?_eq_some hl
      obtain ⟨t, rfl⟩ := List.isPrefixOf_iff_prefix.1 hp
      have := ScanOk.fixed (b := t) hm
      simpa using this
    · split at hn
      · split at hn
        · rename_i c cs hc; cases hn; exact .punct hc
        · cases hn
      · cases hn
  · unfold scanId at h
    split at h
    · split at h
      · rename_i c cs hc
        cases h
        have := ScanOk.id (a := cs.takeWhile isIdChar) (b := cs.dropWhile isIdChar) hc (by
          intro d hd
          have := List.all_takeWhile (p := isIdChar) (l := cs)
          rw [List.all_eq_true] at this
          exact this d hd)
        rw [List.takeWhile_append_dropWhile] at this
        exact this
      · cases h
    · cases h
  · obtain ⟨x, a, b, rfl, hx, h1, h2, _, rfl⟩ := scanNum_some h; exact .binary hx h1 h2
  · obtain ⟨x, a, b, rfl, hx, h1, h2, _, rfl⟩ := scanNum_some h; exact .octary hx h1 h2
  · obtain ⟨x, a, b, rfl, hx, h1, h2, _, rfl⟩ := scanNum_some h; exact .hexadec hx h1 h2
  · obtain ⟨x, a, b, rfl, hx, h1, h2, _, rfl⟩ := scanNum_some h; exact .decimalD hx h1 h2
  · obtain ⟨a, b, rfl, h1, h2, _, rfl⟩ := scanPlus_some h; exact .decimal h1 h2
  · unfold scanString at h
    split at h
    · rename_i r
      dsimp only at h
      split at h
      · rename_i hp
        cases h
        have hn : (Re.noneOf ['\'']).Neg := noneOf_neg rfl
        obtain ⟨a, b, rfl, hmu, ha, ham, hb⟩ := hn.munch_iff (s := r) (Nat.le_refl _)
        rw [hmu] at hp ⊢
        rw [List.drop_left] at hp
        obtain ⟨t, rfl⟩ := List.isPrefixOf_iff_prefix.1 hp
        have := ScanOk.string (a := a) (b := t) ha (by
          intro c hc; simpa [Re.noneOf] using ham c hc)
        have he : ('\'' :: (a ++ (['\''] ++ t))).take (a.length + 2) = '\'' :: (a ++ ['\'']) := by
          rw [List.take_succ_cons, List.take_length_add_append]
          rfl
        rw [he]
        exact this
      · cases h
    · cases h

/-- A lexeme is a non-empty prefix of the input. -/
theorem ScanOk.len {s : Str} {l : Lexeme} (h : ScanOk s l) : 0 < l.2.1 ∧ l.2.1 ≤ s.length := by
  cases h with
  | fixed hm =>
    rename_i l b
    have : 0 < l.length := by
      have : ∀ l ∈ fixedLexemes, 0 < l.length := by decide
      exact this l hm
    simp; exact this
  | whitespace h _ => have := List.length_pos_iff.2 h; simp; omega
  | decimal h _ => have := List.length_pos_iff.2 h; simp; omega
  | _ => simp <;> omega

theorem ScanOk.text_ne {s : Str} {l : Lexeme} (h : ScanOk s l) : l.2.2 ≠ [] := by
  cases h with
  | fixed hm =>
    have : ∀ l ∈ fixedLexemes, l ≠ [] := by decide
    exact this _ hm
  | whitespace h _ => exact h
  | decimal h _ => exact h
  | binary _ h _ => exact h
  | octary _ h _ => exact h
  | hexadec _ h _ => exact h
  | decimalD _ h _ => exact h
  | _ => simp

/-- The token made of a lexeme. -/
def tokenOf (l : Lexeme) (lexeme : Str) (a b : Loc) : Token :=
  match l.1 with
  | .keyword => ⟨(keywordToKind lexeme).getD .unexpectedChar, lexeme, a, b⟩
  | .id => ⟨.id, lexeme, a, b⟩
  | .binary => ⟨.binary, l.2.2, a, b⟩
  | .octary => ⟨.octary, l.2.2, a, b⟩
  | .hexadec => ⟨.hexadec, l.2.2, a, b⟩
  | .decimal => ⟨.decimal, l.2.2, a, b⟩
  | _ => ⟨.string, (l.2.2.drop 1).take (l.2.2.length - 2), a, b⟩

theorem capture_toMatch_self {l : Lexeme} : capture l.1 l.toMatch = l.2.2 := by
  simp [capture, Lexeme.toMatch, lookup]

theorem capture_toMatch_ne {l : Lexeme} {g : Grp} (h : g ≠ l.1) (hb : g ≠ .stringBody) :
    capture g l.toMatch = [] := by
  unfold capture Lexeme.toMatch
  split
  · simp [lookup, Ne.symm h, Ne.symm hb]
  · simp [lookup, Ne.symm h]

/-- One iteration of the tokenizer. -/
theorem tokenizeF_step (fuel : Nat) (input : Str) (loc : Loc) :
    tokenizeF (fuel + 1) input loc =
      match scan input with
      | none =>
        match input with
        | [] => [⟨.endOfInput, [], loc, loc⟩]
        | c :: _ => [⟨.unexpectedChar, [c], loc, { loc with col := loc.col + 1 }⟩]
      | some l =>
        let rest := input.drop l.2.1
        let cur := { loc with col := loc.col + l.2.1 }
        match l.1 with
        | .whitespace | .comment => tokenizeF fuel rest cur
        | .newline => tokenizeF fuel rest { loc with line := loc.line + 1, col := 0 }
        | .beginMultilineComment =>
          let (rest, cur) := swallowComment rest.length rest cur
          tokenizeF fuel rest cur
        | _ => tokenOf l (input.take l.2.1) loc cur :: tokenizeF fuel rest cur := by
  conv => lhs; unfold tokenizeF
  rw [scan_first]
  cases hs : scan input with
  | none => rfl
  | some l =>
    have hok := scan_ok hs
    have hlen := hok.len
    have hne := hok.text_ne
    have hcap : ∀ g, g ≠ .stringBody → (capture g l.toMatch ≠ [] ↔ g = l.1) := by
      intro g hg
      constructor
      · intro h
        by_cases he : g = l.1
        · exact he
        · exact absurd (capture_toMatch_ne he hg) h
      · rintro rfl
        rw [capture_toMatch_self]; exact hne
    have hself : capture l.1 l.toMatch = l.2.2 := capture_toMatch_self
    have hl : (input.take l.2.1).length = l.2.1 := by rw [List.length_take]; omega
    simp only [Option.map_some]
    have h1 : l.toMatch.1 = l.2.1 := rfl
    rw [h1, hl]
    simp only [hcap .whitespace (by simp), hcap .comment (by simp), hcap .newline (by simp),
      hcap .beginMultilineComment (by simp), hcap .keyword (by simp), hcap .id (by simp),
      hcap .binary (by simp), hcap .octary (by simp), hcap .hexadec (by simp), hcap .decimal (by simp),
      hcap .string (by simp)]
    generalize l.toMatch = m at *
    cases hok <;> dsimp only at hself ⊢ <;>
      simp only [reduceCtorEq, or_self, if_true, if_false, or_true, true_or, tokenOf, hself]

end P4C
