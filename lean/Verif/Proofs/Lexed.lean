import Verif.Proofs.Comment

/-
The scanner reads the tokens of the lexical specification.
-/

namespace P4C

open Spec

/-! ### Character classes -/

theorem isIdStart_iff {c : Char} : isIdStart c = true ↔ Letter c := by
  simp only [isIdStart, inRange, Letter, Bool.or_eq_true, Bool.and_eq_true, decide_eq_true_eq]
  rw [or_assoc]
  rfl

theorem isDec_iff {c : Char} : isDec c = true ↔ Digit c := by
  simp only [isDec, inRange, Digit, Bool.and_eq_true, decide_eq_true_eq]
  rfl

theorem isIdChar_iff {c : Char} : isIdChar c = true ↔ Letter c ∨ Digit c := by
  unfold isIdChar
  rw [Bool.or_eq_true, isIdStart_iff, ← isDec_iff]
  rfl

theorem isHex_iff {c : Char} : isHex c = true ↔ HexDigit c := by
  simp only [isHex, inRange, HexDigit, Digit, Bool.or_eq_true, Bool.and_eq_true, decide_eq_true_eq]
  rw [or_assoc]
  rfl

theorem isOct_iff {c : Char} : isOct c = true ↔ '0' ≤ c ∧ c ≤ '7' := by
  simp only [isOct, inRange, Bool.and_eq_true, decide_eq_true_eq]
  rfl

theorem isBin_iff {c : Char} : isBin c = true ↔ c = '0' ∨ c = '1' := by
  simp only [isBin, inRange, Bool.and_eq_true, decide_eq_true_eq]
  have h0 : '0'.toNat = 48 := rfl
  have h1 : '1'.toNat = 49 := rfl
  rw [h0, h1]
  constructor
  · intro h
    have : c.toNat = 48 ∨ c.toNat = 49 := by omega
    rcases this with h | h
    · left; exact Char.toNat_inj.1 (h.trans h0.symm)
    · right; exact Char.toNat_inj.1 (h.trans h1.symm)
  · rintro (rfl | rfl) <;> decide

/-! ### Keywords -/

theorem keyword_lexeme {k : Kind} {s : Str} (h : (k, s) ∈ keywords) :
    keywordToKind s = some k ∧ (s ∈ fixedLexemes ∨ ∃ c ∈ punctuation, s = [c]) := by
  have : ∀ p ∈ keywords, keywordToKind p.2 = some p.1 ∧
      (p.2 ∈ fixedLexemes ∨ ∃ c ∈ punctuation, p.2 = [c]) := by decide
  exact this _ h

theorem fixed_keyword {s : Str} (h : s ∈ fixedLexemes) :
    ∃ k, keywordToKind s = some k ∧ (k, s) ∈ keywords := by
  have : ∀ s ∈ fixedLexemes, ((keywordToKind s).map fun k => decide ((k, s) ∈ keywords)) = some true := by
    decide
  have := this s h
  rw [Option.map_eq_some_iff] at this
  obtain ⟨k, h1, h2⟩ := this
  exact ⟨k, h1, of_decide_eq_true h2⟩

theorem punct_keyword {c : Char} (h : c ∈ punctuation) :
    ∃ k, keywordToKind [c] = some k ∧ (k, [c]) ∈ keywords := by
  have : ∀ c ∈ punctuation,
      ((keywordToKind [c]).map fun k => decide ((k, [c]) ∈ keywords)) = some true := by decide
  have := this c h
  rw [Option.map_eq_some_iff] at this
  obtain ⟨k, h1, h2⟩ := this
  exact ⟨k, h1, of_decide_eq_true h2⟩

theorem keywordLen_fixed {s r : Str} (h : s ∈ fixedLexemes) : keywordLen (s ++ r) = some s.length := by
  simp only [fixedLexemes, List.mem_cons, List.not_mem_nil, or_false] at h
  rcases h with rfl | rfl | rfl | rfl | rfl | rfl | rfl | rfl | rfl | rfl <;> rfl

theorem keywordLen_some {s : Str} {n : Nat} (h : keywordLen s = some n) :
    (∃ l r, l ∈ fixedLexemes ∧ s = l ++ r ∧ n = l.length) ∨
    (∃ c r, c ∈ punctuation ∧ s = c :: r ∧ n = 1) := by
  unfold keywordLen at h
  rw [Option.or_eq_some_iff] at h
  rcases h with h | ⟨_, h⟩
  · rw [Option.map_eq_some_iff] at h
    obtain ⟨l, hl, rfl⟩ := h
    have hp := List.find?_some hl
    have hm := List.mem_of_find?_eq_some hl
    obtain ⟨t, rfl⟩ := List.isPrefixOf_iff_prefix.1 hp
    exact .inl ⟨l, t, hm, rfl, rfl⟩
  · split at h
    · split at h
      · cases h; exact .inr ⟨_, _, ‹_›, rfl, rfl⟩
      · cases h
    · cases h

theorem keywordLen_punct {c : Char} {r : Str} (h : c ∈ punctuation) :
    ∃ n, keywordLen (c :: r) = some n ∧ 1 ≤ n := by
  cases hk : keywordLen (c :: r) with
  | none =>
    unfold keywordLen at hk
    rw [Option.or_eq_none_iff] at hk
    have := hk.2
    simp [h] at this
  | some n =>
    refine ⟨n, rfl, ?_⟩
    rcases keywordLen_some hk with ⟨l, r, hl, _, rfl⟩ | ⟨_, _, _, _, rfl⟩
    · have : ∀ l ∈ fixedLexemes, 1 ≤ l.length := by decide
      exact this l hl
    · exact Nat.le_refl _

/-- First characters of keywords. -/
theorem keywordLen_none {c : Char} {r : Str} (h : c ∉ c!"tf&|-:=!><().;") : keywordLen (c :: r) = none := by
  cases hk : keywordLen (c :: r) with
  | none => rfl
  | some n =>
    exfalso
    rcases keywordLen_some hk with ⟨l, t, hl, he, rfl⟩ | ⟨d, t, hd, he, rfl⟩
    · have : ∀ l ∈ fixedLexemes, ∃ d ∈ c!"tf&|-:=!><().;", l.head? = some d := by decide
      obtain ⟨d, hd, hh⟩ := this l hl
      cases l with
      | nil => cases hh
      | cons e l =>
        simp only [List.head?_cons, Option.some.injEq] at hh
        subst hh
        simp only [List.cons_append, List.cons.injEq] at he
        rw [he.1] at h
        exact h hd
    · cases he
      have : ∀ d ∈ punctuation, d ∈ c!"tf&|-:=!><().;" := by decide
      exact h (this c hd)

/-- A keyword starting with a letter is `true` or `false`. -/
theorem keywordLen_letter {c : Char} {r : Str} {n : Nat} (hc : isIdStart c = true)
    (h : keywordLen (c :: r) = some n) : c!"true" <+: c :: r ∨ c!"false" <+: c :: r := by
  rcases keywordLen_some h with ⟨l, t, hl, he, rfl⟩ | ⟨d, t, hd, he, rfl⟩
  · have : ∀ l ∈ fixedLexemes, l = c!"true" ∨ l = c!"false" ∨
        ∃ d, l.head? = some d ∧ isIdStart d = false := by decide
    rcases this l hl with rfl | rfl | ⟨d, hd, hd'⟩
    · left; exact ⟨t, he.symm⟩
    · right; exact ⟨t, he.symm⟩
    · cases l with
      | nil => cases hd
      | cons e l =>
        simp only [List.head?_cons, Option.some.injEq] at hd
        subst hd
        simp only [List.cons_append, List.cons.injEq] at he
        rw [he.1, hd'] at hc
        cases hc
  · cases he
    have : ∀ d ∈ punctuation, isIdStart d = false := by decide
    rw [this c hd] at hc
    cases hc

/-! ### White space -/

theorem scanSpace_none {c : Char} {s : Str} (h : c ∉ c!" \t\r\n/") : scanSpace (c :: s) = none := by
  simp only [List.mem_cons, List.not_mem_nil, or_false, not_or] at h
  obtain ⟨h1, h2, h3, h4, h5⟩ := h
  unfold scanSpace
  rw [scanPlus_none (by simp [h1, h2])]
  have e1 : newlineLen (c :: s) = none := by
    unfold newlineLen
    split <;> first | rfl | (rename_i heq; cases heq; exact absurd rfl ‹_›)
  have e2 : scanComment (c :: s) = none := by
    unfold scanComment
    split <;> first | rfl | (rename_i heq; cases heq; exact absurd rfl ‹_›)
  rw [e1, e2]; rfl

theorem spells_head {k : Kind} {t l : Str} (h : Spells k t l) :
    ∃ c cs, l = c :: cs ∧ c ∉ c!" \t\r\n/" := by
  have hl : ∀ c, Letter c → c ∉ c!" \t\r\n/" := by
    intro c hc hm
    rw [← isIdStart_iff] at hc
    simp only [List.mem_cons, List.not_mem_nil, or_false] at hm
    rcases hm with rfl | rfl | rfl | rfl | rfl <;> revert hc <;> decide
  have hd : ∀ c, Digit c → c ∉ c!" \t\r\n/" := by
    intro c hc hm
    rw [← isDec_iff] at hc
    simp only [List.mem_cons, List.not_mem_nil, or_false] at hm
    rcases hm with rfl | rfl | rfl | rfl | rfl <;> revert hc <;> decide
  cases h with
  | keyword hk =>
    have : ∀ p ∈ keywords, ∃ c, p.2.head? = some c ∧ c ∉ c!" \t\r\n/" := by decide
    obtain ⟨c, hc, hc'⟩ := this _ hk
    cases t with
    | nil => cases hc
    | cons d l =>
      simp only [List.head?_cons, Option.some.injEq] at hc
      exact ⟨d, l, rfl, hc ▸ hc'⟩
  | id hc _ => exact ⟨_, _, rfl, hl _ hc⟩
  | binary | octary | hexadec | decimalD => exact ⟨_, _, rfl, by decide⟩
  | decimal hne hd' =>
    cases t with
    | nil => exact absurd rfl hne
    | cons c l => exact ⟨c, l, rfl, hd c (hd' c (List.mem_cons_self ..))⟩
  | string => exact ⟨_, _, rfl, by decide⟩

theorem scan_token {c : Char} {s : Str} (h : c ∉ c!" \t\r\n/") : scan (c :: s) = scanToken (c :: s) := by
  unfold scan; rw [scanSpace_none h]; rfl

/-! ### Tokens -/

theorem takeWhile_ge {p : Char → Bool} {a b : Str} (h : ∀ c ∈ a, p c = true) :
    a.length ≤ ((a ++ b).takeWhile p).length := by
  rw [List.takeWhile_append_of_pos h]; simp

theorem scanPlus_ge {g : Grp} {p : Char → Bool} {a b : Str} (hne : a ≠ []) (h : ∀ c ∈ a, p c = true) :
    ∃ n t, scanPlus g p (a ++ b) = some (g, n, t) ∧ a.length ≤ n := by
  have := takeWhile_ge (b := b) h
  unfold scanPlus
  rw [if_neg]
  · exact ⟨_, _, rfl, this⟩
  · intro he
    rw [he] at this
    have h0 := List.length_pos_iff.2 hne
    rw [List.length_nil] at this
    omega

theorem scanNum_ge {g : Grp} {pre : Str} {p : Char → Bool} {x : Char} {a b : Str} (hx : x ∈ pre)
    (hne : a ≠ []) (h : ∀ c ∈ a, p c = true) :
    ∃ n t, scanNum g pre p ('0' :: x :: (a ++ b)) = some (g, n, t) ∧ a.length + 2 ≤ n := by
  obtain ⟨n, t, h1, h2⟩ := scanPlus_ge (g := g) (b := b) hne h
  refine ⟨n + 2, t, ?_, by omega⟩
  unfold scanNum
  simp [hx, h1]

theorem scanId_none {c : Char} {s : Str} (h : isIdStart c = false) : scanId (c :: s) = none := by
  simp [scanId, h]

theorem digit_not_keyword {c : Char} (h : isDec c = true) : c ∉ c!"tf&|-:=!><().;" ∧ isIdStart c = false := by
  constructor
  · intro hm
    simp only [List.mem_cons, List.not_mem_nil, or_false] at hm
    rcases hm with rfl | rfl | rfl | rfl | rfl | rfl | rfl | rfl | rfl | rfl | rfl | rfl | rfl | rfl <;>
      revert h <;> decide
  · simp only [isDec, inRange, Bool.and_eq_true, decide_eq_true_eq] at h
    have h0 : '0'.toNat = 48 := rfl
    have h9 : '9'.toNat = 57 := rfl
    cases hs : isIdStart c with
    | false => rfl
    | true =>
      exfalso
      simp only [isIdStart, inRange, Bool.or_eq_true, Bool.and_eq_true, decide_eq_true_eq] at hs
      have ha : 'a'.toNat = 97 := rfl
      have hA : 'A'.toNat = 65 := rfl
      rcases hs with (rfl | hs) | hs
      · revert h; decide
      · omega
      · omega

/-- Claim A: if a token can be read, the scanner reads one at least as long, or `true` or `false`. -/
theorem scan_spells {k : Kind} {t l r : Str} (h : Spells k t l) :
    ∃ L, scan (l ++ r) = some L ∧
      (l.length ≤ L.2.1 ∨ c!"true" <+: l ++ r ∨ c!"false" <+: l ++ r) := by
  obtain ⟨c, cs, rfl, hc⟩ := spells_head h
  rw [List.cons_append, scan_token hc]
  cases h with
  | keyword hk =>
    rcases (keyword_lexeme hk).2 with hf | ⟨d, hd, he⟩
    · have := keywordLen_fixed (r := r) hf
      unfold scanToken
      rw [List.cons_append] at this
      rw [this]
      exact ⟨_, rfl, .inl (Nat.le_refl _)⟩
    · cases he
      obtain ⟨n, h1, h2⟩ := keywordLen_punct (r := [] ++ r) hd
      unfold scanToken
      rw [h1]
      exact ⟨_, rfl, .inl h2⟩
  | id hl hs =>
    have hl' := isIdStart_iff.2 hl
    cases hk : keywordLen (c :: (cs ++ r)) with
    | some n =>
      refine ⟨(.keyword, n, (c :: (cs ++ r)).take n), ?_, .inr (keywordLen_letter hl' hk)⟩
      unfold scanToken
      rw [hk]; rfl
    | none =>
      refine ⟨(.id, ((cs ++ r).takeWhile isIdChar).length + 1, c :: (cs ++ r).takeWhile isIdChar), ?_, .inl ?_⟩
      · unfold scanToken
        rw [hk]
        simp [scanId, hl']
      · have := takeWhile_ge (p := isIdChar) (a := cs) (b := r) fun d hd => isIdChar_iff.2 (hs d hd)
        simpa using this
  | @binary b s hb hne hs =>
    obtain ⟨n, t, h1, h2⟩ := scanNum_ge (g := .binary) (pre := c!"bB") (x := b) (b := r)
      (by rcases hb with rfl | rfl <;> decide) hne fun d hd => isBin_iff.2 (hs d hd)
    refine ⟨(.binary, n, t), ?_, .inl (by simpa using h2)⟩
    unfold scanToken
    rw [keywordLen_none (by decide), scanId_none (by decide), List.cons_append, h1]
    rfl
  | @octary b s hb hne hs =>
    obtain ⟨n, t, h1, h2⟩ := scanNum_ge (g := .octary) (pre := c!"oO") (x := b) (b := r)
      (by rcases hb with rfl | rfl <;> decide) hne fun d hd => isOct_iff.2 (hs d hd)
    refine ⟨(.octary, n, t), ?_, .inl (by simpa using h2)⟩
    unfold scanToken
    rw [keywordLen_none (by decide), scanId_none (by decide), List.cons_append,
      scanNum_none' (by rcases hb with rfl | rfl <;> decide), h1]
    rfl
  | @hexadec b s hb hne hs =>
    obtain ⟨n, t, h1, h2⟩ := scanNum_ge (g := .hexadec) (pre := c!"xX") (x := b) (b := r)
      (by rcases hb with rfl | rfl <;> decide) hne fun d hd => isHex_iff.2 (hs d hd)
    refine ⟨(.hexadec, n, t), ?_, .inl (by simpa using h2)⟩
    unfold scanToken
    rw [keywordLen_none (by decide), scanId_none (by decide), List.cons_append,
      scanNum_none' (by rcases hb with rfl | rfl <;> decide),
      scanNum_none' (by rcases hb with rfl | rfl <;> decide), h1]
    rfl
  | @decimalD b s hb hne hs =>
    obtain ⟨n, t, h1, h2⟩ := scanNum_ge (g := .decimal) (pre := c!"dD") (x := b) (b := r)
      (by rcases hb with rfl | rfl <;> decide) hne fun d hd => isDec_iff.2 (hs d hd)
    refine ⟨(.decimal, n, t), ?_, .inl (by simpa using h2)⟩
    unfold scanToken
    rw [keywordLen_none (by decide), scanId_none (by decide), List.cons_append,
      scanNum_none' (by rcases hb with rfl | rfl <;> decide),
      scanNum_none' (by rcases hb with rfl | rfl <;> decide),
      scanNum_none' (by rcases hb with rfl | rfl <;> decide), h1]
    rfl
  | decimal hne hs =>
    have hd := isDec_iff.2 (hs c (List.mem_cons_self ..))
    obtain ⟨hk, hi⟩ := digit_not_keyword hd
    obtain ⟨n, t, h1, h2⟩ := scanPlus_ge (g := .decimal) (b := r) hne fun d hd => isDec_iff.2 (hs d hd)
    -- a numeral with a prefix
    have hnum : ∀ (g : Grp) (pre : Str) (p : Char → Bool) (L : Lexeme),
        (∀ x ∈ pre, isDec x = false) → scanNum g pre p (c :: (cs ++ r)) = some L → cs.length + 1 ≤ L.2.1 := by
      intro g pre p L hpre hL
      obtain ⟨x, a, b, he, hx, ha, _, _, rfl⟩ := scanNum_some hL
      simp only [List.cons.injEq] at he
      cases cs with
      | nil => simp
      | cons d cs =>
        simp only [List.cons_append, List.cons.injEq] at he
        have := isDec_iff.2 (hs d (by simp))
        rw [he.2.1, hpre x hx] at this
        cases this
    unfold scanToken
    rw [keywordLen_none hk, scanId_none hi]
    rw [List.cons_append] at h1
    simp only [Option.map_none, Option.none_or]
    cases e1 : scanNum .binary c!"bB" isBin (c :: (cs ++ r)) with
    | some L => exact ⟨L, rfl, .inl (by simpa using hnum _ _ _ _ (by decide) e1)⟩
    | none =>
      cases e2 : scanNum .octary c!"oO" isOct (c :: (cs ++ r)) with
      | some L => exact ⟨L, rfl, .inl (by simpa using hnum _ _ _ _ (by decide) e2)⟩
      | none =>
        cases e3 : scanNum .hexadec c!"xX" isHex (c :: (cs ++ r)) with
        | some L => exact ⟨L, rfl, .inl (by simpa using hnum _ _ _ _ (by decide) e3)⟩
        | none =>
          cases e4 : scanNum .decimal c!"dD" isDec (c :: (cs ++ r)) with
          | some L => exact ⟨L, rfl, .inl (by simpa using hnum _ _ _ _ (by decide) e4)⟩
          | none => exact ⟨_, by rw [h1]; rfl, .inl (by simpa using h2)⟩
  | string hr hq =>
    have hn : (Re.noneOf ['\'']).Neg := noneOf_neg rfl
    obtain ⟨a, b, he, hmu, ha, ham, hb⟩ := hn.munch_iff (s := t ++ ('\'' :: r)) (Nat.le_refl _)
    have hstop : (Re.noneOf ['\'']).len ('\'' :: r) = none := hn.len_cons_none (by rfl)
    have hsm : ∀ c ∈ t, (Re.noneOf ['\'']).mem c = false := by
      intro c hc
      have : c ≠ '\'' := by rintro rfl; exact hq hc
      simp [Re.noneOf, this]
    obtain ⟨h1, h2⟩ := Runes.stop_unique hn hr ha hsm ham he hstop hb
    rw [← h1] at hmu
    rw [← h2] at he
    refine ⟨(.string, t.length + 2, ('\'' :: (t ++ '\'' :: r)).take (t.length + 2)), ?_, .inl (by simp)⟩
    unfold scanToken
    rw [keywordLen_none (by decide), scanId_none (by decide), scanNum_none (by decide),
      scanNum_none (by decide), scanNum_none (by decide), scanNum_none (by decide),
      scanPlus_none (by decide)]
    simp only [Option.map_none, Option.none_or, List.append_assoc, List.cons_append, List.nil_append]
    show (if ['\''].isPrefixOf ((t ++ '\'' :: r).drop (munch (Re.noneOf ['\'']) (t ++ '\'' :: r).length (t ++ '\'' :: r)))
      then some (Grp.string, munch (Re.noneOf ['\'']) (t ++ '\'' :: r).length (t ++ '\'' :: r) + 2, _) else none) = _
    rw [hmu, List.drop_left]
    rfl

/-- Claim B: a lexeme scanned that is no white space or comment spells a token. -/
theorem scan_tokenOf {s : Str} {L : Lexeme} (h : scan s = some L)
    (hg : L.1 ≠ .whitespace ∧ L.1 ≠ .newline ∧ L.1 ≠ .comment ∧ L.1 ≠ .beginMultilineComment) :
    ∃ k text lexeme rest, s = lexeme ++ rest ∧ lexeme.length = L.2.1 ∧ Spells k text lexeme ∧
      ∀ a b, tokenOf L lexeme a b = ⟨k, text, a, b⟩ := by
  have hok := scan_ok h
  cases hok with
  | whitespace => simp at hg
  | crlf => simp at hg
  | cr => simp at hg
  | lf => simp at hg
  | comment => simp at hg
  | block => simp at hg
  | fixed hm =>
    obtain ⟨k, h1, h2⟩ := fixed_keyword hm
    exact ⟨k, _, _, _, rfl, rfl, .keyword h2, by intro a b; simp [tokenOf, h1]⟩
  | @punct c b hm =>
    obtain ⟨k, h1, h2⟩ := punct_keyword hm
    exact ⟨k, _, [c], b, rfl, rfl, .keyword h2, by intro a b; simp [tokenOf, h1]⟩
  | @id c a b hc ha =>
    exact ⟨_, _, c :: a, b, rfl, rfl, .id (isIdStart_iff.1 hc) fun d hd => isIdChar_iff.1 (ha d hd),
      fun _ _ => rfl⟩
  | @binary x a b hx hne ha =>
    exact ⟨_, _, '0' :: x :: a, b, rfl, rfl, .binary (by simpa using hx) hne fun d hd => isBin_iff.1 (ha d hd),
      fun _ _ => rfl⟩
  | @octary x a b hx hne ha =>
    exact ⟨_, _, '0' :: x :: a, b, rfl, rfl, .octary (by simpa using hx) hne fun d hd => isOct_iff.1 (ha d hd),
      fun _ _ => rfl⟩
  | @hexadec x a b hx hne ha =>
    exact ⟨_, _, '0' :: x :: a, b, rfl, rfl, .hexadec (by simpa using hx) hne fun d hd => isHex_iff.1 (ha d hd),
      fun _ _ => rfl⟩
  | @decimalD x a b hx hne ha =>
    exact ⟨_, _, '0' :: x :: a, b, rfl, rfl, .decimalD (by simpa using hx) hne fun d hd => isDec_iff.1 (ha d hd),
      fun _ _ => rfl⟩
  | @decimal a b hne ha =>
    exact ⟨_, _, a, b, rfl, rfl, .decimal hne fun d hd => isDec_iff.1 (ha d hd), fun _ _ => rfl⟩
  | @string a b hr ha =>
    refine ⟨_, a, '\'' :: (a ++ ['\'']), b, by simp, by simp, .string hr (fun hq => ha _ hq rfl), ?_⟩
    intro x y
    simp [tokenOf]

theorem spells_kind {k : Kind} {t l : Str} (h : Spells k t l) :
    (k = .true_ → l = c!"true") ∧ (k = .false_ → l = c!"false") := by
  cases h with
  | keyword hk =>
    have : ∀ p ∈ keywords, (p.1 = .true_ → p.2 = c!"true") ∧ (p.1 = .false_ → p.2 = c!"false") := by decide
    exact this _ hk
  | _ => simp

theorem chosen_of_scan {k : Kind} {t l r : Str} {L : Lexeme} (hs : scan (l ++ r) = some L)
    (hlen : l.length = L.2.1) (hsp : Spells k t l)
    (ht : ∀ a b, tokenOf L l a b = ⟨k, t, a, b⟩) : Chosen (l ++ r) k l := by
  have htrue : c!"true" <+: l ++ r → k = .true_ := by
    rintro ⟨u, hu⟩
    have : scan (l ++ r) = some (.keyword, 4, c!"true") := by rw [← hu]; rfl
    rw [this] at hs; cases hs
    have hl : l = c!"true" := by
      have h1 := List.append_inj hu.symm (by rw [hlen]; rfl)
      exact h1.1
    subst hl
    have := ht {} {}
    injection this with h1 _ _ _
    exact h1.symm
  have hfalse : c!"false" <+: l ++ r → k = .false_ := by
    rintro ⟨u, hu⟩
    have : scan (l ++ r) = some (.keyword, 5, c!"false") := by rw [← hu]; rfl
    rw [this] at hs; cases hs
    have hl : l = c!"false" := by
      have h1 := List.append_inj hu.symm (by rw [hlen]; rfl)
      exact h1.1
    subst hl
    have := ht {} {}
    injection this with h1 _ _ _
    exact h1.symm
  refine ⟨htrue, hfalse, ?_⟩
  intro hk1 hk2 k' t' l' hsp' ⟨u, hu⟩
  obtain ⟨L', hL', hor⟩ := scan_spells (r := u) hsp'
  rw [hu, hs] at hL'
  cases hL'
  rw [hu] at hor
  rcases hor with h | h | h
  · omega
  · exact absurd (htrue h) hk1
  · exact absurd (hfalse h) hk2

theorem unlexable_of_scan {s : Str} (hs : scan s = none) : Unlexable s := by
  constructor
  · intro k t l hsp ⟨u, hu⟩
    obtain ⟨L, hL, _⟩ := scan_spells (r := u) hsp
    rw [hu, hs] at hL
    cases hL
  · intro c hc ⟨u, hu⟩
    simp only [List.cons_append, List.nil_append] at hu
    subst hu
    simp only [List.mem_cons, List.not_mem_nil, or_false] at hc
    have key : scanSpace (c :: u) ≠ none := by
      intro hn
      unfold scanSpace at hn
      rw [Option.or_eq_none_iff, Option.or_eq_none_iff] at hn
      rcases hc with rfl | rfl | rfl | rfl
      · have := hn.1; simp [scanPlus] at this
      · have := hn.1; simp [scanPlus] at this
      · have := hn.2.1
        rw [Option.map_eq_none_iff] at this
        unfold newlineLen at this
        split at this <;> first | cases this | skip
        rename_i h1 h2 h3
        exact h2 u rfl
      · have := hn.2.1; simp [newlineLen] at this
    unfold scan at hs
    rw [Option.or_eq_none_iff] at hs
    exact key hs.1
  · unfold scan scanSpace at hs
    rw [Option.or_eq_none_iff, Option.or_eq_none_iff, Option.or_eq_none_iff] at hs
    have hcm := hs.1.2.2
    constructor
    · rintro ⟨u, rfl⟩; simp [scanComment] at hcm
    · rintro ⟨u, rfl⟩; simp [scanComment] at hcm

/-! ### The tokenizer -/

theorem lexed_blanks {a b : Str} {l : Loc} {ts : List Token} (ha : ∀ c ∈ a, c = ' ' ∨ c = '\t')
    (h : Lexed (shift l a.length) b ts) : Lexed l (a ++ b) ts := by
  induction a generalizing l with
  | nil => simpa [shift] using h
  | cons c a ih =>
    refine .blank (ha c (List.mem_cons_self ..)) (ih (fun d hd => ha d (List.mem_cons_of_mem _ hd)) ?_)
    rw [shift_shift]
    rwa [List.length_cons, Nat.add_comm] at h

theorem tokenizeF_lexed {fuel : Nat} {s : Str} {l : Loc} (hf : s.length < fuel) :
    Lexed l s (tokenizeF fuel s l) := by
  induction fuel generalizing s l with
  | zero => omega
  | succ fuel ih =>
    rw [tokenizeF_step]
    cases hs : scan s with
    | none =>
      cases s with
      | nil => exact .eof
      | cons c s => exact .bad (unlexable_of_scan hs)
    | some L =>
      have hok := scan_ok hs
      have hlen := hok.len
      by_cases hg : L.1 ≠ .whitespace ∧ L.1 ≠ .newline ∧ L.1 ≠ .comment ∧ L.1 ≠ .beginMultilineComment
      · obtain ⟨k, text, lexeme, rest, rfl, hl, hsp, ht⟩ := scan_tokenOf hs hg
        have hch := chosen_of_scan hs hl hsp ht
        have key : Lexed l (lexeme ++ rest) (tokenOf L ((lexeme ++ rest).take L.2.1) l
            { l with col := l.col + L.2.1 } :: tokenizeF fuel ((lexeme ++ rest).drop L.2.1)
            { l with col := l.col + L.2.1 }) := by
          rw [← hl, List.take_left, List.drop_left, ht]
          refine .tok hsp hch (ih ?_)
          rw [List.length_append] at hlen hf
          omega
        obtain ⟨g, n, t⟩ := L
        cases g <;> first | exact key | simp at hg
      · cases hok with
        | @whitespace a b hne ha =>
          refine lexed_blanks ha ?_
          dsimp only
          rw [List.drop_left]
          refine ih ?_
          have := List.length_pos_iff.2 hne
          rw [List.length_append] at hf; omega
        | @crlf b => exact .crlf (ih (by simp at hf; show b.length < fuel; omega))
        | @cr b hb => exact .cr hb (ih (by simp at hf; show b.length < fuel; omega))
        | @lf b => exact .lf (ih (by simp at hf; show b.length < fuel; omega))
        | @comment a b hr ha hb =>
          dsimp only
          have hd : ('/' :: '/' :: (a ++ b)).drop (a.length + 2) = b := by
            simp only [List.drop_succ_cons, List.drop_left]
          rw [hd]
          refine .line hr ha ?_ (ih ?_)
          · have hn : (Re.noneOf c!"\r\n").Neg := noneOf_neg rfl
            rw [hn.len_none_iff] at hb
            by_cases hno : NoRune b
            · exact .inl hno
            · right
              apply Classical.byContradiction
              intro hne
              apply hno
              intro r t hr he
              obtain ⟨c, hc, hm⟩ := hb r t he hr
              rcases Rune.cases' hr with ⟨d, rfl, _⟩ | h80
              · simp at hc; subst hc
                simp [Re.noneOf] at hm
                exact hne ⟨t, by rcases hm with rfl | rfl <;> simp [he]⟩
              · have := h80 c hc
                have := hn.ascii c hm
                omega
          · simp at hf; omega
        | @block b =>
          dsimp only
          have hd : ('/' :: '*' :: b).drop 2 = b := rfl
          rw [hd]
          have hspec := swallow_spec (s := b) (l := { l with col := l.col + (2 : Nat) }) (Nat.le_refl _)
          have hadv : ∀ x, advance l ('/' :: '*' :: x) = advance { l with col := l.col + (2 : Nat) } x := by
            intro x
            have := advance_append (l := l) (a := c!"/*") (b := x)
              (.inl (by rintro ⟨x, hx⟩; rcases x with _ | ⟨_, _ | ⟨_, _⟩⟩ <;> simp at hx))
            rw [advance_plain (l := l) (a := c!"/*") (by decide)] at this
            exact this
          generalize hsw : swallowComment b.length b { l with col := l.col + (2 : Nat) } = res at hspec ⊢
          obtain ⟨rest, loc'⟩ := res
          dsimp only at hspec ⊢
          have hin : Lexed loc' rest (tokenizeF fuel rest loc') := by
            refine ih ?_
            cases hspec with
            | closed he => rw [he] at hf; simp at hf; omega
            | opened he => rw [he] at hf; simp at hf; omega
          cases hspec with
          | @closed a he ha hi =>
            subst he
            rw [← hadv] at hin ⊢
            have := Lexed.block (l := l) ha hi hin
            simpa using this
          | @opened a he ha hi hn =>
            subst he
            rw [← hadv] at hin ⊢
            have := Lexed.openBlock (l := l) ha hi hn hin
            simpa using this
        | _ => simp at hg

theorem tokenize_lexed (src : ConstraintSource) : Lexed src.loc src.str (tokenize src) :=
  tokenizeF_lexed (Nat.lt_succ_self _)

end P4C
