import Verif.Proofs.Regex
import Verif.Model.Lexer

/-
The token pattern as a direct scanner.
-/

namespace P4C

/-! ### Negated classes -/

/-- A negated class excluding ASCII characters only. -/
structure Cls.Neg (k : Cls) : Prop where
  neg : k.neg = true
  ascii : ∀ c, k.mem c = true → c.toNat < 0x80

theorem noneOf_neg {cs : Str} (h : cs.all (fun c => c.toNat < 0x80) = true) : (Re.noneOf cs).Neg := by
  refine ⟨rfl, ?_⟩
  intro c hc
  simp only [Re.noneOf, List.contains_iff_mem] at hc
  simp only [List.all_eq_true, decide_eq_true_eq] at h
  exact h c hc

theorem isCont_ge {c : Char} (h : isCont c = true) : 0x80 ≤ c.toNat := by
  simp only [isCont, Bool.and_eq_true, decide_eq_true_eq] at h
  omega

theorem multiByteLen_cons (c : Char) (cs : Str) : multiByteLen (c :: cs) =
    if 0xC2 ≤ c.toNat && c.toNat ≤ 0xDF then
      (match cs with | c1 :: _ => if isCont c1 then some 2 else none | _ => none)
    else if 0xE0 ≤ c.toNat && c.toNat ≤ 0xEF then
      (match cs with | c1 :: c2 :: _ => if isCont c1 && isCont c2 then some 3 else none | _ => none)
    else if 0xF0 ≤ c.toNat && c.toNat ≤ 0xF4 then
      (match cs with
       | c1 :: c2 :: c3 :: _ => if isCont c1 && isCont c2 && isCont c3 then some 4 else none
       | _ => none)
    else none := rfl

theorem multiByteLen_some {s : Str} {n : Nat} (h : multiByteLen s = some n) :
    0 < n ∧ n ≤ s.length ∧ ∀ c ∈ s.take n, 0x80 ≤ c.toNat := by
  cases s with
  | nil => simp [multiByteLen] at h
  | cons c cs =>
    rw [multiByteLen_cons] at h
    split at h
    · rename_i hc
      simp only [Bool.and_eq_true, decide_eq_true_eq] at hc
      split at h
      · split at h
        · rename_i h1
          cases h
          have := isCont_ge h1
          simp only [List.length_cons, List.take_succ_cons, List.take_zero, List.mem_cons,
            List.not_mem_nil, or_false]
          refine ⟨by omega, by omega, ?_⟩
          rintro d (rfl | rfl) <;> omega
        · cases h
      · cases h
    · split at h
      · rename_i hc
        simp only [Bool.and_eq_true, decide_eq_true_eq] at hc
        split at h
        · split at h
          · rename_i h1
            simp only [Bool.and_eq_true] at h1
            cases h
            have := isCont_ge h1.1
            have := isCont_ge h1.2
            simp only [List.length_cons, List.take_succ_cons, List.take_zero, List.mem_cons,
              List.not_mem_nil, or_false]
            refine ⟨by omega, by omega, ?_⟩
            rintro d (rfl | rfl | rfl) <;> omega
          · cases h
        · cases h
      · split at h
        · rename_i hc
          simp only [Bool.and_eq_true, decide_eq_true_eq] at hc
          split at h
          · split at h
            · rename_i h1
              simp only [Bool.and_eq_true] at h1
              cases h
              have := isCont_ge h1.1.1
              have := isCont_ge h1.1.2
              have := isCont_ge h1.2
              simp only [List.length_cons, List.take_succ_cons, List.take_zero, List.mem_cons,
                List.not_mem_nil, or_false]
              refine ⟨by omega, by omega, ?_⟩
              rintro d (rfl | rfl | rfl | rfl) <;> omega
            · cases h
          · cases h
        · cases h

theorem Cls.len_cons (k : Cls) (c : Char) (cs : Str) : k.len (c :: cs) =
    if c.toNat < 0x80 then (if k.mem c != k.neg then some 1 else none)
    else if k.neg then multiByteLen (c :: cs) else none := rfl

theorem Cls.Neg.len_some {k : Cls} (h : k.Neg) {s : Str} {n : Nat} (hl : k.len s = some n) :
    0 < n ∧ n ≤ s.length ∧ ∀ c ∈ s.take n, k.mem c = false := by
  cases s with
  | nil => simp [Cls.len] at hl
  | cons c cs =>
    rw [Cls.len_cons, h.neg] at hl
    split at hl
    · split at hl
      · rename_i hc
        cases hl
        simpa using hc
      · cases hl
    · simp only [if_true] at hl
      obtain ⟨h1, h2, h3⟩ := multiByteLen_some hl
      refine ⟨h1, h2, ?_⟩
      intro d hd
      have := h3 d hd
      cases hm : k.mem d with
      | false => rfl
      | true => have := h.ascii d hm; omega

theorem Cls.Neg.len_cons_none {k : Cls} (h : k.Neg) {c : Char} {cs : Str} (hc : k.mem c = true) :
    k.len (c :: cs) = none := by
  unfold Cls.len
  simp [h.ascii c hc, hc, h.neg]

theorem starLens_sub {k : Cls} {fuel : Nat} {s : Str} {m : Nat}
    (hm : m ∈ starLens k fuel s) : m = munch k fuel s ∨ ∃ n, k.len (s.drop m) = some n := by
  induction fuel generalizing s m with
  | zero => simp [starLens] at hm; simp [munch, hm]
  | succ fuel ih =>
    unfold starLens at hm
    unfold munch
    cases hl : k.len s with
    | none => simp [hl] at hm; simp [hm]
    | some n =>
      rw [hl] at hm
      simp only [List.mem_append, List.mem_map, List.mem_singleton] at hm
      rcases hm with ⟨m', hm', rfl⟩ | rfl
      · rcases ih hm' with he | ⟨n', hn'⟩
        · left; simp [he]
        · right; exact ⟨n', by rw [← List.drop_drop]; exact hn'⟩
      · right; exact ⟨n, by simpa using hl⟩

/-- `[^q]*q` with a closing quote `q`. -/
theorem first_body (g : Grp) {q : Char} (hq : q.toNat < 0x80) (s : Str) :
    (Re.seq (.grp g (.star (Re.noneOf [q]))) (.lit [q])).first s =
      (if [q].isPrefixOf (s.drop (munch (Re.noneOf [q]) s.length s)) then
        some (munch (Re.noneOf [q]) s.length s + 1,
          [(g, s.take (munch (Re.noneOf [q]) s.length s))]) else none) := by
  have hasc : [q].all (fun c => c.toNat < 0x80) = true := by simp [hq]
  have hn : (Re.noneOf [q]).Neg := noneOf_neg hasc
  unfold Re.first
  rw [Re.matches, Re.matches, Re.matches]
  obtain ⟨tl, htl⟩ := starLens_head (Re.noneOf [q]) s.length s
  have hlit : ∀ s, (Re.lit [q]).matches s = if [q].isPrefixOf s then [(1, [])] else [] := by
    intro s
    rw [(det_lit [q]).eq, first_lit hasc]
    split <;> rfl
  by_cases hp : [q].isPrefixOf (s.drop (munch (Re.noneOf [q]) s.length s)) = true
  · rw [htl]
    simp only [List.map_cons, List.flatMap_cons, hlit, hp, if_true]
    simp
  · rw [if_neg hp]
    simp only [List.map_map, List.flatMap_map, hlit, Function.comp_def]
    rw [List.head?_eq_none_iff, List.flatMap_eq_nil_iff]
    intro m hm
    rcases starLens_sub hm with rfl | ⟨n, hlen⟩
    · simp [hp]
    · have : [q].isPrefixOf (s.drop m) = false := by
        cases hd : s.drop m with
        | nil => rfl
        | cons d ds =>
          simp only [List.isPrefixOf, Bool.and_true]
          cases hqd : (q == d) with
          | false => rfl
          | true =>
            have : q = d := by simpa using hqd
            subst this
            rw [hd, hn.len_cons_none (by simp [Re.noneOf])] at hlen
            cases hlen
      simp [this]

/-! ### The scanner -/

/-- Fixed lexemes, in order of preference. -/
def fixedLexemes : List Str :=
  [c!"true", c!"false", c!"&&", c!"||", c!"->", c!"::", c!"==", c!"!=", c!">=", c!"<="]

/-- One-character lexemes. -/
def punctuation : Str := c!"!()><.;-"

/-- Length of the keyword at the start. -/
def keywordLen (s : Str) : Option Nat :=
  ((fixedLexemes.find? (·.isPrefixOf s)).map List.length).or
    (match s with
     | c :: _ => if c ∈ punctuation then some 1 else none
     | [] => none)

/-- Length of the line break at the start. -/
def newlineLen : Str → Option Nat
  | '\r' :: '\n' :: _ => some 2
  | '\r' :: _ => some 1
  | '\n' :: _ => some 1
  | _ => none

/-- A lexeme: its kind, length and relevant text. -/
abbrev Lexeme := Grp × Nat × Str

/-- The longest non-empty prefix in a class. -/
def scanPlus (g : Grp) (p : Char → Bool) (s : Str) : Option Lexeme :=
  if s.takeWhile p = [] then none else some (g, (s.takeWhile p).length, s.takeWhile p)

/-- A numeral with base prefix. -/
def scanNum (g : Grp) (pre : Str) (p : Char → Bool) : Str → Option Lexeme
  | '0' :: b :: s =>
    if b ∈ pre then (scanPlus g p s).map fun l => (l.1, l.2.1 + 2, l.2.2) else none
  | _ => none

/-- The beginning of a comment. -/
def scanComment : Str → Option Lexeme
  | '/' :: '/' :: r =>
    let n := munch (Re.noneOf c!"\r\n") r.length r + 2
    some (.comment, n, ('/' :: '/' :: r).take n)
  | '/' :: '*' :: _ => some (.beginMultilineComment, 2, c!"/*")
  | _ => none

/-- A string literal. -/
def scanString : Str → Option Lexeme
  | '\'' :: r =>
    let n := munch (Re.noneOf ['\'']) r.length r
    if ['\''].isPrefixOf (r.drop n) then some (.string, n + 2, ('\'' :: r).take (n + 2)) else none
  | _ => none

/-- An identifier. -/
def scanId : Str → Option Lexeme
  | c :: cs =>
    if isIdStart c then some (.id, (cs.takeWhile isIdChar).length + 1, c :: cs.takeWhile isIdChar) else none
  | [] => none

/-- White space, line breaks and the beginning of comments. -/
def scanSpace (s : Str) : Option Lexeme :=
  (scanPlus .whitespace (fun c => c = ' ' || c = '\t') s).or <|
  ((newlineLen s).map fun n => (.newline, n, s.take n)).or (scanComment s)

/-- Keywords, identifiers, numerals and strings. -/
def scanToken (s : Str) : Option Lexeme :=
  ((keywordLen s).map fun n => (.keyword, n, s.take n)).or <|
  (scanId s).or <|
  (scanNum .binary c!"bB" isBin s).or <|
  (scanNum .octary c!"oO" isOct s).or <|
  (scanNum .hexadec c!"xX" isHex s).or <|
  ((scanNum .decimal c!"dD" isDec s).or (scanPlus .decimal isDec s)).or <|
  scanString s

/-- The lexeme at the start. -/
def scan (s : Str) : Option Lexeme := (scanSpace s).or (scanToken s)

/-- The match reported for a lexeme. -/
def Lexeme.toMatch (l : Lexeme) : Match :=
  (l.2.1, (l.1, l.2.2) :: (if l.1 = .string then [(.stringBody, (l.2.2.drop 1).take (l.2.1 - 2))] else []))

theorem ascii_isBin : Cls.Ascii ⟨false, isBin⟩ := by
  refine ⟨rfl, ?_⟩
  intro c hc
  simp only [isBin, inRange, Bool.and_eq_true, decide_eq_true_eq] at hc
  have : '1'.toNat = 49 := rfl
  omega
theorem ascii_isOct : Cls.Ascii ⟨false, isOct⟩ := by
  refine ⟨rfl, ?_⟩
  intro c hc
  simp only [isOct, inRange, Bool.and_eq_true, decide_eq_true_eq] at hc
  have : '7'.toNat = 55 := rfl
  omega
theorem ascii_isDec : Cls.Ascii ⟨false, isDec⟩ := by
  refine ⟨rfl, ?_⟩
  intro c hc
  simp only [isDec, inRange, Bool.and_eq_true, decide_eq_true_eq] at hc
  have : '9'.toNat = 57 := rfl
  omega
theorem ascii_isHex : Cls.Ascii ⟨false, isHex⟩ := by
  refine ⟨rfl, ?_⟩
  intro c hc
  simp only [isHex, inRange, Bool.and_eq_true, Bool.or_eq_true, decide_eq_true_eq] at hc
  have : '9'.toNat = 57 := rfl
  have : 'f'.toNat = 102 := rfl
  have : 'F'.toNat = 70 := rfl
  omega
theorem ascii_isIdStart : Cls.Ascii ⟨false, isIdStart⟩ := by
  refine ⟨rfl, ?_⟩
  intro c hc
  simp only [isIdStart, inRange, Bool.and_eq_true, Bool.or_eq_true, decide_eq_true_eq] at hc
  have : 'z'.toNat = 122 := rfl
  have : 'Z'.toNat = 90 := rfl
  have : '_'.toNat = 95 := rfl
  rcases hc with (rfl | hc) | hc <;> omega
theorem ascii_isIdChar : Cls.Ascii ⟨false, isIdChar⟩ := by
  refine ⟨rfl, ?_⟩
  intro c hc
  simp only [isIdChar, Bool.or_eq_true] at hc
  rcases hc with hc | hc
  · exact ascii_isIdStart.ascii c hc
  · exact ascii_isDec.ascii c hc

theorem take_takeWhile_len (p : Char → Bool) (s : Str) :
    s.take (s.takeWhile p).length = s.takeWhile p := by
  induction s with
  | nil => rfl
  | cons c cs ih =>
    rw [List.takeWhile_cons]
    split
    · simp [ih]
    · rfl

theorem grp_plus {g : Grp} {k : Cls} (h : k.Ascii) (hg : g ≠ .string) (s : Str) :
    (Re.grp g (Re.plus k)).first s = (scanPlus g k.mem s).map Lexeme.toMatch := by
  rw [first_grp, first_plus h]
  unfold scanPlus
  split
  · rfl
  · simp [Lexeme.toMatch, hg, take_takeWhile_len]

theorem num_first {g : Grp} {k : Cls} {pre : Str} (h : k.Ascii)
    (hp : pre.all (fun c => c.toNat < 0x80) = true) (hg : g ≠ .string) (s : Str) :
    (Re.seq (Re.seq (Re.lit c!"0") (Re.cls (Re.oneOf pre))) (Re.grp g (Re.plus k))).first s =
      (scanNum g pre k.mem s).map Lexeme.toMatch := by
  rw [first_seq_det (det_seq (det_lit _) (det_cls _)), first_seq_det (det_lit _), first_lit rfl]
  match s with
  | [] => simp [scanNum, List.isPrefixOf]
  | [c] =>
    by_cases hc : '0' = c
    · subst hc; simp [scanNum, List.isPrefixOf, first_cls, Cls.len]
    · have : (['0'].isPrefixOf [c]) = false := by simp [List.isPrefixOf, hc]
      rw [this]
      unfold scanNum
      simp
  | c :: b :: r =>
    by_cases hc : '0' = c
    · subst hc
      simp only [scanNum, List.isPrefixOf, beq_self_eq_true, Bool.and_true, if_true, List.length_singleton,
        Option.bind_some, List.drop_one, List.tail_cons, List.nil_append, first_cls]
      rw [(oneOf_ascii hp).len]
      simp only [Re.oneOf, List.contains_iff_mem]
      by_cases hb : b ∈ pre
      · rw [if_pos hb, if_pos hb]
        simp only [Option.map_some, Option.bind_some, List.nil_append]
        rw [grp_plus h hg]
        have : (('0' :: b :: r).drop (1 + 1)) = r := rfl
        rw [this]
        cases hs : scanPlus g k.mem r with
        | none => rfl
        | some l =>
          have : l.1 = g := by
            unfold scanPlus at hs; split at hs
            · cases hs
            · cases hs; rfl
          simp [Lexeme.toMatch, this, hg, Nat.add_comm]
      · rw [if_neg hb, if_neg hb]; rfl
    · have : (['0'].isPrefixOf (c :: b :: r)) = false := by simp [List.isPrefixOf, hc]
      rw [this]
      have h2 : scanNum g pre k.mem (c :: b :: r) = none := by
        unfold scanNum
        split
        · rename_i heq; cases heq; exact absurd rfl hc
        · rfl
      rw [h2]; simp

theorem matches_opt_seq (r t : Re) (s : Str) :
    (Re.seq (Re.opt r) t).matches s = (Re.seq r t).matches s ++ t.matches s := by
  rw [Re.matches, Re.matches, Re.matches]
  rw [List.flatMap_append]
  simp

theorem dec_first (s : Str) :
    (Re.seq (Re.opt (Re.seq (Re.lit c!"0") (Re.cls (Re.oneOf c!"dD"))))
      (Re.grp .decimal (Re.plus ⟨false, isDec⟩))).first s =
      ((scanNum .decimal c!"dD" isDec s).or (scanPlus .decimal isDec s)).map Lexeme.toMatch := by
  have h1 := num_first (g := .decimal) (pre := c!"dD") ascii_isDec rfl (by simp) s
  have h2 := grp_plus (g := .decimal) ascii_isDec (by simp) s
  unfold Re.first at *
  rw [matches_opt_seq, List.head?_append, h1, h2]
  cases scanNum .decimal c!"dD" isDec s <;> simp

theorem alts_lit (ls : List Str) (r : Re) (h : ∀ l ∈ ls, l.all (fun c => c.toNat < 0x80) = true) (s : Str) :
    (Re.alts (ls.map Re.lit ++ [r])).first s =
      ((ls.find? (·.isPrefixOf s)).map fun l => (l.length, [])).or (r.first s) := by
  induction ls with
  | nil => simp [Re.alts]
  | cons l ls ih =>
    have : Re.alts ((l :: ls).map Re.lit ++ [r]) = .alt (.lit l) (Re.alts (ls.map Re.lit ++ [r])) := by
      cases ls <;> rfl
    rw [this, first_alt, first_lit (h l (List.mem_cons_self ..)), ih (fun l hl => h l (List.mem_cons_of_mem _ hl))]
    by_cases hp : l.isPrefixOf s = true
    · simp [hp]
    · simp only [Bool.not_eq_true] at hp
      simp [hp]

theorem keyword_first (s : Str) :
    (Re.grp .keyword (Re.alts [Re.lit c!"true", Re.lit c!"false", Re.lit c!"&&", Re.lit c!"||",
      Re.lit c!"->", Re.lit c!"::", Re.lit c!"==", Re.lit c!"!=", Re.lit c!">=", Re.lit c!"<=",
      Re.cls (Re.oneOf c!"!()><.;-")])).first s =
      ((keywordLen s).map fun n => ((.keyword, n, s.take n) : Lexeme)).map Lexeme.toMatch := by
  rw [first_grp]
  have := alts_lit fixedLexemes (Re.cls (Re.oneOf c!"!()><.;-")) (by decide) s
  simp only [fixedLexemes, List.map_cons, List.map_nil, List.cons_append, List.nil_append] at this
  rw [this, first_cls]
  unfold keywordLen
  show _ = (((((fixedLexemes.find? _).map _).or _).map _).map _)
  simp only [fixedLexemes]
  generalize List.find? _ _ = o
  cases o with
  | some l => simp [Lexeme.toMatch]
  | none =>
    cases s with
    | nil => simp [Cls.len]
    | cons c cs =>
      rw [(oneOf_ascii (by decide)).len]
      simp only [Re.oneOf, List.contains_iff_mem]
      show Option.map _ (none.or (Option.map _ (if c ∈ punctuation then _ else _))) = _
      by_cases hc : c ∈ punctuation
      · rw [if_pos hc]; rfl
      · rw [if_neg hc]; rfl

theorem isPrefixOf_one_ne {a b : Char} {cs : Str} (h : a ≠ b) : [a].isPrefixOf (b :: cs) = false := by
  simp [List.isPrefixOf, h]

theorem newline_first (s : Str) :
    (Re.grp .newline (Re.alt (Re.seq (Re.lit c!"\r") (Re.opt (Re.lit c!"\n"))) (Re.lit c!"\n"))).first s =
      ((newlineLen s).map fun n => ((.newline, n, s.take n) : Lexeme)).map Lexeme.toMatch := by
  rw [first_grp, first_alt, first_seq_det (det_lit _), first_lit rfl, first_lit rfl]
  simp only [first_opt, first_lit (l := c!"\n") rfl]
  cases s with
  | nil => rfl
  | cons c cs =>
    by_cases h1 : c = '\r'
    · subst h1
      cases cs with
      | nil => rfl
      | cons d ds =>
        by_cases h2 : d = '\n'
        · subst h2; rfl
        · have : newlineLen ('\r' :: d :: ds) = some 1 := by
            unfold newlineLen
            split
            · rename_i heq; cases heq; exact absurd rfl h2
            · rfl
            · rfl
            · rename_i h _; exact absurd rfl (h _)
          rw [this]
          have h3 : ['\n'].isPrefixOf (d :: ds) = false := isPrefixOf_one_ne (Ne.symm h2)
          have h4 : ['\r'].isPrefixOf ('\r' :: d :: ds) = true := rfl
          rw [h4]
          simp only [if_true, Option.bind_some, List.length_singleton, List.drop_one, List.tail_cons, h3]
          rfl
    · by_cases h2 : c = '\n'
      · subst h2; rfl
      · have : newlineLen (c :: cs) = none := by
          unfold newlineLen
          split
          · rename_i heq; cases heq; exact absurd rfl h1
          · rename_i heq; cases heq; exact absurd rfl h1
          · rename_i heq; cases heq; exact absurd rfl h2
          · rfl
        rw [this, isPrefixOf_one_ne (Ne.symm h1), isPrefixOf_one_ne (Ne.symm h2)]
        rfl

theorem comment_first (s : Str) :
    (Re.alt (Re.grp .comment (Re.seq (Re.lit c!"//") (Re.star (Re.noneOf c!"\r\n"))))
      (Re.grp .beginMultilineComment (Re.lit c!"/*"))).first s = (scanComment s).map Lexeme.toMatch := by
  rw [first_alt, first_grp, first_grp, first_lit rfl, first_seq_det (det_lit _), first_lit rfl]
  simp only [first_star]
  match s with
  | [] => rfl
  | [c] => simp [scanComment, List.isPrefixOf]
  | c :: d :: r =>
    by_cases hc : c = '/'
    · subst hc
      by_cases hd : d = '/'
      · subst hd
        have h1 : (c!"//").isPrefixOf ('/' :: '/' :: r) = true := rfl
        rw [h1]
        simp only [if_true, Option.bind_some, Option.map_some, Option.some_or]
        simp [scanComment, Lexeme.toMatch, Nat.add_comm]
      · have h1 : (c!"//").isPrefixOf ('/' :: d :: r) = false := by simp [List.isPrefixOf, Ne.symm hd]
        rw [h1]
        by_cases hd2 : d = '*'
        · subst hd2; rfl
        · have h2 : (c!"/*").isPrefixOf ('/' :: d :: r) = false := by simp [List.isPrefixOf, Ne.symm hd2]
          have h3 : scanComment ('/' :: d :: r) = none := by
            unfold scanComment
            split
            · rename_i heq; cases heq; exact absurd rfl hd
            · rename_i heq; cases heq; exact absurd rfl hd2
            · rfl
          rw [h2, h3]; rfl
    · have h1 : (c!"//").isPrefixOf (c :: d :: r) = false := by simp [List.isPrefixOf, Ne.symm hc]
      have h2 : (c!"/*").isPrefixOf (c :: d :: r) = false := by simp [List.isPrefixOf, Ne.symm hc]
      have h3 : scanComment (c :: d :: r) = none := by
        unfold scanComment
        split
        · rename_i heq; cases heq; exact absurd rfl hc
        · rename_i heq; cases heq; exact absurd rfl hc
        · rfl
      rw [h1, h2, h3]; rfl

theorem id_first (s : Str) :
    (Re.grp .id (Re.seq (Re.cls ⟨false, isIdStart⟩) (Re.star ⟨false, isIdChar⟩))).first s =
      (scanId s).map Lexeme.toMatch := by
  rw [first_grp, first_seq_det (det_cls _), first_cls]
  cases s with
  | nil => simp [Cls.len, scanId]
  | cons c cs =>
    rw [ascii_isIdStart.len]
    dsimp only [scanId]
    by_cases hc : isIdStart c = true
    · rw [if_pos hc, if_pos hc]
      simp [first_star, ascii_isIdChar.munch, Lexeme.toMatch, Nat.add_comm, take_takeWhile_len]
    · rw [if_neg hc, if_neg hc]; rfl

theorem string_first (s : Str) :
    (Re.grp .string (Re.seq (Re.lit c!"'") (Re.seq (Re.grp .stringBody (Re.star (Re.noneOf c!"'")))
      (Re.lit c!"'")))).first s = (scanString s).map Lexeme.toMatch := by
  rw [first_grp, first_seq_det (det_lit _), first_lit rfl]
  simp only [first_body .stringBody (q := '\'') (by decide)]
  cases s with
  | nil => rfl
  | cons c r =>
    by_cases hc : c = '\''
    · subst hc
      have h1 : (c!"'").isPrefixOf ('\'' :: r) = true := rfl
      rw [h1]
      simp only [if_true, List.length_singleton,
        Option.bind_some, List.drop_one, List.tail_cons, List.nil_append, scanString]
      split
      · rename_i hp
        simp only [Option.map_some, Lexeme.toMatch]
        congr 1
        simp only [Prod.mk.injEq, List.cons.injEq]
        have he : 1 + (munch (Re.noneOf ['\'']) r.length r + 1) =
          munch (Re.noneOf ['\'']) r.length r + 2 := by omega
        rw [he]
        refine ⟨rfl, ⟨trivial, rfl⟩, ?_⟩
        simp [List.take_take]
      · rfl
    · have h3 : scanString (c :: r) = none := by
        unfold scanString
        split
        · rename_i heq; cases heq; exact absurd rfl hc
        · rfl
      rw [isPrefixOf_one_ne (Ne.symm hc), h3]; rfl

theorem or_map {α β : Type} (f : α → β) (a b : Option α) : (a.map f).or (b.map f) = (a.or b).map f := by
  cases a <;> rfl

theorem or_assoc' {α : Type} (a b c : Option α) : (a.or b).or c = a.or (b.or c) := by
  cases a <;> rfl

/-- The token pattern, as a scanner. -/
theorem scan_first (s : Str) : tokenPattern.first s = (scan s).map Lexeme.toMatch := by
  have hw := grp_plus (g := .whitespace) (k := Re.oneOf c!" \t") (oneOf_ascii (by decide)) (by simp) s
  have hwm : (Re.oneOf c!" \t").mem = fun c => decide (c = ' ') || decide (c = '\t') := by
    funext c
    simp [Re.oneOf]
  rw [hwm] at hw
  have hk := keyword_first s
  have hcom := comment_first s
  rw [first_alt] at hcom
  have hn := newline_first s
  unfold tokenPattern
  generalize hK : Re.grp .keyword _ = K at hk ⊢
  rw [Re.alts, first_alt, Re.alts, first_alt, Re.alts, first_alt, Re.alts, first_alt, Re.alts, first_alt,
    Re.alts, first_alt, Re.alts, first_alt, Re.alts, first_alt, Re.alts, first_alt, Re.alts, first_alt,
    Re.alts]
  all_goals try (intro h; cases h; done)
  rw [hw, hn, hk, id_first, num_first ascii_isBin (pre := c!"bB") rfl (g := .binary) (by simp),
    num_first ascii_isOct (pre := c!"oO") rfl (g := .octary) (by simp),
    num_first ascii_isHex (pre := c!"xX") rfl (g := .hexadec) (by simp), dec_first, string_first]
  rw [← or_assoc' (Re.first (Re.grp .comment _) s), hcom]
  simp only [or_map]
  unfold scan scanSpace scanToken
  simp only [or_assoc']

end P4C
