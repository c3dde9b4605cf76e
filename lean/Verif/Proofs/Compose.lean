import Verif.Proofs.GrammarMore
import Verif.Proofs.Accept
import Verif.Spec.Compose
/-!
# Constraints made from the texts of other constraints
-/
namespace P4C
open Spec

theorem spells_ne_nil {k : Kind} {t l : Str} (h : Spells k t l) : l ≠ [] := by
  cases h with
  | keyword h => rintro rfl; simp [keywords] at h
  | decimal h => exact h
  | _ => simp

theorem spells_not_end {k : Kind} {t l : Str} (h : Spells k t l) : k ≠ .endOfInput := by
  rintro rfl
  generalize hk : Kind.endOfInput = k at h
  cases h with
  | keyword h => subst hk; simp [keywords] at h
  | _ => cases hk

/-- The last character of a token is not a line break. -/
theorem spells_last {k : Kind} {t l : Str} (h : Spells k t l) (a : Str) : l ≠ a ++ c!"\n" := by
  intro e
  by_cases hk : k = .string
  · subst hk
    generalize hkk : Kind.string = k at h
    cases h with
    | keyword h =>
      subst hkk
      simp [keywords] at h
    | @string s _ _ =>
      have := congrArg List.getLast? e
      rw [← List.cons_append, List.getLast?_append, List.getLast?_append] at this
      simp at this
    | _ => cases hkk
  · exact spells_no_sep h hk '\n' (by rw [e]; simp) (by decide)

theorem suffix_ends {w s a : Str} (h : w ++ s = a ++ c!"\n") : s = [] ∨ ∃ b, s = b ++ c!"\n" ∧ a = w ++ b := by
  rcases List.eq_nil_or_concat s with rfl | ⟨b, c, rfl⟩
  · exact .inl rfl
  · right
    rw [List.concat_eq_append, ← List.append_assoc] at h
    obtain ⟨h1, h2⟩ := List.append_inj' h rfl
    exact ⟨b, by rw [List.concat_eq_append, h2], h1.symm⟩

theorem reads_extend {s : Str} {ts : List (Kind × Str)} (h : Reads [] s ts) (x : Str) :
    (s = [] ∨ ∃ a, s = a ++ c!"\n") → Reads x (s ++ x) ts := by
  induction h with
  | done => exact fun _ => .done
  | @sep w s ts hw _ ih =>
    intro he
    rw [List.append_assoc]
    refine .sep hw (ih ?_)
    rcases he with he | ⟨a, he⟩
    · exact .inl (List.append_eq_nil_iff.1 he).2
    · rcases suffix_ends he with h | ⟨b, h, _⟩
      · exact .inl h
      · exact .inr ⟨b, h⟩
  | @tok k text lexeme s ts hs hc _ ih =>
    intro he
    rw [List.append_assoc]
    rcases he with he | ⟨a, he⟩
    · obtain ⟨h1, rfl⟩ := List.append_eq_nil_iff.1 he
      exact (spells_ne_nil hs h1).elim
    · rcases suffix_ends he with rfl | ⟨b, rfl, _⟩
      · rw [List.append_nil] at he
        exact (spells_last hs a he).elim
      · refine .tok hs ?_ (ih (.inr ⟨b, rfl⟩))
        have := chosen_after (b := x) hs (chosen_shorten hc) (.cons .lf .nil) (by simp)
        simpa using this

theorem tokensOf_comment {a : Str} (hr : Runes a) (h : ∀ c ∈ a, c ≠ '\r' ∧ c ≠ '\n') (t : Str)
    (ht : t = [] ∨ t = c!"\r") : tokensOf (c!"//" ++ a ++ t) = [(.endOfInput, [])] := by
  have hl : ∃ ts l, Lexed {} (c!"//" ++ a ++ t) ts ∧ ts = [⟨.endOfInput, [], l, l⟩] := by
    rcases ht with rfl | rfl
    · refine ⟨_, _, .line hr h (.inl ?_) .eof, rfl⟩
      intro r t hr e
      cases hr <;> cases e
    · exact ⟨_, _, .line hr h (.inr ⟨[], .inl rfl⟩) (.cr (by simp) .eof), rfl⟩
  obtain ⟨ts, l, h1, rfl⟩ := hl
  rw [tokensOf_eq h1]
  rfl

theorem tokensOf_nil : tokensOf [] = [(.endOfInput, [])] := by
  rw [tokensOf_eq (l := {}) .eof]
  rfl

/-- The tokens of a text on its own. -/
theorem reads_alone {s : Str} {ts : List (Kind × Str)} (h : Reads [] s ts) :
    ∀ a, s = a ++ c!"\n" → tokensOf a = ts ++ [(.endOfInput, [])] := by
  induction h with
  | done => intro a he; simp at he
  | @sep w s ts hw hr ih =>
    intro a he
    rcases suffix_ends he with rfl | ⟨b, rfl, rfl⟩
    · have hts : ts = [] := by
        generalize hn : ([] : Str) = z at hr
        cases hr with
        | done => rfl
        | sep hw => obtain ⟨c, cs, h, _⟩ := sep_head hw; rw [h] at hn; cases hn
        | tok hs =>
          have h1 := (List.append_eq_nil_iff.1 hn.symm).1
          exact (spells_ne_nil hs h1).elim
      subst hts
      rw [List.append_nil] at he
      rw [List.nil_append]
      cases hw with
      | blank | tab | cr =>
        rcases a with _ | ⟨c, a⟩
        · cases he
        · rcases a with _ | ⟨d, a⟩ <;> cases he
      | lf =>
        rcases a with _ | ⟨c, a⟩
        · exact tokensOf_nil
        · rcases a with _ | ⟨d, a⟩ <;> cases he
      | crlf =>
        have : a = c!"\r" := (List.append_inj' (s₁ := c!"\r") (t₁ := c!"\n") he rfl).1.symm
        subst this
        rw [tokensOf_cr, tokensOf_nil]
      | @line x e hx hx' hm =>
        simp only [List.mem_cons, List.not_mem_nil, or_false] at hm
        rcases hm with rfl | rfl | rfl
        · have := (List.append_inj' he rfl).1
          rw [← this]
          have := tokensOf_comment hx hx' [] (.inl rfl)
          simpa using this
        · have := (List.append_inj' he rfl).2
          cases this
        · have he' : (c!"//" ++ x ++ c!"\r") ++ c!"\n" = a ++ c!"\n" := by simpa using he
          have := (List.append_inj' he' rfl).1
          rw [← this]
          exact tokensOf_comment hx hx' _ (.inr rfl)
      | @block x _ _ =>
        have he' : (c!"/*" ++ x ++ c!"*") ++ c!"/" = a ++ c!"\n" := by simpa using he
        have := (List.append_inj' he' rfl).2
        cases this
    · rw [tokensOf_sep hw, ih b rfl]
  | @tok k text lexeme s ts hs hc _ ih =>
    intro a he
    rcases suffix_ends he with rfl | ⟨b, rfl, rfl⟩
    · rw [List.append_nil] at he
      exact (spells_last hs a he).elim
    · rw [tokensOf_tok hs (chosen_shorten hc), ih b rfl]
      rfl

/-! ### Texts without block comments -/

theorem reads_lf {t : Str} {ts : List (Kind × Str)} (h : Reads [] ('\n' :: t) ts) : Reads [] t ts := by
  generalize hs : '\n' :: t = s at h
  cases h with
  | done => cases hs
  | @sep w s ts hw hr =>
    cases hw with
    | lf => cases hs; exact hr
    | _ => cases hs
  | @tok k text lexeme s ts hsp _ _ =>
    exfalso
    cases lexeme with
    | nil => exact spells_ne_nil hsp rfl
    | cons c cs =>
      cases hs
      by_cases hk : k = .string
      · subst hk
        generalize hkk : Kind.string = k at hsp
        generalize hl : '\n' :: cs = l at hsp
        cases hsp with
        | keyword h => subst hkk; simp [keywords] at h
        | string => cases hl
        | _ => cases hkk
      · exact spells_no_sep hsp hk '\n' (by simp) (by decide)

theorem reads_cr {t : Str} {ts : List (Kind × Str)} (h : Reads [] ('\r' :: t) ts) :
    Reads [] t ts ∨ ∃ t', t = '\n' :: t' ∧ Reads [] t' ts := by
  generalize hs : '\r' :: t = s at h
  cases h with
  | done => cases hs
  | @sep w s ts hw hr =>
    cases hw with
    | cr => cases hs; exact .inl hr
    | crlf => cases hs; exact .inr ⟨_, rfl, hr⟩
    | _ => cases hs
  | @tok k text lexeme s ts hsp _ _ =>
    exfalso
    cases lexeme with
    | nil => exact spells_ne_nil hsp rfl
    | cons c cs =>
      cases hs
      by_cases hk : k = .string
      · subst hk
        generalize hkk : Kind.string = k at hsp
        generalize hl : '\r' :: cs = l at hsp
        cases hsp with
        | keyword h => subst hkk; simp [keywords] at h
        | string => cases hl
        | _ => cases hkk
      · exact spells_no_sep hsp hk '\r' (by simp) (by decide)

theorem char_le_toNat {c d : Char} (h : c ≤ d) : c.toNat ≤ d.toNat := h

/-- Tokens start with an ASCII character. -/
theorem spells_ascii_or {k : Kind} {t cs : Str} {c : Char} (h : Spells k t (c :: cs)) : ¬ 0x80 ≤ c.toNat := by
  have hd : ∀ d, Digit d → ¬ 0x80 ≤ d.toNat := fun d hd => by
    have := char_le_toNat hd.2
    have h9 : '9'.toNat = 57 := rfl
    omega
  generalize hl : c :: cs = l at h
  cases h with
  | keyword h =>
    subst hl
    simp [keywords] at h
    rcases h with h | h | h | h | h | h | h | h | h | h | h | h | h | h | h | h | h | h <;> rw [h.2.1] <;> decide
  | @id c' s hc _ =>
    cases hl
    have hz : 'z'.toNat = 122 := rfl
    have hZ : 'Z'.toNat = 90 := rfl
    rcases hc with rfl | h | h
    · decide
    · have := char_le_toNat h.2; omega
    · have := char_le_toNat h.2; omega
  | decimal _ h => subst hl; exact hd _ (h c (by simp))
  | _ => cases hl; decide

/-- Nothing can be read where the text is malformed. -/
theorem lexed_noRune {l : Loc} {s : Str} {ts : List Token} (h : Lexed l s ts) (hn : NoRune s) (hs : s ≠ []) :
    ∃ t, ts = [t] ∧ t.kind = .unexpectedChar := by
  have hc : ∀ c s', s = c :: s' → 0x80 ≤ c.toNat := by
    intro c s' e
    by_cases hlt : c.toNat < 0x80
    · exact (hn [c] s' (.ascii hlt) (by rw [e]; rfl)).elim
    · omega
  cases h with
  | eof => exact (hs rfl).elim
  | bad => exact ⟨_, rfl, rfl⟩
  | @blank _ c s' _ hb _ =>
    have := hc c s' rfl
    rcases hb with rfl | rfl <;> exact absurd this (by decide)
  | crlf => exact absurd (hc _ _ rfl) (by decide)
  | cr => exact absurd (hc _ _ rfl) (by decide)
  | lf => exact absurd (hc _ _ rfl) (by decide)
  | line => exact absurd (hc _ _ rfl) (by decide)
  | block => exact absurd (hc _ _ rfl) (by decide)
  | openBlock => exact absurd (hc _ _ rfl) (by decide)
  | @tok _ k text lexeme s' _ hsp _ _ =>
    exfalso
    cases lexeme with
    | nil => exact spells_ne_nil hsp rfl
    | cons c cs => exact absurd (hc c _ rfl) (spells_ascii_or hsp)

theorem lexed_closed {l : Loc} {s : Str} {ts : List Token} (h : Lexed l s ts) (hne : ∃ t, ts.getLast? = some t ∧ t.kind = .endOfInput)
    (hb : ¬ c!"/*" <:+: s) : ∃ us, Reads [] (s ++ c!"\n") us := by
  have inner : ∀ {a b : Str}, ¬ c!"/*" <:+: a ++ b → ¬ c!"/*" <:+: b := fun h h' =>
    h (h'.trans (List.suffix_append _ _).isInfix)
  induction h with
  | eof => exact ⟨_, .sep (w := c!"\n") .lf .done⟩
  | bad =>
    obtain ⟨t, h1, h2⟩ := hne
    cases h1
    cases h2
  | @blank _ c s' _ hc _ ih =>
    obtain ⟨us, hr⟩ := ih hne (inner (a := [c]) hb)
    rcases hc with rfl | rfl
    · exact ⟨us, .sep (w := c!" ") .blank hr⟩
    · exact ⟨us, .sep (w := c!"\t") .tab hr⟩
  | @crlf _ s' _ _ ih =>
    obtain ⟨us, hr⟩ := ih hne (inner (a := c!"\r\n") hb)
    exact ⟨us, .sep (w := c!"\r\n") .crlf hr⟩
  | @cr _ s' _ _ _ ih =>
    obtain ⟨us, hr⟩ := ih hne (inner (a := c!"\r") hb)
    exact ⟨us, .sep (w := c!"\r") .cr hr⟩
  | @lf _ s' _ _ ih =>
    obtain ⟨us, hr⟩ := ih hne (inner (a := c!"\n") hb)
    exact ⟨us, .sep (w := c!"\n") .lf hr⟩
  | @line _ a s' _ ha hac hend hl ih =>
    obtain ⟨us, hr⟩ := ih hne (inner (a := c!"//" ++ a) (by simpa using hb))
    have fin : ∀ {e t : Str}, e ∈ [c!"\n", c!"\r", c!"\r\n"] → s' ++ c!"\n" = e ++ t → Reads [] t us →
        ∃ us, Reads [] ('/' :: '/' :: (a ++ s') ++ c!"\n") us := fun he et hr' =>
      ⟨us, by
        have := Reads.sep (Sep.line ha hac he) hr'
        rw [List.append_assoc (c!"//" ++ a), ← et] at this
        simpa using this⟩
    by_cases hs : s' = []
    · subst hs
      exact fin (e := c!"\n") (t := []) (by simp) rfl (reads_lf (t := []) hr)
    · rcases hend with hn | ⟨t, rfl | rfl⟩
      · obtain ⟨x, rfl, hk⟩ := lexed_noRune hl hn hs
        obtain ⟨y, h1, h2⟩ := hne
        have h1' : x = y := by simpa using h1
        subst h1'
        rw [hk] at h2
        cases h2
      · rcases reads_cr (t := t ++ c!"\n") hr with h | ⟨t', h1, h2⟩
        · exact fin (e := c!"\r") (t := t ++ c!"\n") (by simp) rfl h
        · exact fin (e := c!"\r\n") (t := t') (by simp) (by simp [h1]) h2
      · exact fin (e := c!"\n") (t := t ++ c!"\n") (by simp) rfl (reads_lf (t := t ++ c!"\n") hr)
  | block => exact (hb ⟨[], _, by simp; rfl⟩).elim
  | openBlock => exact (hb ⟨[], _, by simp; rfl⟩).elim
  | @tok _ k text lexeme s' _ hsp hc _ ih =>
    obtain ⟨us, hr⟩ := ih (by
      obtain ⟨y, h1, h2⟩ := hne
      rw [List.getLast?_cons] at h1
      rename_i ts' _
      cases hl : ts'.getLast? with
      | none =>
        rw [hl] at h1
        cases h1
        exact (spells_not_end hsp h2).elim
      | some z =>
        rw [hl] at h1
        cases h1
        exact ⟨_, rfl, h2⟩) (inner hb)
    refine ⟨(k, text) :: us, ?_⟩
    rw [List.append_assoc]
    refine .tok hsp ?_ hr
    have := chosen_after (b := []) (w := c!"\n") hsp hc (by simpa using Seps.cons (b := []) Sep.lf .nil) (by simp)
    simpa using this

theorem parsed_closed {sys : Sys} {k : ConstraintKind} {src : ConstraintSource} {e : Expr}
    (h : parseConstraint sys k src = .ok e) (hb : ¬ c!"/*" <:+: src.str) : Closed src.str := by
  obtain ⟨toks, last, h1, h2, hg⟩ := parseConstraint_split.1 h
  exact lexed_closed (tokenize_lexed src) ⟨last, by rw [h1]; simp, h2⟩ hb

theorem tokensOf_key {k : Kind} {l w : Str} (h : (k, l) ∈ keywords) (hw : Sep w) (x : Str) :
    tokensOf (l ++ (w ++ x)) = (k, l) :: tokensOf x := by
  have hs : Spells k l l := .keyword h
  have hc : Chosen l k l := chosen_alone hs (by
    intro hk; subst hk; simp [keywords] at h)
  have := chosen_after (a := []) (b := x) (w := w) hs (by simpa using hc) (by simpa using Seps.cons hw .nil)
    (by obtain ⟨_, _, h, _⟩ := sep_head hw; rw [h]; simp)
  rw [tokensOf_tok hs (by simpa using this), tokensOf_sep hw]

theorem tokensOf_closed {a : Str} {ts : List (Kind × Str)} (h : Reads [] (a ++ c!"\n") ts) (x : Str) :
    tokensOf (c!"(" ++ (c!"\n" ++ (a ++ (c!"\n" ++ (c!")" ++ x))))) =
      (.lpar, c!"(") :: ts ++ tokensOf (c!")" ++ x) := by
  rw [tokensOf_key (k := .lpar) (by decide) (w := c!"\n") .lf]
  have := tokensOf_reads (reads_extend h (c!")" ++ x) (.inr ⟨a, rfl⟩))
  rw [List.append_assoc] at this
  rw [this]
  rfl

theorem tokensOf_rpar : tokensOf c!")" = [(.rpar, c!")"), (.endOfInput, [])] := by
  have hs : Spells .rpar c!")" c!")" := .keyword (by decide)
  have := tokensOf_tok (s := []) hs (by simpa using chosen_alone hs (by simp))
  rw [List.append_nil, tokensOf_nil] at this
  exact this

def connKind : Spec.Conn → Kind
  | .and => .and
  | .or => .or
  | .implies => .implies

theorem tokensOf_joined {o : Spec.Conn} {a b : Str} {ta tb : List (Kind × Str)} (ha : Reads [] (a ++ c!"\n") ta)
    (hb : Reads [] (b ++ c!"\n") tb) :
    tokensOf (joined o a b) = ((.lpar, c!"(") :: ta ++ [(.rpar, c!")")]) ++
      (connKind o, connText o) :: ((.lpar, c!"(") :: tb ++ [(.rpar, c!")")]) ++ [(.endOfInput, [])] := by
  have hk : (connKind o, connText o) ∈ keywords := by cases o <;> decide
  have e : joined o a b = c!"(" ++ (c!"\n" ++ (a ++ (c!"\n" ++ (c!")" ++ (c!" " ++ (connText o ++ (c!" " ++
      (c!"(" ++ (c!"\n" ++ (b ++ (c!"\n" ++ (c!")" ++ [])))))))))))) := by
    simp [joined]
  rw [e, tokensOf_closed ha, tokensOf_key (k := .rpar) (by decide) (w := c!" ") .blank,
    tokensOf_key hk (w := c!" ") .blank, tokensOf_closed hb, List.append_nil, tokensOf_rpar]
  simp

theorem tokensOf_negated {a : Str} {ta : List (Kind × Str)} (ha : Reads [] (a ++ c!"\n") ta) :
    tokensOf (negated a) = (.bang, c!"!") :: ((.lpar, c!"(") :: ta ++ [(.rpar, c!")")]) ++ [(.endOfInput, [])] := by
  have e : negated a = c!"!" ++ (c!" " ++ (c!"(" ++ (c!"\n" ++ (a ++ (c!"\n" ++ (c!")" ++ [])))))) := by simp [negated]
  rw [e, tokensOf_key (k := .bang) (by decide) (w := c!" ") .blank, tokensOf_closed ha, List.append_nil, tokensOf_rpar]
  simp


/-! ### Parsing -/

section
variable {sys : Sys} {k : ConstraintKind} {srcA srcB src : ConstraintSource} {eA eB : Expr} {sA sB : SExpr}

theorem G_parens {pton : Str → Option Bytes} {toks ts : List Token} {e : Expr} {tk : List (Kind × Str)}
    (hg : G pton k 0 toks e) (ht : toks.map kindText = tk) (h : ts.map kindText = (.lpar, c!"(") :: tk ++ [(.rpar, c!")")]) :
    ∃ e', G pton k 8 ts e' ∧ abs e' = abs e := by
  obtain ⟨x, y, rfl, h1, h2⟩ := map_append_inv h
  obtain ⟨l, x, rfl, h3, _, h4⟩ := map_cons_inv h1
  obtain ⟨r, rfl, h5, _⟩ := map_one_inv h2
  obtain ⟨e', h6, h7⟩ := G_same hg (sameToks_of_kindText (ht.trans h4.symm))
  exact ⟨e', .paren h3 h6 h5, h7⟩

theorem closed_parse (hA : parseConstraint sys k srcA = .ok eA) {ta : List (Kind × Str)}
    (ca : Reads [] (srcA.str ++ c!"\n") ta) :
    ∃ toks, toks.map kindText = ta ∧ G sys.inetPton6 k 0 toks eA := by
  have := tokens_src srcA
  rw [reads_alone ca _ rfl] at this
  obtain ⟨toks, last, _, h2, _, h4⟩ := parseConstraint_tokens (sys := sys) (k := k) this
  exact ⟨toks, h2, (h4 _).1 hA⟩

theorem joined_parse {o : Spec.Conn} (hA : parseConstraint sys k srcA = .ok eA) (aA : abs eA = some sA) (cA : Closed srcA.str)
    (hB : parseConstraint sys k srcB = .ok eB) (aB : abs eB = some sB) (cB : Closed srcB.str)
    (hs : src.str = joined o srcA.str srcB.str) :
    ∃ e, parseConstraint sys k src = .ok e ∧ abs e = some (.conn o sA sB) := by
  obtain ⟨ta, ca⟩ := cA
  obtain ⟨tb, cb⟩ := cB
  obtain ⟨xa, ha1, ha2⟩ := closed_parse hA ca
  obtain ⟨xb, hb1, hb2⟩ := closed_parse hB cb
  have ht := tokens_src src
  rw [hs, tokensOf_joined ca cb] at ht
  obtain ⟨toks, last, _, h2, _, h4⟩ := parseConstraint_tokens (sys := sys) (k := k) ht
  obtain ⟨x, y, rfl, h5, h6⟩ := map_append_inv h2
  obtain ⟨t, z, rfl, h7, _, h8⟩ := map_cons_inv h6
  obtain ⟨ea', g1, g2⟩ := G_parens ha2 ha1 h5
  obtain ⟨eb', g3, g4⟩ := G_parens hb2 hb1 h8
  rw [aA] at g2
  rw [aB] at g4
  have fin : ∀ {op : BinOp} {n l r : Nat}, Infix t.kind op n l r → n ≤ 8 ∧ l ≤ 8 ∧ r ≤ 8 → binop op sA sB = some (.conn o sA sB) →
      ∃ e, parseConstraint sys k src = .ok e ∧ abs e = some (.conn o sA sB) := fun hi hn hb =>
    ⟨_, (h4 _).2 ((G.bin hi (g1.down (by omega)) (g3.down (by omega))).down (by omega)), by simp [abs, g2, g4, hb]⟩
  cases o with
  | and => exact fin (by rw [h7]; exact Infix.and) (by omega) rfl
  | or => exact fin (by rw [h7]; exact Infix.or) (by omega) rfl
  | implies => exact fin (by rw [h7]; exact Infix.implies) (by omega) rfl

theorem negated_parse (hA : parseConstraint sys k srcA = .ok eA) (aA : abs eA = some sA) (cA : Closed srcA.str)
    (hs : src.str = negated srcA.str) :
    ∃ e, parseConstraint sys k src = .ok e ∧ abs e = some (.not sA) := by
  obtain ⟨ta, ca⟩ := cA
  obtain ⟨xa, ha1, ha2⟩ := closed_parse hA ca
  have ht := tokens_src src
  rw [hs, tokensOf_negated ca] at ht
  obtain ⟨toks, last, _, h2, _, h4⟩ := parseConstraint_tokens (sys := sys) (k := k) ht
  obtain ⟨t, z, rfl, h7, _, h8⟩ := map_cons_inv h2
  obtain ⟨ea', g1, g2⟩ := G_parens ha2 ha1 h8
  rw [aA] at g2
  exact ⟨_, (h4 _).2 ((G.not h7 (g1.down (by omega))).down (by omega)), by simp [abs, g2]⟩

end

/-! ### Readings -/

section
variable {pton : Str → Option Bytes} {k : ConstraintKind} {Γ : Sig} {pA pB p : Preamble}
  {srcA srcB src : ConstraintSource} {eA eB e : Expr} {sA sB s : SExpr} {tA tB t : Ty}

theorem read_parts (h : ReadConstraint pton k Γ p (some (src, e, s, t))) :
    Attached k p (some src) ∧ parseConstraint ⟨pton⟩ k src = .ok e ∧ abs e = some s ∧ HasTy Γ s t := by
  cases h with
  | @some _ ts _ _ _ h1 h2 h3 h4 h5 =>
    rw [← tokenize_iff] at h2
    subst h2
    exact ⟨h1, parseConstraint_iff.2 h3, h4, h5⟩

theorem read_of_parse (h1 : Attached k p (some src)) (h2 : parseConstraint ⟨pton⟩ k src = .ok e) (h3 : abs e = some s)
    (h4 : HasTy Γ s t) : ReadConstraint pton k Γ p (some (src, e, s, t)) :=
  .some h1 (tokenize_iff.1 rfl) (parseConstraint_iff.1 h2) h3 h4

variable {o : Spec.Conn} (hA : ReadConstraint pton k Γ pA (some (srcA, eA, sA, tA))) (cA : Closed srcA.str)
  (hB : ReadConstraint pton k Γ pB (some (srcB, eB, sB, tB))) (cB : Closed srcB.str)

include hA hB cA cB in
/-- The constraint made from two constraints can be read. -/
theorem read_joined (a : Attached k p (some src)) (hs : src.str = joined o srcA.str srcB.str) (bA : tA = .boolean)
    (bB : tB = .boolean) : ∃ e, ReadConstraint pton k Γ p (some (src, e, .conn o sA sB, .boolean)) := by
  subst bA; subst bB
  obtain ⟨_, a2, a3, a4⟩ := read_parts hA
  obtain ⟨_, b2, b3, b4⟩ := read_parts hB
  obtain ⟨e, h1, h2⟩ := joined_parse a2 a3 cA b2 b3 cB hs
  exact ⟨e, read_of_parse a h1 h2 (.conn a4 b4)⟩

include hA hB cA cB in
/-- What is read from the constraint made from two constraints. -/
theorem joined_read (h : ReadConstraint pton k Γ p (some (src, e, s, t))) (hs : src.str = joined o srcA.str srcB.str) :
    s = .conn o sA sB ∧ t = .boolean ∧ tA = .boolean ∧ tB = .boolean := by
  obtain ⟨_, a2, a3, a4⟩ := read_parts hA
  obtain ⟨_, b2, b3, b4⟩ := read_parts hB
  obtain ⟨_, c2, c3, c4⟩ := read_parts h
  obtain ⟨e', h1, h2⟩ := joined_parse a2 a3 cA b2 b3 cB hs
  rw [c2] at h1
  cases h1
  rw [c3] at h2
  cases h2
  cases c4 with
  | conn h1 h2 => exact ⟨rfl, rfl, hasTy_unique a4 h1, hasTy_unique b4 h2⟩

include hA cA in
theorem read_negated (a : Attached k p (some src)) (hs : src.str = negated srcA.str) (bA : tA = .boolean) :
    ∃ e, ReadConstraint pton k Γ p (some (src, e, .not sA, .boolean)) := by
  subst bA
  obtain ⟨_, a2, a3, a4⟩ := read_parts hA
  obtain ⟨e, h1, h2⟩ := negated_parse a2 a3 cA hs
  exact ⟨e, read_of_parse a h1 h2 (.not a4)⟩

include hA cA in
theorem negated_read (h : ReadConstraint pton k Γ p (some (src, e, s, t))) (hs : src.str = negated srcA.str) :
    s = .not sA ∧ t = .boolean ∧ tA = .boolean := by
  obtain ⟨_, a2, a3, a4⟩ := read_parts hA
  obtain ⟨_, c2, c3, c4⟩ := read_parts h
  obtain ⟨e', h1, h2⟩ := negated_parse a2 a3 cA hs
  rw [c2] at h1
  cases h1
  rw [c3] at h2
  cases h2
  cases c4 with
  | not h1 => exact ⟨rfl, rfl, hasTy_unique a4 h1⟩

end

/-! ### Values -/

section
variable {Γ : Sig} {ρ : Env} {s u : SExpr}

theorem evaluates_and : Evaluates Γ ρ (.conn .and s u) .boolean (.bool true) ↔
    Evaluates Γ ρ s .boolean (.bool true) ∧ Evaluates Γ ρ u .boolean (.bool true) := by
  constructor
  · intro h
    generalize hv : Value.bool true = v at h
    cases h with
    | @decided _ _ _ a b h1 h2 => cases a <;> simp [DecidedLeft, Conn.apply] at hv h2
    | @conn _ _ _ a b h1 h2 =>
      cases a <;> cases b <;> simp [Conn.apply] at hv
      exact ⟨h1, h2⟩
  · exact fun ⟨h1, h2⟩ => .conn h1 h2

theorem evaluates_or : Evaluates Γ ρ (.conn .or s u) .boolean (.bool true) ↔
    Evaluates Γ ρ s .boolean (.bool true) ∨
      (Evaluates Γ ρ s .boolean (.bool false) ∧ Evaluates Γ ρ u .boolean (.bool true)) := by
  constructor
  · intro h
    generalize hv : Value.bool true = v at h
    cases h with
    | @decided _ _ _ a b h1 h2 =>
      cases a <;> simp [DecidedLeft, Conn.apply] at hv h2
      exact .inl h1
    | @conn _ _ _ a b h1 h2 =>
      cases a <;> cases b <;> simp [Conn.apply] at hv
      · exact .inr ⟨h1, h2⟩
      · exact .inl h1
      · exact .inl h1
  · rintro (h | ⟨h1, h2⟩)
    · exact .decided (o := .or) (b := true) h (by simp [DecidedLeft, Conn.apply])
    · exact .conn h1 h2

theorem evaluates_implies : Evaluates Γ ρ (.conn .implies s u) .boolean (.bool true) ↔
    Evaluates Γ ρ s .boolean (.bool false) ∨
      (Evaluates Γ ρ s .boolean (.bool true) ∧ Evaluates Γ ρ u .boolean (.bool true)) := by
  constructor
  · intro h
    generalize hv : Value.bool true = v at h
    cases h with
    | @decided _ _ _ a b h1 h2 =>
      cases a <;> simp [DecidedLeft, Conn.apply] at hv h2
      exact .inl h1
    | @conn _ _ _ a b h1 h2 =>
      cases a <;> cases b <;> simp [Conn.apply] at hv
      · exact .inl h1
      · exact .inl h1
      · exact .inr ⟨h1, h2⟩
  · rintro (h | ⟨h1, h2⟩)
    · exact .decided (o := .implies) (b := true) h (by simp [DecidedLeft, Conn.apply])
    · exact .conn h1 h2

theorem evaluates_not {b : Bool} : Evaluates Γ ρ (.not s) .boolean (.bool (!b)) ↔ Evaluates Γ ρ s .boolean (.bool b) := by
  constructor
  · intro h
    generalize hv : Value.bool (!b) = v at h
    cases h with
    | @not _ a h1 => cases a <;> cases b <;> simp at hv <;> exact h1
  · exact .not

end

end P4C
