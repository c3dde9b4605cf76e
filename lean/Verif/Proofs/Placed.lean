import Verif.Proofs.Located
/-!
# Token locations when string literals span lines
-/
namespace P4C
open Spec

theorem bd_prefix {w s g : Str} (h : Bd w s) (hp : g <+: s) : Bd w g := by
  rcases h with h | h
  · exact .inl h
  · right
    rintro t rfl
    obtain ⟨u, rfl⟩ := hp
    exact h (t ++ u) rfl

theorem Spec.Placed.skip {l : Loc} {w s : Str} {ts : List Token} (hb : Bd w s)
    (hB : ∀ g, g <+: s → Blank g → Blank (w ++ g)) (h : Placed (advance l w) s ts) : Placed l (w ++ s) ts := by
  generalize hl : advance l w = l' at h
  cases h with
  | eof hg e =>
    subst hl
    exact .eof (hB _ (List.prefix_refl _) hg) (by rw [e, advance_append hb])
  | @bad _ gap s c q hg hu e =>
    subst hl
    rw [← List.append_assoc]
    exact .bad (hB _ (List.prefix_append _ _) hg) hu
      (by rw [e, advance_append (bd_prefix hb (List.prefix_append _ _))])
  | @cons _ gap lexeme s t ts hg hs hc e1 e2 h =>
    subst hl
    rw [← List.append_assoc]
    exact .cons (hB _ (List.prefix_append _ _) hg) hs hc
      (by rw [e1, advance_append (bd_prefix hb (List.prefix_append _ _))]) e2 h

theorem bd_of_not {w s : Str} (h : ¬ ∃ x, w = x ++ ['\r']) : Bd w s := .inl h

theorem lexed_inPlace {l : Loc} {s : Str} {ts : List Token} (h : Lexed l s ts) : Placed l s ts := by
  induction h with
  | eof => exact .eof blank_nil rfl
  | bad h => exact .bad (gap := []) blank_nil h rfl
  | @blank l c s ts hc _ ih =>
    have hc' : c ≠ '\r' ∧ c ≠ '\n' := by rcases hc with rfl | rfl <;> decide
    refine Spec.Placed.skip (w := [c]) (.inl (not_ends_cr (a := []) hc'.1)) (fun g _ => blank_blank hc) ?_
    rw [advance_plain (by simpa using hc')]
    exact ih
  | @crlf l s ts _ ih =>
    refine Spec.Placed.skip (w := c!"\r\n") (.inl (not_ends_cr (a := c!"\r") (by decide))) (fun g _ => blank_crlf) ?_
    simpa [advance] using ih
  | @cr l s ts hs _ ih =>
    refine Spec.Placed.skip (w := c!"\r") (.inr hs) (fun g hp => blank_cr hs hp) ?_
    simpa [advance] using ih
  | @lf l s ts _ ih =>
    refine Spec.Placed.skip (w := c!"\n") (.inl (not_ends_cr (a := []) (by decide))) (fun g _ => blank_lf) ?_
    simpa [advance] using ih
  | @line l a s ts h1 h2 h3 _ ih =>
    have pl : ∀ c ∈ '/' :: '/' :: a, c ≠ '\r' ∧ c ≠ '\n' := by
      intro c hc
      simp only [List.mem_cons] at hc
      rcases hc with rfl | rfl | hc
      · decide
      · decide
      · exact h2 c hc
    refine Spec.Placed.skip (w := '/' :: '/' :: a)
      (.inl (by simpa using ends_of_mem (a := []) (w := '/' :: '/' :: a) (by simp) fun c hc => (pl c hc).1))
      (fun g hp => blank_line h1 h2 h3 hp) ?_
    rw [advance_plain pl]
    exact ih
  | @block l a s ts h1 h2 _ ih =>
    refine Spec.Placed.skip (w := c!"/*" ++ a ++ c!"*/") (.inl ?_) (fun g _ => blank_block h1 h2) ih
    have : c!"/*" ++ a ++ c!"*/" = (c!"/*" ++ a ++ c!"*") ++ ['/'] := by simp
    rw [this]; exact not_ends_cr (by decide)
  | @openBlock l a s ts h1 h2 h3 _ ih =>
    exact Spec.Placed.skip (w := c!"/*" ++ a) (.inr (noRune_not_lf h3)) (fun g hp => blank_openBlock h1 h2 h3 hp) ih
  | @tok l k text lexeme s ts hs hc _ ih => exact .cons (gap := []) blank_nil hs hc rfl rfl ih

theorem Spec.Placed.starts {l : Loc} {s : Str} {ts : List Token} (h : Placed l s ts) : ∀ t ∈ ts, LocLe l t.start := by
  induction h with
  | eof _ e => intro t ht; simp at ht; subst ht; rw [e]; exact advance_le ..
  | bad _ _ e => intro t ht; simp at ht; subst ht; rw [e]; exact advance_le ..
  | @cons l gap _ _ _ _ hg hs hc e1 e2 _ ih =>
    intro t ht
    rcases List.mem_cons.1 ht with rfl | ht
    · rw [e1]; exact advance_le ..
    · refine LocLe.trans (LocLe.trans (advance_le l gap) ?_) (ih t ht)
      rw [e2, e1]; exact .inr ⟨rfl, by simp [shift]; omega⟩

theorem Spec.Placed.pairwise {l : Loc} {s : Str} {ts : List Token} (h : Placed l s ts) :
    ts.Pairwise fun a b => LocLe a.stop b.start := by
  induction h with
  | eof => simp
  | bad => simp
  | cons _ _ _ _ _ h ih => exact List.pairwise_cons.2 ⟨fun t ht => h.starts t ht, ih⟩

/-- Lines do not depend on the columns, and are added. -/
theorem advance_breaks (l : Loc) (s : Str) : (advance l s).line = l.line + breaks s := by
  unfold breaks
  have : ∀ (l m : Loc), (advance l s).line - l.line = (advance m s).line - m.line := by
    induction s with
    | nil => intro l m; simp [advance]
    | cons c cs ih =>
      intro l m
      simp only [advance]
      have := ih (if c = '\r' ∧ cs.head? = some '\n' then l else if c = '\r' ∨ c = '\n' then nextLine l else shift l 1)
        (if c = '\r' ∧ cs.head? = some '\n' then m else if c = '\r' ∨ c = '\n' then nextLine m else shift m 1)
      revert this
      split
      · exact id
      · split
        · simp only [nextLine]; omega
        · exact id
  have := this l {}
  simp at this
  omega

theorem breaks_append {a b : Str} (h : Bd a b) : breaks (a ++ b) = breaks a + breaks b := by
  unfold breaks
  rw [advance_append h, advance_breaks]
  rfl

theorem breaks_plain {a : Str} (h : ∀ c ∈ a, c ≠ '\r' ∧ c ≠ '\n') : breaks a = 0 := by
  unfold breaks; rw [advance_plain h]; rfl

theorem lexeme_plain {k : Kind} {text lexeme : Str} (h : Spells k text lexeme) (hk : k ≠ .string) :
    ∀ c ∈ lexeme, c ≠ '\r' ∧ c ≠ '\n' := by
  intro c hm
  have := spells_no_sep h hk c hm
  exact ⟨fun e => this (by subst e; decide), fun e => this (by subst e; decide)⟩

theorem lexeme_breaks {k : Kind} {text lexeme : Str} (h : Spells k text lexeme) :
    breaks lexeme = if k = .string then breaks text else 0 := by
  split
  · rename_i hk
    subst hk
    cases h with
    | keyword h => simp [keywords] at h
    | string _ _ =>
      have e : '\'' :: (text ++ ['\'']) = (['\''] ++ text) ++ ['\''] := by simp
      rw [e, breaks_append (.inr (by rintro t ⟨⟩)), breaks_append (a := ['\'']) (.inl (not_ends_cr (a := []) (c := '\'') (by decide)))]
      rw [breaks_plain (a := ['\'']) (by decide)]
      omega
  · rename_i hk
    exact breaks_plain (lexeme_plain h hk)

theorem lexeme_not_cr {k : Kind} {text lexeme : Str} (h : Spells k text lexeme) : ¬ ∃ x, lexeme = x ++ ['\r'] := by
  by_cases hk : k = .string
  · subst hk
    cases h with
    | keyword h => simp [keywords] at h
    | string _ _ =>
      have e : '\'' :: (text ++ ['\'']) = (['\''] ++ text) ++ ['\''] := by simp
      rw [e]; exact not_ends_cr (by decide)
  · rintro ⟨x, e⟩
    exact (lexeme_plain h hk '\r' (by simp [e])).1 rfl

/-- Every token is found in the text; its line is short of the line breaks in the string literals before. -/
theorem Spec.Placed.line {l : Loc} {s : Str} {ts : List Token} (h : Placed l s ts) :
    ∀ {before t after}, ts = before ++ t :: after →
      ∃ a b, s = a ++ b ∧ t.start.line + literalBreaks before = (advance l a).line ∧
        (t.kind = .endOfInput ∧ b = [] ∨ (∃ c r, t.kind = .unexpectedChar ∧ t.text = [c] ∧ b = c :: r ∧ Unlexable b) ∨
          ∃ lexeme r, Spells t.kind t.text lexeme ∧ b = lexeme ++ r ∧ Chosen b t.kind lexeme) := by
  induction h with
  | @eof l gap p hg e =>
    intro before t after he
    cases before with
    | nil => cases he; exact ⟨gap, [], by simp, by simp [literalBreaks, e], .inl ⟨rfl, rfl⟩⟩
    | cons x xs => simp at he
  | @bad l gap s c p hg hu e =>
    intro before t after he
    cases before with
    | nil => cases he; exact ⟨gap, c :: s, rfl, by simp [literalBreaks, e], .inr (.inl ⟨c, s, rfl, rfl, rfl, hu⟩)⟩
    | cons x xs => simp at he
  | @cons l gap lexeme s t ts hg hs hc e1 e2 h ih =>
    intro before t' after he
    cases before with
    | nil =>
      cases he
      exact ⟨gap, lexeme ++ s, rfl, by simp [literalBreaks, e1], .inr (.inr ⟨lexeme, s, hs, rfl, hc⟩)⟩
    | cons x xs =>
      simp only [List.cons_append, List.cons.injEq] at he
      obtain ⟨rfl, he⟩ := he
      obtain ⟨a, b, rfl, h1, h2⟩ := ih he
      refine ⟨gap ++ (lexeme ++ a), b, by simp, ?_, h2⟩
      obtain ⟨d, ds, rfl, hd⟩ := spells_head hs
      rw [advance_append (.inr (by rintro t ⟨⟩; exact hd (by decide))), advance_append (.inl (lexeme_not_cr hs)),
        advance_breaks, advance_breaks _ (d :: ds), lexeme_breaks hs]
      rw [advance_breaks] at h1
      rw [← e1]
      have : t.stop.line = t.start.line := by rw [e2]; rfl
      simp only [literalBreaks]
      omega

end P4C
