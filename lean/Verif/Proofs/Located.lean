import Verif.Proofs.Layout
/-!
# Token locations
-/
namespace P4C
open Spec

theorem Spec.Located.skip {l : Loc} {pre w s : Str} {ts : List Token}
    (hB : ∀ g, g <+: s → Blank g → Blank (w ++ g)) (h : Located l (pre ++ w) s ts) :
    Located l pre (w ++ s) ts := by
  generalize hp : pre ++ w = p at h
  cases h with
  | eof hg e =>
    subst hp
    exact .eof (hB _ (List.prefix_refl _) hg) (by rw [e, List.append_assoc])
  | @bad _ gap s c q hg hu e =>
    subst hp
    rw [← List.append_assoc]
    exact .bad (hB _ (List.prefix_append _ _) hg) hu (by rw [e, List.append_assoc])
  | @cons _ gap lexeme s t ts hg hs hc e1 e2 h =>
    subst hp
    rw [← List.append_assoc]
    have ea : pre ++ (w ++ gap) = pre ++ w ++ gap := (List.append_assoc ..).symm
    exact .cons (hB _ (List.prefix_append _ _) hg) hs hc (by rw [e1, ea]) (by rw [e2, ea]) (by rw [ea]; exact h)

/-- The boundary does not separate `\r` from `\n`. -/
def Bd (a b : Str) : Prop := ¬ (∃ x, a = x ++ ['\r']) ∨ ∀ t, b ≠ '\n' :: t

theorem blank_nil : Blank [] := fun l => ⟨l, .eof⟩

theorem noRune_prefix {a b : Str} (h : NoRune b) (hp : a <+: b) : NoRune a := by
  obtain ⟨t, rfl⟩ := hp
  intro r u hr e
  exact h r (u ++ t) hr (by rw [e, List.append_assoc])

theorem not_ends_cr {a : Str} {c : Char} (hc : c ≠ '\r') : ¬ ∃ x, a ++ [c] = x ++ ['\r'] := by
  rintro ⟨x, e⟩
  have := (List.append_inj' e rfl).2
  cases this; exact hc rfl

theorem ends_of_mem {a w : Str} (hw : w ≠ []) (h : ∀ c ∈ w, c ≠ '\r') : ¬ ∃ x, a ++ w = x ++ ['\r'] := by
  rw [← List.dropLast_concat_getLast hw, ← List.append_assoc]
  exact not_ends_cr (h _ (List.getLast_mem hw))

theorem noRune_not_lf {s : Str} (h : NoRune s) : ∀ t, s ≠ '\n' :: t := by
  rintro t rfl
  exact h ['\n'] t (.ascii (by decide)) rfl

theorem blank_blank {c : Char} {g : Str} (hc : c = ' ' ∨ c = '\t') (hg : Blank g) : Blank ([c] ++ g) :=
  fun l => let ⟨l', h⟩ := hg (shift l 1); ⟨l', .blank hc h⟩

theorem blank_crlf {g : Str} (hg : Blank g) : Blank (c!"\r\n" ++ g) :=
  fun l => let ⟨l', h⟩ := hg (nextLine l); ⟨l', .crlf h⟩

theorem blank_lf {g : Str} (hg : Blank g) : Blank (c!"\n" ++ g) :=
  fun l => let ⟨l', h⟩ := hg (nextLine l); ⟨l', .lf h⟩

theorem blank_cr {g s : Str} (hs : ∀ t, s ≠ '\n' :: t) (hp : g <+: s) (hg : Blank g) : Blank (c!"\r" ++ g) := by
  intro l
  obtain ⟨l', h⟩ := hg (nextLine l)
  refine ⟨l', .cr ?_ h⟩
  rintro t rfl
  obtain ⟨u, rfl⟩ := hp
  exact hs (t ++ u) rfl

theorem blank_line {a g s : Str} (h1 : Runes a) (h2 : ∀ c ∈ a, c ≠ '\r' ∧ c ≠ '\n')
    (h3 : NoRune s ∨ ∃ t, s = '\r' :: t ∨ s = '\n' :: t) (hp : g <+: s) (hg : Blank g) :
    Blank ('/' :: '/' :: a ++ g) := by
  intro l
  obtain ⟨l', h⟩ := hg (shift l (a.length + 2))
  refine ⟨l', .line h1 h2 ?_ h⟩
  rcases h3 with h3 | ⟨t, h3⟩
  · exact .inl (noRune_prefix h3 hp)
  · cases g with
    | nil => left; intro r u hr e; cases hr <;> cases e
    | cons x xs =>
      obtain ⟨u, e⟩ := hp
      right
      rcases h3 with rfl | rfl <;> cases e
      · exact ⟨xs, .inl rfl⟩
      · exact ⟨xs, .inr rfl⟩

theorem blank_block {a g : Str} (h1 : Runes a) (h2 : ¬ c!"*/" <:+: a) (hg : Blank g) :
    Blank (c!"/*" ++ a ++ c!"*/" ++ g) :=
  fun _ => let ⟨l', h⟩ := hg _; ⟨l', .block h1 h2 h⟩

theorem blank_openBlock {a g s : Str} (h1 : Runes a) (h2 : ¬ c!"*/" <:+: a) (h3 : NoRune s) (hp : g <+: s)
    (hg : Blank g) : Blank (c!"/*" ++ a ++ g) :=
  fun _ => let ⟨l', h⟩ := hg _; ⟨l', .openBlock h1 h2 (noRune_prefix h3 hp) h⟩

theorem lexed_located {l : Loc} {s : Str} {ts : List Token} (h : Lexed l s ts) :
    ∀ l0 pre, l = advance l0 pre → Bd pre s →
      (∀ t ∈ ts, t.kind = .string → ∀ c ∈ t.text, c ≠ '\r' ∧ c ≠ '\n') → Located l0 pre s ts := by
  induction h with
  | eof => exact fun l0 pre e _ _ => .eof blank_nil (by rw [List.append_nil]; exact e)
  | bad h =>
    exact fun l0 pre e _ _ => .bad (gap := []) blank_nil h (by rw [List.append_nil]; exact e)
  | @blank l c s ts hc _ ih =>
    intro l0 pre e hb hn
    refine Spec.Located.skip (w := [c]) (fun g _ => blank_blank hc) (ih l0 _ ?_ ?_ hn)
    · have hc' : c ≠ '\r' ∧ c ≠ '\n' := by rcases hc with rfl | rfl <;> decide
      rw [advance_append (.inr (by rintro t e; cases e; exact hc'.2 rfl)), advance_plain (by simpa using hc'), e]
      rfl
    · exact .inl (not_ends_cr (by rcases hc with rfl | rfl <;> decide))
  | @crlf l s ts _ ih =>
    intro l0 pre e hb hn
    refine Spec.Located.skip (w := c!"\r\n") (fun g _ => blank_crlf) (ih l0 _ ?_ ?_ hn)
    · rw [advance_append (.inr (by rintro t ⟨⟩)), e]; simp [advance]
    · refine .inl ?_
      rintro ⟨x, e⟩
      have : pre ++ c!"\r" ++ ['\n'] = x ++ ['\r'] := by simpa using e
      exact not_ends_cr (by decide) ⟨x, this⟩
  | @cr l s ts hs _ ih =>
    intro l0 pre e hb hn
    refine Spec.Located.skip (w := c!"\r") (fun g hp => blank_cr hs hp) (ih l0 _ ?_ (.inr hs) hn)
    rw [advance_append (.inr (by rintro t ⟨⟩)), e]; simp [advance]
  | @lf l s ts _ ih =>
    intro l0 pre e hb hn
    refine Spec.Located.skip (w := c!"\n") (fun g _ => blank_lf) (ih l0 _ ?_ ?_ hn)
    · rw [advance_append (.inl ?_), e]
      · simp [advance]
      · rcases hb with hb | hb
        · exact hb
        · exact absurd rfl (hb s)
    · exact .inl (not_ends_cr (by decide))
  | @line l a s ts h1 h2 h3 _ ih =>
    intro l0 pre e hb hn
    have pl : ∀ c ∈ '/' :: '/' :: a, c ≠ '\r' ∧ c ≠ '\n' := by
      intro c hc
      simp only [List.mem_cons] at hc
      rcases hc with rfl | rfl | hc
      · decide
      · decide
      · exact h2 c hc
    have := Spec.Located.skip (l := l0) (pre := pre) (w := '/' :: '/' :: a) (s := s) (ts := ts) (fun g hp => blank_line h1 h2 h3 hp) (ih l0 _ ?_ ?_ hn)
    · simpa using this
    · rw [advance_append (.inr (by rintro t ⟨⟩)), advance_plain pl, e]; rfl
    · exact .inl (ends_of_mem (by simp) fun c hc => (pl c hc).1)
  | @block l a s ts h1 h2 _ ih =>
    intro l0 pre e hb hn
    refine Spec.Located.skip (w := c!"/*" ++ a ++ c!"*/") (fun g _ => blank_block h1 h2) (ih l0 _ ?_ ?_ hn)
    · rw [advance_append (a := pre) (.inr (by rintro t ⟨⟩)), e]
    · refine .inl ?_
      have : pre ++ (c!"/*" ++ a ++ c!"*/") = pre ++ (c!"/*" ++ a ++ c!"*") ++ ['/'] := by simp
      rw [this]; exact not_ends_cr (by decide)
  | @openBlock l a s ts h1 h2 h3 _ ih =>
    intro l0 pre e hb hn
    refine Spec.Located.skip (w := c!"/*" ++ a) (fun g hp => blank_openBlock h1 h2 h3 hp) (ih l0 _ ?_ ?_ hn)
    · rw [advance_append (a := pre) (.inr (by rintro t ⟨⟩)), e]
    · exact .inr (noRune_not_lf h3)
  | @tok l k text lexeme s ts hs hc _ ih =>
    intro l0 pre e hb hn
    have pl : ∀ c ∈ lexeme, c ≠ '\r' ∧ c ≠ '\n' := by
      intro c hm
      by_cases hk : k = .string
      · have hq := hn _ (List.mem_cons_self ..) hk
        subst hk
        cases hs with
        | keyword h => simp [keywords] at h
        | string _ _ =>
          simp only [List.mem_cons, List.mem_append, List.not_mem_nil, or_false] at hm
          rcases hm with rfl | hm | rfl
          · decide
          · exact hq c hm
          · decide
      · have := spells_no_sep hs hk c hm
        exact ⟨fun e => this (by subst e; decide), fun e => this (by subst e; decide)⟩
    obtain ⟨d, ds, rfl, hd⟩ := spells_head hs
    have hstop : shift l (d :: ds).length = advance l0 (pre ++ [] ++ d :: ds) := by
      rw [List.append_nil, advance_append (.inr (by rintro t ⟨⟩; exact hd (by decide))), advance_plain pl, e]
    refine .cons (gap := []) blank_nil hs hc (by rw [List.append_nil]; exact e) hstop (ih l0 _ hstop ?_ ?_)
    · exact .inl (ends_of_mem (by simp) fun c hc => (pl c hc).1)
    · exact fun t ht => hn t (List.mem_cons_of_mem _ ht)

theorem tokenize_located {src : ConstraintSource}
    (h : ∀ t ∈ tokenize src, t.kind = .string → ∀ c ∈ t.text, c ≠ '\r' ∧ c ≠ '\n') :
    Located src.loc [] src.str (tokenize src) :=
  lexed_located (tokenize_lexed src) src.loc [] rfl (.inl (by rintro ⟨x, e⟩; simp at e)) h

/-! ### Coverage -/

theorem Spec.Covers.skip {r w s : Str} {ts : List (Kind × Str)}
    (hB : ∀ g, g <+: s → Blank g → Blank (w ++ g)) (h : Covers r s ts) : Covers r (w ++ s) ts := by
  cases h with
  | stop hg => rw [← List.append_assoc]; exact .stop (hB _ (List.prefix_append _ _) hg)
  | tok hg hs hc h => rw [← List.append_assoc]; exact .tok (hB _ (List.prefix_append _ _) hg) hs hc h

/-- What comes after the tokens. -/
def Ending (last : Token) (r : Str) : Prop :=
  (last.kind = .endOfInput ∧ r = []) ∨ (last.kind = .unexpectedChar ∧ r ≠ [] ∧ Unlexable r)

theorem spells_proper {k : Kind} {t l : Str} (h : Spells k t l) : k ≠ .endOfInput ∧ k ≠ .unexpectedChar := by
  cases h with
  | keyword h => constructor <;> rintro rfl <;> simp [keywords] at h
  | _ => exact ⟨nofun, nofun⟩

theorem lexed_covers {l : Loc} {s : Str} {ts : List Token} (h : Lexed l s ts) :
    ∃ toks last r, ts = toks ++ [last] ∧ (∀ t ∈ toks, t.kind ≠ .endOfInput ∧ t.kind ≠ .unexpectedChar) ∧
      Covers r s (toks.map kindText) ∧ Ending last r := by
  induction h with
  | eof => exact ⟨[], _, [], rfl, by simp, .stop blank_nil, .inl ⟨rfl, rfl⟩⟩
  | bad h => exact ⟨[], _, _, rfl, by simp, .stop (gap := []) blank_nil, .inr ⟨rfl, by simp, h⟩⟩
  | @blank l c s ts hc _ ih =>
    obtain ⟨toks, last, r, e, h1, h2, h3⟩ := ih
    exact ⟨toks, last, r, e, h1, Spec.Covers.skip (w := [c]) (fun g _ => blank_blank hc) h2, h3⟩
  | crlf _ ih =>
    obtain ⟨toks, last, r, e, h1, h2, h3⟩ := ih
    exact ⟨toks, last, r, e, h1, Spec.Covers.skip (w := c!"\r\n") (fun g _ => blank_crlf) h2, h3⟩
  | cr hs _ ih =>
    obtain ⟨toks, last, r, e, h1, h2, h3⟩ := ih
    exact ⟨toks, last, r, e, h1, Spec.Covers.skip (w := c!"\r") (fun g hp => blank_cr hs hp) h2, h3⟩
  | lf _ ih =>
    obtain ⟨toks, last, r, e, h1, h2, h3⟩ := ih
    exact ⟨toks, last, r, e, h1, Spec.Covers.skip (w := c!"\n") (fun g _ => blank_lf) h2, h3⟩
  | @line l a s ts a1 a2 a3 _ ih =>
    obtain ⟨toks, last, r, e, h1, h2, h3⟩ := ih
    refine ⟨toks, last, r, e, h1, ?_, h3⟩
    exact Spec.Covers.skip (w := '/' :: '/' :: a) (fun g hp => blank_line a1 a2 a3 hp) h2
  | block a1 a2 _ ih =>
    obtain ⟨toks, last, r, e, h1, h2, h3⟩ := ih
    exact ⟨toks, last, r, e, h1, Spec.Covers.skip (fun g _ => blank_block a1 a2) h2, h3⟩
  | openBlock a1 a2 a3 _ ih =>
    obtain ⟨toks, last, r, e, h1, h2, h3⟩ := ih
    exact ⟨toks, last, r, e, h1, Spec.Covers.skip (fun g hp => blank_openBlock a1 a2 a3 hp) h2, h3⟩
  | @tok l k text lexeme s ts hs hc _ ih =>
    obtain ⟨toks, last, r, e, h1, h2, h3⟩ := ih
    refine ⟨_ :: toks, last, r, by rw [e]; rfl, ?_, .tok (gap := []) blank_nil hs hc h2, h3⟩
    intro t ht
    rcases List.mem_cons.1 ht with rfl | ht
    · exact spells_proper hs
    · exact h1 t ht

/-! ### Order -/

theorem locLe_refl (a : Loc) : LocLe a a := .inr ⟨rfl, Int.le_refl _⟩

theorem Spec.LocLe.trans {a b c : Loc} (h : LocLe a b) (h' : LocLe b c) : LocLe a c := by
  unfold LocLe at *; omega

theorem Spec.LocLt.le {a b : Loc} (h : LocLt a b) : LocLe a b := by
  unfold LocLe LocLt at *; omega

theorem advance_le (l : Loc) (a : Str) : LocLe l (advance l a) := by
  induction a generalizing l with
  | nil => exact locLe_refl l
  | cons c cs ih =>
    simp only [advance]
    refine LocLe.trans ?_ (ih _)
    split
    · exact locLe_refl l
    · split
      · exact .inl (by simp [nextLine]; omega)
      · exact .inr ⟨rfl, by simp [shift]; omega⟩

theorem advance_append_le (l : Loc) (a b : Str) : LocLe (advance l a) (advance l (a ++ b)) := by
  by_cases h : ¬ (∃ x, a = x ++ ['\r']) ∨ ∀ t, b ≠ '\n' :: t
  · rw [advance_append h]; exact advance_le _ _
  · have h1 : ∃ x, a = x ++ ['\r'] := Classical.byContradiction fun h' => h (.inl h')
    have h2 : ∃ t, b = '\n' :: t := Classical.byContradiction fun h' => h (.inr fun t e => h' ⟨t, e⟩)
    obtain ⟨x, rfl⟩ := h1
    obtain ⟨t, rfl⟩ := h2
    have e1 : x ++ ['\r'] ++ '\n' :: t = x ++ ('\r' :: '\n' :: t) := by simp
    rw [e1, advance_append (.inr (by rintro t ⟨⟩)), advance_append (.inr (by rintro t ⟨⟩))]
    simp only [advance]
    simpa using advance_le (nextLine (advance l x)) t

theorem Spec.Located.starts {l : Loc} {pre s : Str} {ts : List Token} (h : Located l pre s ts) :
    ∀ t ∈ ts, LocLe (advance l pre) t.start := by
  induction h with
  | eof _ e => intro t ht; simp at ht; subst ht; rw [e]; exact advance_append_le ..
  | bad _ _ e => intro t ht; simp at ht; subst ht; rw [e]; exact advance_append_le ..
  | cons hg hs hc e1 e2 _ ih =>
    intro t ht
    rcases List.mem_cons.1 ht with rfl | ht
    · rw [e1]; exact advance_append_le ..
    · refine LocLe.trans ?_ (ih t ht)
      rw [List.append_assoc]; exact advance_append_le ..

theorem Spec.Located.pairwise {l : Loc} {pre s : Str} {ts : List Token} (h : Located l pre s ts) :
    ts.Pairwise fun a b => LocLe a.stop b.start := by
  induction h with
  | eof => simp
  | bad => simp
  | cons _ _ _ _ e2 h ih =>
    refine List.pairwise_cons.2 ⟨fun t ht => ?_, ih⟩
    rw [e2]; exact h.starts t ht

end P4C
