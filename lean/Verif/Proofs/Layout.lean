import Verif.Proofs.LexedUnique
import Verif.Spec.Layout
/-!
# Layout: separators, insertion of separators, token locations
-/
namespace P4C
open Spec

/-- The tokens of a text without locations. -/
def tokensOf (s : Str) : List (Kind × Str) := (tokenize { str := s }).map kindText

/-- Tokens do not depend on the location of the text, except for their locations. -/
theorem lexed_relocate {l : Loc} {s : Str} {ts : List Token} (h : Lexed l s ts) :
    ∀ l', ∃ ts', Lexed l' s ts' ∧ ts'.map kindText = ts.map kindText := by
  induction h with
  | eof => exact fun l' => ⟨_, .eof, rfl⟩
  | bad h => exact fun l' => ⟨_, .bad h, rfl⟩
  | blank hc _ ih => exact fun l' => let ⟨ts', h, e⟩ := ih (shift l' 1); ⟨ts', .blank hc h, e⟩
  | crlf _ ih => exact fun l' => let ⟨ts', h, e⟩ := ih (nextLine l'); ⟨ts', .crlf h, e⟩
  | cr hc _ ih => exact fun l' => let ⟨ts', h, e⟩ := ih (nextLine l'); ⟨ts', .cr hc h, e⟩
  | lf _ ih => exact fun l' => let ⟨ts', h, e⟩ := ih (nextLine l'); ⟨ts', .lf h, e⟩
  | line h1 h2 h3 _ ih => exact fun l' => let ⟨ts', h, e⟩ := ih _; ⟨ts', .line h1 h2 h3 h, e⟩
  | block h1 h2 _ ih => exact fun l' => let ⟨ts', h, e⟩ := ih _; ⟨ts', .block h1 h2 h, e⟩
  | openBlock h1 h2 h3 _ ih => exact fun l' => let ⟨ts', h, e⟩ := ih _; ⟨ts', .openBlock h1 h2 h3 h, e⟩
  | tok h1 h2 _ ih =>
    exact fun l' => let ⟨ts', h, e⟩ := ih _; ⟨_, .tok h1 h2 h, by simp [kindText, e]⟩

theorem tokensOf_eq {l : Loc} {s : Str} {ts : List Token} (h : Lexed l s ts) :
    tokensOf s = ts.map kindText := by
  obtain ⟨ts', h', e⟩ := lexed_relocate h {}
  rw [tokensOf, tokenize_iff.2 h', e]

theorem tokens_src (src : ConstraintSource) : (tokenize src).map kindText = tokensOf src.str :=
  (tokensOf_eq (tokenize_lexed src)).symm

theorem lexed_exists (l : Loc) (s : Str) : ∃ ts, Lexed l s ts := ⟨_, tokenize_lexed ⟨s, l⟩⟩

theorem tokensOf_lf (s : Str) : tokensOf ('\n' :: s) = tokensOf s := by
  obtain ⟨ts, h⟩ := lexed_exists (nextLine {}) s
  rw [tokensOf_eq (Lexed.lf h), tokensOf_eq h]

theorem tokensOf_crlf (s : Str) : tokensOf ('\r' :: '\n' :: s) = tokensOf s := by
  obtain ⟨ts, h⟩ := lexed_exists (nextLine {}) s
  rw [tokensOf_eq (Lexed.crlf h), tokensOf_eq h]

theorem tokensOf_cr (s : Str) : tokensOf ('\r' :: s) = tokensOf s := by
  by_cases hs : ∃ t, s = '\n' :: t
  · obtain ⟨t, rfl⟩ := hs
    rw [tokensOf_crlf, tokensOf_lf]
  · obtain ⟨ts, h⟩ := lexed_exists (nextLine {}) s
    rw [tokensOf_eq (Lexed.cr (fun t e => hs ⟨t, e⟩) h), tokensOf_eq h]

theorem tokensOf_blank {c : Char} (s : Str) (hc : c = ' ' ∨ c = '\t') : tokensOf (c :: s) = tokensOf s := by
  obtain ⟨ts, h⟩ := lexed_exists (shift {} 1) s
  rw [tokensOf_eq (Lexed.blank hc h), tokensOf_eq h]

theorem tokensOf_sep {w : Str} (h : Sep w) (s : Str) : tokensOf (w ++ s) = tokensOf s := by
  cases h with
  | blank => exact tokensOf_blank s (.inl rfl)
  | tab => exact tokensOf_blank s (.inr rfl)
  | lf => exact tokensOf_lf s
  | cr => exact tokensOf_cr s
  | crlf => exact tokensOf_crlf s
  | @line a e h1 h2 he =>
    have key : tokensOf (c!"//" ++ a ++ e ++ s) = tokensOf (e ++ s) := by
      obtain ⟨ts, h⟩ := lexed_exists (shift {} (a.length + 2)) (e ++ s)
      have := Lexed.line (l := {}) h1 h2 (.inr (by
        simp only [List.mem_cons, List.not_mem_nil, or_false] at he
        rcases he with rfl | rfl | rfl
        · exact ⟨s, .inr rfl⟩
        · exact ⟨s, .inl rfl⟩
        · exact ⟨'\n' :: s, .inl rfl⟩)) h
      have e1 : c!"//" ++ a ++ e ++ s = '/' :: '/' :: (a ++ (e ++ s)) := by simp
      rw [e1, tokensOf_eq this, tokensOf_eq h]
    rw [key]
    simp only [List.mem_cons, List.not_mem_nil, or_false] at he
    rcases he with rfl | rfl | rfl
    · exact tokensOf_lf s
    · exact tokensOf_cr s
    · exact tokensOf_crlf s
  | @block a h1 h2 =>
    obtain ⟨ts, h⟩ := lexed_exists (advance {} (c!"/*" ++ a ++ c!"*/")) s
    rw [tokensOf_eq (Lexed.block h1 h2 h), tokensOf_eq h]

theorem tokensOf_seps {w : Str} (h : Seps w) (s : Str) : tokensOf (w ++ s) = tokensOf s := by
  induction h with
  | nil => rfl
  | cons h1 _ ih => rw [List.append_assoc, tokensOf_sep h1, ih]

theorem tokensOf_tok {k : Kind} {t l s : Str} (h : Spells k t l) (hc : Chosen (l ++ s) k l) :
    tokensOf (l ++ s) = (k, t) :: tokensOf s := by
  obtain ⟨ts, h'⟩ := lexed_exists (shift {} l.length) s
  rw [tokensOf_eq (Lexed.tok h hc h'), tokensOf_eq h']; rfl

theorem tokensOf_reads {r s : Str} {ts : List (Kind × Str)} (h : Reads r s ts) :
    tokensOf s = ts ++ tokensOf r := by
  induction h with
  | done => rfl
  | sep h _ ih => rw [tokensOf_sep h, ih]
  | tok h hc _ ih => rw [tokensOf_tok h hc, ih]; rfl

theorem reads_suffix {r s : Str} {ts : List (Kind × Str)} (h : Reads r s ts) : ∃ a, s = a ++ r := by
  induction h with
  | done => exact ⟨[], rfl⟩
  | sep _ _ ih => obtain ⟨a, rfl⟩ := ih; exact ⟨_, (List.append_assoc ..).symm⟩
  | tok _ _ _ ih => obtain ⟨a, rfl⟩ := ih; exact ⟨_, (List.append_assoc ..).symm⟩

/-- The first character of a separator. -/
theorem sep_head {w : Str} (h : Sep w) : ∃ c cs, w = c :: cs ∧ c ∈ c!" \t\r\n/" := by
  cases h with
  | line => exact ⟨'/', _, rfl, by decide⟩
  | block => exact ⟨'/', _, rfl, by decide⟩
  | _ => exact ⟨_, _, rfl, by decide⟩

/-- Only string literals contain white space or slashes. -/
theorem spells_no_sep {k : Kind} {t l : Str} (h : Spells k t l) (hk : k ≠ .string) :
    ∀ c ∈ l, c ∉ c!" \t\r\n/" := by
  have hid : ∀ c, isIdChar c = true → c ∉ c!" \t\r\n/" := by
    intro c hc hm
    simp only [List.mem_cons, List.not_mem_nil, or_false] at hm
    rcases hm with rfl | rfl | rfl | rfl | rfl <;> revert hc <;> decide
  have hx : ∀ c, HexDigit c → isIdChar c = true := by
    intro c hc
    rw [isIdChar_iff]
    rcases hc with h | h | h
    · exact .inr h
    · refine .inl (.inr (.inl ⟨h.1, Char.le_trans h.2 (by decide)⟩))
    · refine .inl (.inr (.inr ⟨h.1, Char.le_trans h.2 (by decide)⟩))
  have num : ∀ {b : Char} {s : Str}, isIdChar b = true → (∀ d ∈ s, isIdChar d = true) →
      ∀ c ∈ '0' :: b :: s, c ∉ c!" \t\r\n/" := by
    intro b s hb hs c hc
    simp only [List.mem_cons] at hc
    rcases hc with rfl | rfl | hc
    · decide
    · exact hid _ hb
    · exact hid _ (hs c hc)
  cases h with
  | keyword h =>
    simp only [keywords, List.mem_cons, Prod.mk.injEq, List.not_mem_nil, or_false] at h
    rcases h with ⟨_, rfl⟩ | ⟨_, rfl⟩ | ⟨_, rfl⟩ | ⟨_, rfl⟩ | ⟨_, rfl⟩ | ⟨_, rfl⟩ | ⟨_, rfl⟩ | ⟨_, rfl⟩ |
      ⟨_, rfl⟩ | ⟨_, rfl⟩ | ⟨_, rfl⟩ | ⟨_, rfl⟩ | ⟨_, rfl⟩ | ⟨_, rfl⟩ | ⟨_, rfl⟩ | ⟨_, rfl⟩ | ⟨_, rfl⟩ |
      ⟨_, rfl⟩ <;> decide
  | id h1 h2 =>
    intro c hc
    simp only [List.mem_cons] at hc
    rcases hc with rfl | hc
    · exact hid _ (isIdChar_iff.2 (.inl h1))
    · exact hid _ (isIdChar_iff.2 (h2 c hc))
  | binary hb _ h =>
    exact num (by rcases hb with rfl | rfl <;> decide) fun d hd => by rcases h d hd with rfl | rfl <;> decide
  | octary hb _ h =>
    exact num (by rcases hb with rfl | rfl <;> decide) fun d hd =>
      isIdChar_iff.2 (.inr ⟨(h d hd).1, Char.le_trans (h d hd).2 (by decide)⟩)
  | hexadec hb _ h =>
    exact num (by rcases hb with rfl | rfl <;> decide) fun d hd => hx d (h d hd)
  | decimal _ h => exact fun c hc => hid c (isIdChar_iff.2 (.inr (h c hc)))
  | decimalD hb _ h =>
    exact num (by rcases hb with rfl | rfl <;> decide) fun d hd => isIdChar_iff.2 (.inr (h d hd))
  | string => exact absurd rfl hk

theorem spells_string {k : Kind} {t l : Str} (h : Spells k t l) (hq : ∃ cs, l = '\'' :: cs) :
    k = .string ∧ ∃ s, l = '\'' :: (s ++ ['\'']) ∧ '\'' ∉ s ∧ t = s := by
  obtain ⟨cs, hq⟩ := hq
  cases h with
  | string h1 h2 => exact ⟨rfl, _, rfl, h2, rfl⟩
  | keyword h =>
    subst hq
    simp [keywords] at h
  | id h => cases hq; exact absurd h (by unfold Letter; decide)
  | decimal _ h => subst hq; exact absurd (h '\'' (by simp)) (by unfold Digit; decide)
  | _ => cases hq

theorem prefix_append_cases {a b c : Str} (h : a <+: b ++ c) : a <+: b ∨ ∃ d, d ≠ [] ∧ a = b ++ d ∧ d <+: c := by
  rcases List.prefix_append_or h with h | ⟨d, hd, h⟩
  · exact .inl h
  · by_cases e : d = []
    · subst e; left; simp at hd; subst hd; exact List.prefix_refl _
    · exact .inr ⟨d, e, hd, h⟩
where
  List.prefix_append_or {a b c : Str} (h : a <+: b ++ c) : a <+: b ∨ ∃ d, a = b ++ d ∧ d <+: c := by
    obtain ⟨t, ht⟩ := h
    rcases List.append_eq_append_iff.1 ht with ⟨d, h1, h2⟩ | ⟨d, h1, h2⟩
    · exact .inl ⟨d, h1.symm⟩
    · exact .inr ⟨d, h1, t, h2.symm⟩

/-- A chosen token stays chosen if a separator and anything else follows. -/
theorem chosen_after {k : Kind} {t l a b w : Str} (h : Spells k t l) (hc : Chosen (l ++ a) k l)
    (hw : Seps w) (hne : w ≠ []) : Chosen (l ++ (a ++ (w ++ b))) k l := by
  cases hw with
  | nil => exact absurd rfl hne
  | @cons u v hu hv =>
    obtain ⟨c, cs, rfl, hcs⟩ := sep_head hu
    -- A text without white space that is a prefix afterwards was one before.
    have key : ∀ p : Str, (∀ x ∈ p, x ∉ c!" \t\r\n/") → p <+: l ++ (a ++ (((c :: cs) ++ v) ++ b)) →
        p <+: l ++ a := by
      intro p hp hpre
      rw [← List.append_assoc] at hpre
      rcases prefix_append_cases hpre with h | ⟨d, hd, rfl, hdp⟩
      · exact h
      · obtain ⟨x, xs, rfl⟩ := List.exists_cons_of_ne_nil hd
        obtain ⟨_, e⟩ := hdp
        have ex : x = c := by simpa using (List.cons.inj e).1
        subst ex
        exact absurd hcs (hp _ (by simp))
    refine ⟨fun hp => hc.isTrue (key _ (by decide) hp), fun hp => hc.isFalse (key _ (by decide) hp), ?_⟩
    intro h1 h2 k' t' l' hs hp
    by_cases hk : k' = .string
    · subst hk
      have hq : ∃ cs, l' = '\'' :: cs := by
        cases hs with
        | string => exact ⟨_, rfl⟩
        | keyword h => simp [keywords] at h
      obtain ⟨_, s, rfl, hns, _⟩ := spells_string hs hq
      obtain ⟨d, ds, rfl, _⟩ := spells_head h
      have hd : d = '\'' := by obtain ⟨_, e⟩ := hp; simp at e; exact e.1.symm
      subst hd
      obtain ⟨_, s', e, hns', _⟩ := spells_string h ⟨_, rfl⟩
      cases e
      have e2 : ∃ y z : Str, s ++ '\'' :: y = s' ++ '\'' :: z := by
        obtain ⟨y, e⟩ := hp
        exact ⟨y, a ++ (((c :: cs) ++ v) ++ b), by simpa using e⟩
      obtain ⟨y, z, e2⟩ := e2
      have : s = s' := by
        rcases List.append_eq_append_iff.1 e2 with ⟨x, h1, h2⟩ | ⟨x, h1, h2⟩
        · cases x with
          | nil => simpa using h1.symm
          | cons x xs => cases h2; exact absurd (by rw [h1]; simp) hns'
        · cases x with
          | nil => simpa using h1
          | cons x xs => cases h2; exact absurd (by rw [h1]; simp) hns
      rw [this]; exact Nat.le_refl _
    · exact hc.longest h1 h2 k' t' l' hs (key _ (spells_no_sep hs hk) hp)

theorem chosen_shorten {k : Kind} {l a b : Str} (hc : Chosen (l ++ (a ++ b)) k l) : Chosen (l ++ a) k l := by
  have key : ∀ p : Str, p <+: l ++ a → p <+: l ++ (a ++ b) := fun p hp => by
    rw [← List.append_assoc]; exact hp.trans (List.prefix_append _ _)
  exact ⟨fun h => hc.isTrue (key _ h), fun h => hc.isFalse (key _ h),
    fun h1 h2 k' t' l' hs hp => hc.longest h1 h2 k' t' l' hs (key _ hp)⟩

/-- A chosen token stays chosen if a separator is inserted somewhere after it. -/
theorem chosen_insert {k : Kind} {t l a b w : Str} (h : Spells k t l) (hc : Chosen (l ++ (a ++ b)) k l)
    (hw : Seps w) : Chosen (l ++ (a ++ (w ++ b))) k l := by
  by_cases e : w = []
  · subst e; exact hc
  · exact chosen_after h (chosen_shorten hc) hw e

/-- A token on its own is chosen, except for identifiers starting with a truth value. -/
theorem chosen_alone {k : Kind} {t l : Str} (h : Spells k t l)
    (hi : k = .id → ¬ c!"true" <+: l ∧ ¬ c!"false" <+: l) : Chosen l k l := by
  have head : ∀ {c : Char} {x y : Str}, c :: x <+: y → ∃ z, y = c :: z := by
    rintro c x y ⟨t, rfl⟩; exact ⟨_, rfl⟩
  have kw : ∀ {p : Str} {m : Kind}, (m = .true_ ∧ p = c!"true") ∨ (m = .false_ ∧ p = c!"false") → p <+: l → k = m := by
    intro p m hm hp
    cases h with
    | keyword h =>
      simp only [keywords, List.mem_cons, Prod.mk.injEq, List.not_mem_nil, or_false] at h
      rcases hm with ⟨rfl, rfl⟩ | ⟨rfl, rfl⟩ <;>
      · rcases h with ⟨rfl, rfl⟩ | ⟨rfl, rfl⟩ | ⟨rfl, rfl⟩ | ⟨rfl, rfl⟩ | ⟨rfl, rfl⟩ | ⟨rfl, rfl⟩ | ⟨rfl, rfl⟩ |
          ⟨rfl, rfl⟩ | ⟨rfl, rfl⟩ | ⟨rfl, rfl⟩ | ⟨rfl, rfl⟩ | ⟨rfl, rfl⟩ | ⟨rfl, rfl⟩ | ⟨rfl, rfl⟩ | ⟨rfl, rfl⟩ |
          ⟨rfl, rfl⟩ | ⟨rfl, rfl⟩ | ⟨rfl, rfl⟩ <;> first | rfl | exact absurd hp (by decide)
    | id =>
      rcases hm with ⟨rfl, rfl⟩ | ⟨rfl, rfl⟩
      · exact absurd hp (hi rfl).1
      · exact absurd hp (hi rfl).2
    | decimal hne hd =>
      rcases hm with ⟨rfl, rfl⟩ | ⟨rfl, rfl⟩
      · obtain ⟨z, rfl⟩ := head hp; exact absurd (hd 't' (by simp)) (by unfold Digit; decide)
      · obtain ⟨z, rfl⟩ := head hp; exact absurd (hd 'f' (by simp)) (by unfold Digit; decide)
    | _ => rcases hm with ⟨rfl, rfl⟩ | ⟨rfl, rfl⟩ <;> · obtain ⟨z, hz⟩ := head hp; cases hz
  exact ⟨fun h => kw (.inl ⟨rfl, rfl⟩) h, fun h => kw (.inr ⟨rfl, rfl⟩) h, fun _ _ _ _ _ _ hp => hp.length_le⟩

theorem reads_insert {b s : Str} {ts : List (Kind × Str)} (h : Reads b s ts) {w : Str} (hw : Seps w) :
    ∀ a, s = a ++ b → Reads (w ++ b) (a ++ (w ++ b)) ts := by
  induction h with
  | done =>
    intro a e
    have : a = [] := by simpa using e
    subst this; exact .done
  | @sep u s ts hu hr ih =>
    intro a e
    obtain ⟨a', rfl⟩ := reads_suffix hr
    rw [← List.append_assoc] at e
    have := List.append_cancel_right e
    subst this
    rw [List.append_assoc]
    exact .sep hu (ih a' rfl)
  | @tok k t l s ts hsp hc hr ih =>
    intro a e
    obtain ⟨a', rfl⟩ := reads_suffix hr
    rw [← List.append_assoc] at e
    have := List.append_cancel_right e
    subst this
    rw [List.append_assoc]
    exact .tok hsp (chosen_insert hsp hc hw) (ih a' rfl)

theorem tokensOf_insert {a b w : Str} {ts : List (Kind × Str)} (h : Reads b (a ++ b) ts) (hw : Seps w) :
    tokensOf (a ++ w ++ b) = tokensOf (a ++ b) := by
  rw [List.append_assoc, tokensOf_reads (reads_insert h hw a rfl), tokensOf_reads h, tokensOf_seps hw]

end P4C
