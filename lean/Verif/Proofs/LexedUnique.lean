import Verif.Proofs.Lexed

/-
The lexical specification determines the tokens.
-/

namespace P4C

open Spec

theorem digit_ne {c : Char} (h : isDec c = true) : c ≠ '\'' ∧ c ∉ c!"bBoOxXdD" := by
  constructor
  · rintro rfl; revert h; decide
  · intro hm
    simp only [List.mem_cons, List.not_mem_nil, or_false] at hm
    rcases hm with rfl | rfl | rfl | rfl | rfl | rfl | rfl | rfl <;> revert h <;> decide

/-- Kinds are told apart by how the lexeme starts. -/
theorem spells_form {k : Kind} {t l : Str} (h : Spells k t l) (h1 : l ≠ c!"true") (h2 : l ≠ c!"false") :
    (∃ c cs, l = c :: cs ∧ c ∈ c!"&|-:=!><().;" ∧ (k, l) ∈ keywords ∧ t = l) ∨
    (∃ c cs, l = c :: cs ∧ isIdStart c = true ∧ k = .id ∧ t = l) ∨
    (∃ b cs, l = '0' :: b :: cs ∧ (b = 'b' ∨ b = 'B') ∧ k = .binary ∧ t = cs) ∨
    (∃ b cs, l = '0' :: b :: cs ∧ (b = 'o' ∨ b = 'O') ∧ k = .octary ∧ t = cs) ∨
    (∃ b cs, l = '0' :: b :: cs ∧ (b = 'x' ∨ b = 'X') ∧ k = .hexadec ∧ t = cs) ∨
    (∃ b cs, l = '0' :: b :: cs ∧ (b = 'd' ∨ b = 'D') ∧ k = .decimal ∧ t = cs) ∨
    (∃ c cs, l = c :: cs ∧ isDec c = true ∧ (∀ d ∈ cs, isDec d = true) ∧ k = .decimal ∧ t = l) ∨
    (∃ cs, l = '\'' :: cs ∧ k = .string ∧ t = cs.dropLast) := by
  cases h with
  | keyword hk =>
    left
    have : ∀ p ∈ keywords, p.2 = c!"true" ∨ p.2 = c!"false" ∨
        ∃ c ∈ c!"&|-:=!><().;", p.2 = c :: p.2.tail := by decide
    rcases this _ hk with h | h | ⟨c, hc, h⟩
    · exact absurd h h1
    · exact absurd h h2
    · exact ⟨c, _, h, hc, hk, rfl⟩
  | id hc _ => exact .inr (.inl ⟨_, _, rfl, isIdStart_iff.2 hc, rfl, rfl⟩)
  | binary hb _ _ => exact .inr (.inr (.inl ⟨_, _, rfl, hb, rfl, rfl⟩))
  | octary hb _ _ => exact .inr (.inr (.inr (.inl ⟨_, _, rfl, hb, rfl, rfl⟩)))
  | hexadec hb _ _ => exact .inr (.inr (.inr (.inr (.inl ⟨_, _, rfl, hb, rfl, rfl⟩))))
  | decimalD hb _ _ => exact .inr (.inr (.inr (.inr (.inr (.inl ⟨_, _, rfl, hb, rfl, rfl⟩)))))
  | decimal hne hd =>
    cases t with
    | nil => exact absurd rfl hne
    | cons c cs =>
      exact .inr (.inr (.inr (.inr (.inr (.inr (.inl ⟨c, cs, rfl, isDec_iff.2 (hd c (by simp)),
        fun d hd' => isDec_iff.2 (hd d (by simp [hd'])), rfl, rfl⟩))))))
  | string _ _ =>
    exact .inr (.inr (.inr (.inr (.inr (.inr (.inr ⟨_, rfl, rfl, by simp⟩))))))

theorem punct_class {c : Char} (h : c ∈ c!"&|-:=!><().;") : isIdStart c = false ∧ isDec c = false ∧ c ≠ '\'' := by
  have : ∀ c ∈ c!"&|-:=!><().;", isIdStart c = false ∧ isDec c = false ∧ c ≠ '\'' := by decide
  exact this c h

theorem keyword_unique {k k' : Kind} {l : Str} (h : (k, l) ∈ keywords) (h' : (k', l) ∈ keywords) : k = k' := by
  have h1 := (keyword_lexeme h).1
  have h2 := (keyword_lexeme h').1
  rw [h1] at h2
  cases h2; rfl

/-- A coarse class for the start of a lexeme. -/
def startClass : Str → Nat
  | '0' :: b :: _ =>
    if b = 'b' ∨ b = 'B' then 3 else if b = 'o' ∨ b = 'O' then 4 else if b = 'x' ∨ b = 'X' then 5
    else if b = 'd' ∨ b = 'D' then 6 else 7
  | c :: _ => if c ∈ c!"&|-:=!><().;" then 1 else if isIdStart c then 2 else if isDec c then 7 else 8
  | [] => 0

theorem startClass_ne {c : Char} {cs : Str} (h : c ≠ '0') : startClass (c :: cs) =
    if c ∈ c!"&|-:=!><().;" then 1 else if isIdStart c then 2 else if isDec c then 7 else 8 := by
  unfold startClass
  split
  · rename_i heq; cases heq; exact absurd rfl h
  · rename_i heq; cases heq; rfl
  · rename_i heq; cases heq

theorem startClass_digits {c : Char} {cs : Str} (h : isDec c = true) (hs : ∀ d ∈ cs, isDec d = true) :
    startClass (c :: cs) = 7 := by
  by_cases hc : c = '0'
  · subst hc
    cases cs with
    | nil => rfl
    | cons b cs =>
      have := (digit_ne (hs b (by simp))).2
      simp only [List.mem_cons, List.not_mem_nil, or_false, not_or] at this
      simp [startClass, this]
  · have hp : c ∉ c!"&|-:=!><().;" := fun hm => by
      have := (punct_class hm).2.1
      rw [h] at this; cases this
    rw [startClass_ne hc, if_neg hp, (digit_not_keyword h).2]
    simp [h]

theorem startClass_id {c : Char} {cs : Str} (h : isIdStart c = true) : startClass (c :: cs) = 2 := by
  have h0 : c ≠ '0' := by rintro rfl; revert h; decide
  have hp : c ∉ c!"&|-:=!><().;" := fun hm => by
    have := (punct_class hm).1
    rw [h] at this; cases this
  rw [startClass_ne h0, if_neg hp, h]; rfl

theorem startClass_punct {c : Char} {cs : Str} (h : c ∈ c!"&|-:=!><().;") : startClass (c :: cs) = 1 := by
  have h0 : c ≠ '0' := by rintro rfl; revert h; decide
  rw [startClass_ne h0, if_pos h]

theorem spells_unique {k k' : Kind} {t t' l : Str} (h : Spells k t l) (h' : Spells k' t' l)
    (h1 : l ≠ c!"true") (h2 : l ≠ c!"false") : k = k' ∧ t = t' := by
  have class_of : ∀ {k : Kind} {t : Str}, Spells k t l →
      (startClass l = 1 ∧ (k, l) ∈ keywords ∧ t = l) ∨ (startClass l = 2 ∧ k = .id ∧ t = l) ∨
      (startClass l = 3 ∧ k = .binary ∧ t = l.drop 2) ∨ (startClass l = 4 ∧ k = .octary ∧ t = l.drop 2) ∨
      (startClass l = 5 ∧ k = .hexadec ∧ t = l.drop 2) ∨ (startClass l = 6 ∧ k = .decimal ∧ t = l.drop 2) ∨
      (startClass l = 7 ∧ k = .decimal ∧ t = l) ∨ (startClass l = 8 ∧ k = .string ∧ t = (l.drop 1).dropLast) := by
    intro k t h
    rcases spells_form h h1 h2 with ⟨c, cs, rfl, hc, hk, rfl⟩ | ⟨c, cs, rfl, hc, rfl, rfl⟩ |
      ⟨b, cs, rfl, hb, rfl, rfl⟩ | ⟨b, cs, rfl, hb, rfl, rfl⟩ | ⟨b, cs, rfl, hb, rfl, rfl⟩ |
      ⟨b, cs, rfl, hb, rfl, rfl⟩ | ⟨c, cs, rfl, hc, hd, rfl, rfl⟩ | ⟨cs, rfl, rfl, rfl⟩
    · exact .inl ⟨startClass_punct hc, hk, rfl⟩
    · exact .inr (.inl ⟨startClass_id hc, rfl, rfl⟩)
    · exact .inr (.inr (.inl ⟨by rcases hb with rfl | rfl <;> rfl, rfl, rfl⟩))
    · exact .inr (.inr (.inr (.inl ⟨by rcases hb with rfl | rfl <;> rfl, rfl, rfl⟩)))
    · exact .inr (.inr (.inr (.inr (.inl ⟨by rcases hb with rfl | rfl <;> rfl, rfl, rfl⟩))))
    · exact .inr (.inr (.inr (.inr (.inr (.inl ⟨by rcases hb with rfl | rfl <;> rfl, rfl, rfl⟩)))))
    · exact .inr (.inr (.inr (.inr (.inr (.inr (.inl ⟨startClass_digits hc hd, rfl, rfl⟩))))))
    · exact .inr (.inr (.inr (.inr (.inr (.inr (.inr ⟨rfl, rfl, rfl⟩))))))
  rcases class_of h with ⟨a, b, c⟩ | ⟨a, b, c⟩ | ⟨a, b, c⟩ | ⟨a, b, c⟩ | ⟨a, b, c⟩ | ⟨a, b, c⟩ | ⟨a, b, c⟩ |
      ⟨a, b, c⟩ <;>
    rcases class_of h' with ⟨a', b', c'⟩ | ⟨a', b', c'⟩ | ⟨a', b', c'⟩ | ⟨a', b', c'⟩ | ⟨a', b', c'⟩ |
      ⟨a', b', c'⟩ | ⟨a', b', c'⟩ | ⟨a', b', c'⟩ <;>
    first
    | (rw [a] at a'; cases a'; done)
    | exact ⟨keyword_unique b b', c.trans c'.symm⟩
    | exact ⟨b.trans b'.symm, c.trans c'.symm⟩

theorem spells_true {k : Kind} {t : Str} {l : Str} (h : Spells k t l) (hk : k = .true_ ∨ k = .false_) : t = l := by
  cases h with
  | keyword _ => rfl
  | _ => simp at hk

theorem chosen_unique {s : Str} {k k' : Kind} {t t' l l' r r' : Str} (hs : s = l ++ r) (hs' : s = l' ++ r')
    (h : Spells k t l) (h' : Spells k' t' l') (hc : Chosen s k l) (hc' : Chosen s k' l') :
    k = k' ∧ t = t' ∧ l = l' ∧ r = r' := by
  by_cases h1 : c!"true" <+: s
  · have e := hc.isTrue h1
    have e' := hc'.isTrue h1
    subst e e'
    have f := (spells_kind h).1 rfl
    have f' := (spells_kind h').1 rfl
    have g := spells_true h (.inl rfl)
    have g' := spells_true h' (.inl rfl)
    refine ⟨rfl, by rw [g, g', f, f'], f.trans f'.symm, ?_⟩
    rw [hs, f, f'] at hs'
    simpa using hs'
  · by_cases h2 : c!"false" <+: s
    · have e := hc.isFalse h2
      have e' := hc'.isFalse h2
      subst e e'
      have f := (spells_kind h).2 rfl
      have f' := (spells_kind h').2 rfl
      have g := spells_true h (.inr rfl)
      have g' := spells_true h' (.inr rfl)
      refine ⟨rfl, by rw [g, g', f, f'], f.trans f'.symm, ?_⟩
      rw [hs, f, f'] at hs'
      simpa using hs'
    · have lt : ∀ {x y : Str}, s = x ++ y → x ≠ c!"true" ∧ x ≠ c!"false" := by
        intro x y hx
        constructor
        · rintro rfl; exact h1 ⟨y, hx.symm⟩
        · rintro rfl; exact h2 ⟨y, hx.symm⟩
      have nk : ∀ {k : Kind} {t l r : Str}, s = l ++ r → Spells k t l → k ≠ .true_ ∧ k ≠ .false_ := by
        intro k t l r hx hsp
        constructor
        · intro hk; exact (lt hx).1 ((spells_kind hsp).1 hk)
        · intro hk; exact (lt hx).2 ((spells_kind hsp).2 hk)
      have a := hc.longest (nk hs h).1 (nk hs h).2 k' t' l' h' ⟨r', hs'.symm⟩
      have b := hc'.longest (nk hs' h').1 (nk hs' h').2 k t l h ⟨r, hs.symm⟩
      have hl : l.length = l'.length := by omega
      rw [hs] at hs'
      obtain ⟨rfl, rfl⟩ := List.append_inj hs' hl
      obtain ⟨rfl, rfl⟩ := spells_unique h h' (lt hs).1 (lt hs).2
      exact ⟨rfl, rfl, rfl, rfl⟩

/-! ### Fuel -/

theorem blockEnd_length {l l' : Loc} {s rest : Str} (h : BlockEnd l s rest l') : rest.length ≤ s.length := by
  cases h with
  | closed he => rw [he]; simp; omega
  | opened he => rw [he]; simp

theorem tokenizeF_fuel {f g : Nat} {s : Str} {l : Loc} (hf : s.length < f) (hg : s.length < g) :
    tokenizeF f s l = tokenizeF g s l := by
  induction f generalizing g s l with
  | zero => omega
  | succ f ih =>
    cases g with
    | zero => omega
    | succ g =>
      rw [tokenizeF_step, tokenizeF_step]
      cases hs : scan s with
      | none => rfl
      | some L =>
        have hlen := (scan_ok hs).len
        have hdrop : (s.drop L.2.1).length < f ∧ (s.drop L.2.1).length < g := by
          rw [List.length_drop]; omega
        have h1 := fun l => ih (g := g) (s := s.drop L.2.1) (l := l) hdrop.1 hdrop.2
        have h2 : ∀ l, tokenizeF f (swallowComment (s.drop L.2.1).length (s.drop L.2.1) l).1
              (swallowComment (s.drop L.2.1).length (s.drop L.2.1) l).2 =
            tokenizeF g (swallowComment (s.drop L.2.1).length (s.drop L.2.1) l).1
              (swallowComment (s.drop L.2.1).length (s.drop L.2.1) l).2 := by
          intro l
          have := blockEnd_length (swallow_spec (s := s.drop L.2.1) (l := l) (Nat.le_refl _))
          exact ih (by omega) (by omega)
        obtain ⟨gr, n, t⟩ := L
        cases gr <;> dsimp only at h1 h2 ⊢ <;> first | rw [h1] | rw [h2]

/-! ### Block comments -/

theorem close_unique {a a' r r' : Str} (he : a ++ (c!"*/" ++ r) = a' ++ (c!"*/" ++ r'))
    (ha : ¬ c!"*/" <:+: a) (ha' : ¬ c!"*/" <:+: a') : a = a' ∧ r = r' := by
  induction a generalizing a' with
  | nil =>
    cases a' with
    | nil => simpa using he
    | cons c a' =>
      exfalso
      simp only [List.nil_append, List.cons_append, List.cons.injEq] at he
      obtain ⟨rfl, he⟩ := he
      cases a' with
      | nil => simp at he
      | cons d a' =>
        simp only [List.cons_append, List.cons.injEq] at he
        obtain ⟨rfl, _⟩ := he
        exact ha' ⟨[], a', rfl⟩
  | cons c a ih =>
    cases a' with
    | nil =>
      exfalso
      simp only [List.nil_append, List.cons_append, List.cons.injEq] at he
      obtain ⟨rfl, he⟩ := he
      cases a with
      | nil => simp at he
      | cons d a =>
        simp only [List.cons_append, List.cons.injEq] at he
        obtain ⟨rfl, _⟩ := he
        exact ha ⟨[], a, rfl⟩
    | cons c' a' =>
      simp only [List.cons_append, List.cons.injEq] at he
      obtain ⟨rfl, he⟩ := he
      obtain ⟨rfl, rfl⟩ := ih (a' := a') (by simpa using he) (fun h => ha (infix_cons.2 (.inr h)))
        (fun h => ha' (infix_cons.2 (.inr h)))
      exact ⟨rfl, rfl⟩

theorem open_close {a a' r r' : Str} (he : a ++ (c!"*/" ++ r) = a' ++ r') (ha : Runes a) (ha' : Runes a')
    (hi : ¬ c!"*/" <:+: a') (hn : NoRune r') : False := by
  have h1 : Runes (a ++ c!"*/") := Runes.append ha (Runes.ascii (by decide))
  obtain ⟨z, hz, _⟩ := Runes.prefix anyCls_neg (x := a ++ c!"*/") (u := r) h1 ha' (by simp [anyCls])
    (by rw [List.append_assoc]; exact he) (noRune_iff.1 hn)
  exact hi ⟨a, z, by rw [hz]⟩

theorem blockEnd_unique {l l1 l2 : Loc} {s r1 r2 : Str} (h1 : BlockEnd l s r1 l1) (h2 : BlockEnd l s r2 l2) :
    r1 = r2 ∧ l1 = l2 := by
  cases h1 with
  | closed he ha hi =>
    cases h2 with
    | closed he' ha' hi' =>
      obtain ⟨rfl, rfl⟩ := close_unique (he.symm.trans he') hi hi'
      exact ⟨rfl, rfl⟩
    | opened he' ha' hi' hn' => exact (open_close (he.symm.trans he') ha ha' hi' hn').elim
  | opened he ha hi hn =>
    cases h2 with
    | closed he' ha' hi' => exact (open_close (he'.symm.trans he) ha' ha hi hn).elim
    | opened he' ha' hi' hn' =>
      obtain ⟨rfl, rfl⟩ := Runes.stop_unique anyCls_neg ha ha' (by simp [anyCls]) (by simp [anyCls])
        (he.symm.trans he') (noRune_iff.1 hn) (noRune_iff.1 hn')
      exact ⟨rfl, rfl⟩

/-! ### Completeness of the tokenizer -/

theorem scan_none_of_unlexable {s : Str} (h : Unlexable s) : scan s = none := by
  cases hs : scan s with
  | none => rfl
  | some L =>
    exfalso
    by_cases hg : L.1 ≠ .whitespace ∧ L.1 ≠ .newline ∧ L.1 ≠ .comment ∧ L.1 ≠ .beginMultilineComment
    · obtain ⟨k, text, lexeme, rest, rfl, _, hsp, _⟩ := scan_tokenOf hs hg
      exact h.token k text lexeme hsp ⟨rest, rfl⟩
    · have hok := scan_ok hs
      cases hok with
      | @whitespace a b hne ha =>
        cases a with
        | nil => exact hne rfl
        | cons c a =>
          refine h.space c ?_ ⟨a ++ b, rfl⟩
          rcases ha c (by simp) with rfl | rfl <;> decide
      | @crlf b => exact h.space '\r' (by decide) ⟨'\n' :: b, rfl⟩
      | @cr b => exact h.space '\r' (by decide) ⟨b, rfl⟩
      | @lf b => exact h.space '\n' (by decide) ⟨b, rfl⟩
      | @comment a b => exact h.comment.1 ⟨a ++ b, rfl⟩
      | @block b => exact h.comment.2 ⟨b, rfl⟩
      | _ => simp at hg

theorem scan_blank {a b : Str} (hne : a ≠ []) (ha : ∀ c ∈ a, c = ' ' ∨ c = '\t')
    (hb : ∀ c cs, b = c :: cs → ¬ (c = ' ' ∨ c = '\t')) :
    scan (a ++ b) = some (.whitespace, a.length, a) := by
  unfold scan scanSpace
  rw [scanPlus_append hne (by intro c hc; simpa using ha c hc) (by
    intro c cs hc
    have := hb c cs hc
    simpa using this)]
  rfl

theorem tokenizeF_blank {fuel : Nat} {c : Char} {s : Str} {l : Loc} (hc : c = ' ' ∨ c = '\t')
    (hf : s.length + 1 < fuel + 1) :
    tokenizeF (fuel + 1) (c :: s) l = tokenizeF fuel s (shift l 1) := by
  let p : Char → Bool := fun c => c = ' ' || c = '\t'
  let a := s.takeWhile p
  let b := s.dropWhile p
  have hs : s = a ++ b := (List.takeWhile_append_dropWhile).symm
  have ha : ∀ d ∈ a, d = ' ' ∨ d = '\t' := by
    intro d hd
    have := List.all_takeWhile (p := p) (l := s)
    rw [List.all_eq_true] at this
    simpa [p] using this d hd
  have hb : ∀ d cs, b = d :: cs → ¬ (d = ' ' ∨ d = '\t') := by
    intro d cs hd
    have := List.head?_dropWhile_not p s
    rw [show s.dropWhile p = d :: cs from hd] at this
    simpa [p] using this
  clear_value a b
  subst hs
  have h1 := scan_blank (a := c :: a) (b := b) (by simp) (by
    intro d hd
    rcases List.mem_cons.1 hd with rfl | hd
    · exact hc
    · exact ha d hd) hb
  have e1 : tokenizeF (fuel + 1) (c :: (a ++ b)) l = tokenizeF fuel b (shift l (a.length + 1)) := by
    rw [tokenizeF_step]
    rw [List.cons_append] at h1
    rw [h1]
    dsimp only
    rw [List.length_cons, List.drop_succ_cons, List.drop_left]
    rfl
  rw [e1]
  by_cases hne : a = []
  · subst hne; rfl
  · cases fuel with
    | zero => omega
    | succ fuel =>
      conv => rhs; rw [tokenizeF_step, scan_blank hne ha hb]
      dsimp only
      rw [List.drop_left]
      have : ({ shift l 1 with col := (shift l 1).col + (a.length : Nat) } : Loc) = shift l (a.length + 1) := by
        rw [Nat.add_comm, ← shift_shift]; rfl
      rw [this]
      have hpos := List.length_pos_iff.2 hne
      rw [List.length_append] at hf
      exact tokenizeF_fuel (by omega) (by omega)

theorem lexed_tokenizeF {s : Str} {l : Loc} {ts : List Token} (h : Lexed l s ts) :
    ∀ fuel, s.length < fuel → tokenizeF fuel s l = ts := by
  induction h with
  | eof =>
    intro fuel hf
    cases fuel with
    | zero => omega
    | succ fuel => rw [tokenizeF_step]; rfl
  | bad hu =>
    intro fuel hf
    cases fuel with
    | zero => omega
    | succ fuel => rw [tokenizeF_step, scan_none_of_unlexable hu]; rfl
  | blank hc _ ih =>
    intro fuel hf
    cases fuel with
    | zero => omega
    | succ fuel =>
      rw [List.length_cons] at hf
      rw [tokenizeF_blank hc hf]
      exact ih fuel (by omega)
  | @crlf l s ts _ ih =>
    intro fuel hf
    cases fuel with
    | zero => omega
    | succ fuel =>
      rw [tokenizeF_step]
      have : scan ('\r' :: '\n' :: s) = some (.newline, 2, c!"\r\n") := rfl
      rw [this]
      exact ih fuel (by simp at hf; omega)
  | @cr l s ts hne _ ih =>
    intro fuel hf
    cases fuel with
    | zero => omega
    | succ fuel =>
      rw [tokenizeF_step]
      have : scan ('\r' :: s) = some (.newline, 1, c!"\r") := by
        have hn : newlineLen ('\r' :: s) = some 1 := by
          unfold newlineLen
          split
          · rename_i heq; cases heq; exact absurd rfl (hne _)
          · rfl
          · rfl
          · rename_i h1 h2 h3; exact absurd rfl (h2 s)
        unfold scan scanSpace
        rw [scanPlus_none (by decide), hn]; rfl
      rw [this]
      exact ih fuel (by simp at hf; omega)
  | @lf l s ts _ ih =>
    intro fuel hf
    cases fuel with
    | zero => omega
    | succ fuel =>
      rw [tokenizeF_step]
      have : scan ('\n' :: s) = some (.newline, 1, c!"\n") := rfl
      rw [this]
      exact ih fuel (by simp at hf; omega)
  | @line l a s ts hr ha hs _ ih =>
    intro fuel hf
    cases fuel with
    | zero => omega
    | succ fuel =>
      have hn : (Re.noneOf c!"\r\n").Neg := noneOf_neg rfl
      have hm : ∀ c ∈ a, (Re.noneOf c!"\r\n").mem c = false := by
        intro c hc
        have := ha c hc
        simp [Re.noneOf, this.1, this.2]
      have hstop : (Re.noneOf c!"\r\n").len s = none := by
        rcases hs with hs | ⟨t, rfl | rfl⟩
        · rw [hn.len_none_iff]
          intro r t he hr
          exact absurd he (hs r t hr)
        · exact hn.len_cons_none (by decide)
        · exact hn.len_cons_none (by decide)
      obtain ⟨x, y, he, hmu, hx, hxm, hy⟩ := hn.munch_iff (s := a ++ s) (Nat.le_refl _)
      obtain ⟨h1, h2⟩ := Runes.stop_unique hn hr hx hm hxm he hstop hy
      rw [← h1] at hmu
      rw [tokenizeF_step]
      have : scan ('/' :: '/' :: (a ++ s)) =
          some (.comment, a.length + 2, ('/' :: '/' :: (a ++ s)).take (a.length + 2)) := by
        rw [← hmu]; rfl
      rw [this]
      dsimp only
      rw [List.drop_succ_cons, List.drop_succ_cons, List.drop_left]
      exact ih fuel (by simp at hf; omega)
  | @block l a s ts hr hi _ ih =>
    intro fuel hf
    cases fuel with
    | zero => omega
    | succ fuel =>
      rw [tokenizeF_step]
      have : scan (c!"/*" ++ a ++ c!"*/" ++ s) = some (.beginMultilineComment, 2, c!"/*") := rfl
      rw [this]
      dsimp only
      have hd : (c!"/*" ++ a ++ c!"*/" ++ s).drop 2 = a ++ (c!"*/" ++ s) := by simp
      rw [hd]
      have hb := BlockEnd.closed (l := shift l 2) (s := a ++ (c!"*/" ++ s)) rfl hr hi
      have hsw := swallow_spec (s := a ++ (c!"*/" ++ s)) (l := shift l 2) (Nat.le_refl _)
      obtain ⟨e1, e2⟩ := blockEnd_unique hsw hb
      have hadv : advance (shift l 2) (a ++ c!"*/") = advance l (c!"/*" ++ a ++ c!"*/") := by
        rw [List.append_assoc, advance_append (a := c!"/*")
          (.inl (by rintro ⟨x, hx⟩; rcases x with _ | ⟨_, _ | ⟨_, _⟩⟩ <;> simp at hx)),
          advance_plain (a := c!"/*") (by decide)]
        rfl
      rw [hadv] at e2
      show tokenizeF fuel (swallowComment (a ++ (c!"*/" ++ s)).length (a ++ (c!"*/" ++ s)) (shift l 2)).1
        (swallowComment (a ++ (c!"*/" ++ s)).length (a ++ (c!"*/" ++ s)) (shift l 2)).2 = ts
      rw [e1, e2]
      exact ih fuel (by simp at hf; omega)
  | @openBlock l a s ts hr hi hn _ ih =>
    intro fuel hf
    cases fuel with
    | zero => omega
    | succ fuel =>
      rw [tokenizeF_step]
      have : scan (c!"/*" ++ a ++ s) = some (.beginMultilineComment, 2, c!"/*") := rfl
      rw [this]
      dsimp only
      have hd : (c!"/*" ++ a ++ s).drop 2 = a ++ s := by simp
      rw [hd]
      have hb := BlockEnd.opened (l := shift l 2) (s := a ++ s) rfl hr hi hn
      have hsw := swallow_spec (s := a ++ s) (l := shift l 2) (Nat.le_refl _)
      obtain ⟨e1, e2⟩ := blockEnd_unique hsw hb
      have hadv : advance (shift l 2) a = advance l (c!"/*" ++ a) := by
        rw [advance_append (a := c!"/*")
          (.inl (by rintro ⟨x, hx⟩; rcases x with _ | ⟨_, _ | ⟨_, _⟩⟩ <;> simp at hx)),
          advance_plain (a := c!"/*") (by decide)]
        rfl
      rw [hadv] at e2
      show tokenizeF fuel (swallowComment (a ++ s).length (a ++ s) (shift l 2)).1
        (swallowComment (a ++ s).length (a ++ s) (shift l 2)).2 = ts
      rw [e1, e2]
      exact ih fuel (by simp at hf; omega)
  | @tok l k text lexeme s ts hsp hch _ ih =>
    intro fuel hf
    cases fuel with
    | zero => omega
    | succ fuel =>
      obtain ⟨L, hL, _⟩ := scan_spells (r := s) hsp
      have hg : L.1 ≠ .whitespace ∧ L.1 ≠ .newline ∧ L.1 ≠ .comment ∧ L.1 ≠ .beginMultilineComment := by
        obtain ⟨c, cs, rfl, hc⟩ := spells_head hsp
        have hok := scan_ok hL
        generalize hs : c :: cs ++ s = inp at hok
        rw [List.cons_append] at hs
        simp only [List.mem_cons, List.not_mem_nil, or_false, not_or] at hc
        cases hok with
        | @whitespace a b hne ha =>
          exfalso
          cases a with
          | nil => exact hne rfl
          | cons d a =>
            simp only [List.cons_append, List.cons.injEq] at hs
            have := ha d (by simp)
            rw [← hs.1] at this
            rcases this with h | h
            · exact hc.1 h
            · exact hc.2.1 h
        | crlf => have h0 := (List.cons.inj hs).1; rw [h0] at hc; simp at hc
        | cr => cases hs; simp at hc
        | lf => cases hs; simp at hc
        | comment => have h0 := (List.cons.inj hs).1; rw [h0] at hc; simp at hc
        | block => have h0 := (List.cons.inj hs).1; rw [h0] at hc; simp at hc
        | _ => simp
      obtain ⟨k', text', lexeme', rest, he, hl, hsp', ht⟩ := scan_tokenOf hL hg
      have hL' := hL
      rw [he] at hL'
      have hch' := chosen_of_scan hL' hl hsp' ht
      rw [← he] at hch'
      obtain ⟨rfl, rfl, rfl, rfl⟩ := chosen_unique (s := lexeme ++ s) rfl he hsp hsp' hch hch'
      have hlen := (scan_ok hL).len
      rw [tokenizeF_step, hL]
      have key : tokenOf L ((lexeme ++ s).take L.2.1) l { l with col := l.col + L.2.1 } ::
          tokenizeF fuel ((lexeme ++ s).drop L.2.1) { l with col := l.col + L.2.1 } =
          ⟨k, text, l, shift l lexeme.length⟩ :: ts := by
        rw [← hl, List.take_left, List.drop_left, ht]
        congr 1
        refine ih fuel ?_
        rw [List.length_append] at hlen hf
        omega
      obtain ⟨g, n, t⟩ := L
      cases g <;> first | exact key | simp at hg

/-- The tokenizer computes exactly the tokens of the lexical specification. -/
theorem tokenize_iff {src : ConstraintSource} {ts : List Token} :
    tokenize src = ts ↔ Lexed src.loc src.str ts :=
  ⟨fun h => h ▸ tokenize_lexed src, fun h => lexed_tokenizeF h _ (Nat.lt_succ_self _)⟩

end P4C
