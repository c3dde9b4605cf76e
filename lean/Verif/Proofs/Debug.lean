import Verif.Model.Debug
import Verif.Spec.Debug
import Verif.Proofs.Comment
import Verif.Proofs.Lexed
import Verif.Proofs.Annotation
import Verif.Proofs.EvalPure

/-
Lemmas for C103: the `DCHECK`s hold.
-/

namespace P4C

open Spec

/-- The checked outcome is the unchecked one, unless there are `DCHECK`s and `P` is false: then the process may be stopped. -/
def Dbg {α : Type} (m : Checks) (P : Prop) (d r : Res α) : Prop :=
  d = r ∨ ((m.dchecks = true ∧ ¬ P) ∧ d = .crash)

theorem Dbg.refl {α : Type} {m : Checks} {P : Prop} (r : Res α) : Dbg m P r r := .inl rfl

theorem Dbg.eq {α : Type} {m : Checks} {P : Prop} {d r : Res α} (h : Dbg m P d r) (hp : P) : d = r := by
  rcases h with h | ⟨⟨_, h⟩, _⟩
  · exact h
  · exact absurd hp h

theorem Dbg.release {α : Type} {m : Checks} {P : Prop} {d r : Res α} (h : Dbg m P d r) (hm : m.dchecks = false) : d = r := by
  rcases h with h | ⟨⟨h, _⟩, _⟩
  · exact h
  · rw [hm] at h; cases h

theorem Dbg.same {α : Type} {m : Checks} {P : Prop} {d r : Res α} (h : Dbg m P d r) : SameOrStopped d r :=
  h.imp id (·.2)

theorem Dbg.mono {α : Type} {m : Checks} {P Q : Prop} {d r : Res α} (h : Dbg m Q d r) (hpq : P → Q) : Dbg m P d r :=
  h.imp id (fun ⟨h1, h2⟩ => ⟨⟨h1.1, fun hp => h1.2 (hpq hp)⟩, h2⟩)

theorem Dbg.bind {α β : Type} {m : Checks} {P : Prop} {d r : Res α} {f g : α → Res β} (h : Dbg m P d r)
    (hf : ∀ a, r = .ok a → Dbg m P (f a) (g a)) : Dbg m P (d >>= f) (r >>= g) := by
  rcases h with rfl | ⟨hp, rfl⟩
  · cases d with
    | ok a => exact hf a rfl
    | err c => exact .inl rfl
    | crash => exact .inl rfl
    | oof => exact .inl rfl
  · exact .inr ⟨hp, rfl⟩

theorem Dbg.bind_ok {α β : Type} {m : Checks} {P : Prop} {d : Res α} {a : α} {f : α → Res β} {r : Res β}
    (h : Dbg m P d (.ok a)) (hf : Dbg m P (f a) r) : Dbg m P (d >>= f) r := by
  rcases h with rfl | ⟨hp, rfl⟩
  · exact hf
  · exact .inr ⟨hp, rfl⟩

theorem dcheck_dbg {P : Prop} (m : Checks) {c : Bool} (h : P → c = true) : Dbg m P (m.dcheck c) (.ok ()) := by
  unfold Checks.dcheck
  by_cases hp : P
  · simp [h hp, Dbg]
  · by_cases hc : (m.dchecks && !c) = true
    · rw [if_pos hc]
      simp only [Bool.and_eq_true] at hc
      exact .inr ⟨⟨hc.1, hp⟩, rfl⟩
    · rw [if_neg hc]; exact .inl rfl

theorem log_ok (m : Checks) {c : Bool} (h : c = true) : m.log c = .ok () := by
  simp [Checks.log, h]

theorem dcheck_ok (m : Checks) {c : Bool} (h : c = true) : m.dcheck c = .ok () := by
  simp [Checks.dcheck, h]

/-! ### Regular expressions and characters -/

theorem Runes.split_rune {s : Str} (h : Runes s) (hne : s ≠ []) : ∃ r t, s = r ++ t ∧ Rune r ∧ Runes t := by
  cases h with
  | nil => exact absurd rfl hne
  | cons hr ht => exact ⟨_, _, rfl, hr, ht⟩

theorem cls_len_runes {k : Cls} {s : Str} {n : Nat} (hs : Runes s) (h : k.len s = some n) :
    Runes (s.drop n) ∧ 0 < n ∧ n ≤ s.length := by
  cases s with
  | nil => simp [Cls.len] at h
  | cons c cs =>
    obtain ⟨r, t, he, hr, ht⟩ := Runes.split_rune hs (by simp)
    rw [Cls.len_cons] at h
    by_cases hc : c.toNat < 0x80
    · rw [if_pos hc] at h
      have hn : n = 1 := by
        split at h
        · exact (Option.some.inj h).symm
        · cases h
      subst hn
      have hu := Rune.unique (Rune.ascii hc) hr (u := cs) (v := t) (by simpa using he)
      refine ⟨?_, by omega, by simp⟩
      simp only [List.drop_succ_cons, List.drop_zero]
      rw [hu.2]; exact ht
    · rw [if_neg hc] at h
      split at h
      · obtain ⟨r', t', he', hr', hl, _⟩ := multiByteLen_iff.1 h
        have hu := Rune.unique hr' hr (u := t') (v := t) (he'.symm.trans he)
        have hpos := Rune.length_pos hr'
        rw [he', ← hl, List.drop_left, hu.2]
        exact ⟨ht, hpos, by simp⟩
      · cases h

theorem starLens_runes {k : Cls} {fuel : Nat} {s : Str} {n : Nat} (hs : Runes s) (h : n ∈ starLens k fuel s) :
    Runes (s.drop n) := by
  induction fuel generalizing s n with
  | zero => simp [starLens] at h; subst h; simpa using hs
  | succ fuel ih =>
    rw [starLens] at h
    cases hl : k.len s with
    | none => simp [hl] at h; subst h; simpa using hs
    | some j =>
      simp only [hl, List.mem_append, List.mem_map, List.mem_singleton] at h
      rcases h with ⟨i, hi, rfl⟩ | rfl
      · have := ih (cls_len_runes hs hl).1 hi
        rwa [List.drop_drop] at this
      · simpa using hs

theorem matches_runes {r : Re} {s : Str} {x : Match} (hs : Runes s) (h : x ∈ r.matches s) : Runes (s.drop x.1) := by
  induction r generalizing s x with
  | eps => simp [Re.matches] at h; subst h; simpa using hs
  | cls k =>
    rw [Re.matches] at h
    cases hl : k.len s with
    | none => simp [hl] at h
    | some n => simp [hl] at h; subst h; exact (cls_len_runes hs hl).1
  | star k =>
    rw [Re.matches, List.mem_map] at h
    obtain ⟨n, hn, rfl⟩ := h
    exact starLens_runes hs hn
  | seq r t ihr iht =>
    obtain ⟨m1, h1, m2, h2, rfl⟩ := mem_seq.1 h
    have := iht (ihr hs h1) h2
    rwa [List.drop_drop] at this
  | alt r t ihr iht =>
    rw [Re.matches, List.mem_append] at h
    exact h.elim (ihr hs) (iht hs)
  | opt r ih =>
    rw [Re.matches, List.mem_append] at h
    rcases h with h | h
    · exact ih hs h
    · simp at h; subst h; simpa using hs
  | grp g r ih =>
    obtain ⟨m1, h1, rfl⟩ := mem_grp.1 h
    have := ih hs h1
    exact this

theorem first_runes {r : Re} {s : Str} {x : Match} (hs : Runes s) (h : r.first s = some x) : Runes (s.drop x.1) :=
  matches_runes hs (first_mem h)

/-! ### The lexer -/

/-- A match of `kCommentRegexp` is not empty, and one of the three groups took part. -/
theorem comment_match {s : Str} {x : Match} (h : commentRegexp.first s = some x) :
    0 < x.1 ∧ (capture .endOfComment x ≠ [] ∨ capture .fragment x ≠ [] ∨ capture .newline x ≠ []) := by
  rw [comment_first_eq] at h
  by_cases h1 : c!"*/".isPrefixOf s
  · rw [if_pos h1] at h
    simp only [Option.some_or, Option.some.injEq] at h
    subst h
    refine ⟨by simp, .inl ?_⟩
    obtain ⟨t, rfl⟩ := List.isPrefixOf_iff_prefix.1 h1
    simp [capture, lookup]
  · rw [if_neg h1, Option.none_or] at h
    cases hf : ((Re.plus fragCls).first s).or (if c!"*".isPrefixOf s then some (1, []) else none) with
    | some y =>
      rw [hf, Option.map_some, Option.some_or, Option.some.injEq] at h
      have hy : 0 < y.1 ∧ s ≠ [] := by
        cases hp : (Re.plus fragCls).first s with
        | some z =>
          rw [hp, Option.some_or, Option.some.injEq] at hf
          subst hf
          rw [first_plus_neg, Option.map_eq_some_iff] at hp
          obtain ⟨n, hn, rfl⟩ := hp
          obtain ⟨r, t, rfl, hr, hl, _⟩ := fragCls_neg.len_iff.1 hn
          have := Rune.length_pos hr
          refine ⟨by simp only; omega, ?_⟩
          intro he
          have := congrArg List.length he
          simp at this
          exact Rune.ne_nil hr this.1
        | none =>
          rw [hp, Option.none_or] at hf
          split at hf
          · rename_i hpre
            simp only [Option.some.injEq] at hf
            subst hf
            obtain ⟨t, rfl⟩ := List.isPrefixOf_iff_prefix.1 hpre
            simp
          · cases hf
      subst h
      refine ⟨hy.1, .inr (.inl ?_)⟩
      simp only [capture, lookup, if_true, Option.getD_some, ne_eq, List.take_eq_nil_iff, not_or]
      exact ⟨by omega, hy.2⟩
    | none =>
      rw [hf, Option.map_none, Option.none_or, Option.map_map, Option.map_eq_some_iff] at h
      obtain ⟨n, hn, rfl⟩ := h
      unfold newlineLen at hn
      split at hn <;> simp only [Option.some.injEq, reduceCtorEq] at hn <;> subst hn <;>
        exact ⟨by simp [Lexeme.toMatch], .inr (.inr (by simp [Lexeme.toMatch, capture, lookup]))⟩

/-- If `kCommentRegexp` does not match a sequence of characters, then this is empty. -/
theorem comment_stop {s : Str} (hs : Runes s) (h : commentRegexp.first s = none) : s = [] := by
  apply Classical.byContradiction
  intro hne
  obtain ⟨r, t, rfl, hr, _⟩ := Runes.split_rune hs hne
  rw [comment_first_eq] at h
  simp only [Option.or_eq_none_iff, Option.map_eq_none_iff] at h
  obtain ⟨_, ⟨h2, h3⟩, h4⟩ := h
  rw [first_plus_neg, Option.map_eq_none_iff, fragCls_neg.len_none_iff] at h2
  obtain ⟨c, hc, hm⟩ := h2 r t rfl hr
  rcases Rune.cases' hr with ⟨d, rfl, _⟩ | h80
  · simp only [List.mem_singleton] at hc
    subst hc
    rw [fragCls_mem] at hm
    rcases hm with rfl | rfl | rfl
    · simp [newlineLen] at h4
    · simp only [List.cons_append, List.nil_append] at h4
      unfold newlineLen at h4
      split at h4 <;> simp_all
    · simp at h3
  · have := h80 c hc
    have := fragCls_neg.ascii c hm
    omega

theorem swallowD_dbg (m : Checks) {fuel : Nat} {s : Str} {l : Loc} (hf : s.length ≤ fuel) :
    Dbg m (Runes s) (swallowCommentD m fuel s l) (.ok (swallowComment fuel s l)) ∧
    (Runes s → Runes (swallowComment fuel s l).1) := by
  induction fuel generalizing s l with
  | zero =>
    have : s = [] := List.length_eq_zero_iff.1 (by omega)
    subst this
    exact ⟨.inl (by simp [swallowCommentD, swallowComment, Checks.dcheck]), id⟩
  | succ fuel ih =>
    unfold swallowCommentD swallowComment
    cases hx : commentRegexp.first s with
    | none =>
      refine ⟨Dbg.bind_ok (dcheck_dbg m fun hr => ?_) (.refl _), id⟩
      rw [comment_stop hr hx]; rfl
    | some x =>
      obtain ⟨hpos, hcap⟩ := comment_match hx
      have hr : Runes s → Runes (s.drop x.1) := fun h => first_runes h hx
      have hl : (s.drop x.1).length ≤ fuel := by rw [List.length_drop]; omega
      simp only
      split
      · exact ⟨.refl _, hr⟩
      · rename_i h1
        split
        · exact ⟨(ih hl).1.mono hr, fun h => (ih hl).2 (hr h)⟩
        · rename_i h2
          have h3 : capture .newline x ≠ [] := by
            rcases hcap with h | h | h
            · exact absurd h h1
            · exact absurd h h2
            · exact h
          rw [log_ok m (by simpa using h3)]
          exact ⟨(ih hl).1.mono hr, fun h => (ih hl).2 (hr h)⟩

/-- What the `LOG(ERROR)`s of the lexer claim not to happen does not happen. -/
theorem token_match {s : Str} {x : Match} (h : tokenPattern.first s = some x) :
    (capture .keyword x ≠ [] → (keywordToKind (s.take x.1)).isSome = true) ∧
    (capture .whitespace x ≠ [] ∨ capture .comment x ≠ [] ∨ capture .newline x ≠ [] ∨
      capture .beginMultilineComment x ≠ [] ∨ capture .keyword x ≠ [] ∨ capture .id x ≠ [] ∨ capture .binary x ≠ [] ∨
      capture .octary x ≠ [] ∨ capture .decimal x ≠ [] ∨ capture .hexadec x ≠ [] ∨ capture .string x ≠ []) := by
  rw [scan_first, Option.map_eq_some_iff] at h
  obtain ⟨L, hL, rfl⟩ := h
  have hok := scan_ok hL
  have hne := hok.text_ne
  have hself : capture L.1 L.toMatch = L.2.2 := capture_toMatch_self
  constructor
  · intro hk
    have : L.1 = .keyword := by
      apply Classical.byContradiction
      intro hn
      exact hk (capture_toMatch_ne (fun h => hn h.symm) (by simp))
    have h1 : L.toMatch.1 = L.2.1 := rfl
    rw [h1]
    cases hok <;> simp only [reduceCtorEq] at this
    · rename_i hl
      obtain ⟨k, hk, _⟩ := fixed_keyword hl
      simp [hk]
    · rename_i hl
      obtain ⟨k, hk, _⟩ := punct_keyword hl
      simp [hk]
  · have : capture L.1 L.toMatch ≠ [] := by rw [hself]; exact hne
    generalize L.toMatch = y at this
    cases hok <;> simp only at this <;> simp [this]

theorem tokenKindD_ok (m : Checks) {s : Str} {x : Match} (h : tokenPattern.first s = some x)
    (h1 : ¬ (capture .whitespace x ≠ [] ∨ capture .comment x ≠ [])) (h2 : ¬ capture .newline x ≠ [])
    (h3 : ¬ capture .beginMultilineComment x ≠ []) :
    ∃ y, tokenKindD m x (s.take x.1) = .ok y ∧ y = (
      if capture .keyword x ≠ [] then ((keywordToKind (s.take x.1)).getD .unexpectedChar, s.take x.1)
      else if capture .id x ≠ [] then (.id, s.take x.1)
      else if capture .binary x ≠ [] then (.binary, capture .binary x)
      else if capture .octary x ≠ [] then (.octary, capture .octary x)
      else if capture .decimal x ≠ [] then (.decimal, capture .decimal x)
      else if capture .hexadec x ≠ [] then (.hexadec, capture .hexadec x)
      else if capture .string x ≠ [] then
        (.string, ((capture .string x).drop 1).take ((capture .string x).length - 2))
      else (.unexpectedChar, s.take x.1)) := by
  obtain ⟨hk, hc⟩ := token_match h
  refine ⟨_, ?_, rfl⟩
  unfold tokenKindD
  split
  · rename_i h; rw [log_ok m (hk h)]; rfl
  split
  · rfl
  split
  · rfl
  split
  · rfl
  split
  · rfl
  split
  · rfl
  split
  · rfl
  · simp_all

theorem tokenizeFD_dbg (m : Checks) {fuel : Nat} {s : Str} {l : Loc} :
    Dbg m (Runes s) (tokenizeFD m fuel s l l) (.ok (tokenizeF fuel s l)) := by
  induction fuel generalizing s l with
  | zero => exact .refl _
  | succ fuel ih =>
    unfold tokenizeFD tokenizeF
    cases hx : tokenPattern.first s with
    | none => cases s <;> exact .refl _
    | some x =>
      have hr : Runes s → Runes (s.drop x.1) := fun h => first_runes h hx
      simp only
      refine Dbg.bind_ok (.inl (dcheck_ok m (by simp))) ?_
      split
      · exact ih.mono hr
      rename_i h1
      split
      · exact ih.mono hr
      rename_i h2
      split
      · have hsw := swallowD_dbg m (l := { l with col := l.col + (s.take x.1).length }) (Nat.le_refl (s.drop x.1).length)
        refine Dbg.bind_ok (hsw.1.mono hr) ?_
        exact ih.mono fun h => hsw.2 (hr h)
      rename_i h3
      obtain ⟨y, hy, he⟩ := tokenKindD_ok m hx h1 h2 h3
      refine Dbg.bind_ok (.inl hy) (Dbg.bind_ok (ih.mono hr) (.inl ?_))
      subst he
      repeat' split
      all_goals rfl

theorem tokenizeD_dbg (m : Checks) (src : ConstraintSource) :
    Dbg m (Runes src.str) (tokenizeD m src) (.ok (tokenize src)) := tokenizeFD_dbg m

/-! ### The parser -/

theorem tokenPrecedenceD_ok (m : Checks) {k : Kind} (h : hasPrecedence k = true) :
    tokenPrecedenceD m k = .ok (tokenPrecedence k) := by
  simp [tokenPrecedenceD, log_ok m h]

theorem parseD_eq (m : Checks) (sys : Sys) (k : ConstraintKind) (src : ConstraintSource) (fuel : Nat) :
    (∀ prec s, parseAboveD m sys k src fuel prec s = parseAbove sys k src fuel prec s) ∧
    (∀ prec e s, parseExtD m sys k src fuel prec e s = parseExt sys k src fuel prec e s) := by
  induction fuel with
  | zero => exact ⟨fun _ _ => by rw [parseAboveD, parseAbove], fun _ _ _ => by rw [parseExtD, parseExt]⟩
  | succ fuel ih =>
    constructor
    · intro prec s
      unfold parseAboveD parseAbove
      rw [tokenPrecedenceD_ok m (k := .bang) rfl, tokenPrecedenceD_ok m (k := .minus) rfl]
      simp only [ih.1, ih.2]
      rfl
    · intro prec e s
      unfold parseExtD parseExt
      simp only
      split
      · rfl
      split
      · rename_i hext
        rw [tokenPrecedenceD_ok m (by revert hext; cases s.peek.kind <;> simp [isExtension, hasPrecedence])]
        show (if _ then _ else _) = _
        split
        · rfl
        rename_i h1
        split
        · rfl
        rename_i h2
        rw [dcheck_ok m (by
          have : prec < tokenPrecedence s.peek.kind := by
            apply Classical.byContradiction
            intro hn
            apply h2
            by_cases he : prec = tokenPrecedence s.peek.kind
            · refine .inr ⟨he, ?_⟩
              have h3 : tokenAssociativity s.peek.kind ≠ .none := fun h => h1 ⟨he, h⟩
              revert h3
              cases s.peek.kind <;> simp [tokenAssociativity]
            · exact .inl (by omega)
          simp [this])]
        simp only [ih.1, ih.2]
        rfl
      · rfl

theorem parseTokensD_eq (m : Checks) (sys : Sys) (k : ConstraintKind) (ts : List Token) (src : ConstraintSource) :
    parseTokensD m sys k ts src = parseTokens sys k ts src := by
  unfold parseTokensD parseTokens
  rw [(parseD_eq m sys k src _).1]

theorem parseConstraintD_dbg (m : Checks) (sys : Sys) (k : ConstraintKind) (src : ConstraintSource) :
    Dbg m (Runes src.str) (parseConstraintD m sys k src) (parseConstraint sys k src) := by
  unfold parseConstraintD parseConstraint
  refine Dbg.bind_ok (tokenizeD_dbg m src) ?_
  rw [parseTokensD_eq]
  exact .refl _

end P4C
