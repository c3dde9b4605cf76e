import Verif.Proofs.Lex

/-
Block comments.
-/

namespace P4C

open Spec

theorem first_plus_neg {k : Cls} (s : Str) :
    (Re.plus k).first s = (k.len s).map fun n => (n + munch k (s.drop n).length (s.drop n), []) := by
  unfold Re.plus
  rw [first_seq_total (star_total k), first_cls]
  cases k.len s with
  | none => rfl
  | some n => simp [first_star]

/-- The class of characters of a comment fragment. -/
def fragCls : Cls := Re.noneOf c!"\n\r*"

theorem fragCls_neg : fragCls.Neg := noneOf_neg rfl

theorem fragCls_mem {c : Char} : fragCls.mem c = true ↔ c = '\n' ∨ c = '\r' ∨ c = '*' := by
  simp [fragCls, Re.noneOf]

theorem comment_first_eq (s : Str) :
    commentRegexp.first s =
      ((if c!"*/".isPrefixOf s then some (2, [(.endOfComment, s.take 2)]) else none : Option Match)).or
      (((((Re.plus fragCls).first s).or
          (if c!"*".isPrefixOf s then some (1, []) else none)).map
            fun m => (m.1, (.fragment, s.take m.1) :: m.2)).or
       (((newlineLen s).map fun n => ((.newline, n, s.take n) : Lexeme)).map Lexeme.toMatch)) := by
  unfold commentRegexp Re.alts Re.alts Re.alts
  rw [first_alt, first_alt, newline_first, first_grp, first_grp, first_alt, first_lit (by decide),
    first_lit (by decide)]
  congr 1
  split <;> rfl

/-- One step of the comment loop, on input that does not end the comment. -/
theorem swallow_frag {fuel : Nat} {f s : Str} {loc : Loc} (hf : f ≠ []) (hr : Runes f)
    (hm : ∀ c ∈ f, fragCls.mem c = false) (hs : fragCls.len s = none) :
    swallowComment (fuel + 1) (f ++ s) loc = swallowComment fuel s (shift loc f.length) := by
  have hne : ∀ c cs, f ++ s = c :: cs → c ≠ '*' := by
    intro c cs h
    cases f with
    | nil => exact absurd rfl hf
    | cons d f =>
      simp only [List.cons_append, List.cons.injEq] at h
      rintro rfl
      have := hm d (List.mem_cons_self ..)
      rw [h.1, show fragCls.mem '*' = true from rfl] at this
      cases this
  have h1 : c!"*/".isPrefixOf (f ++ s) = false := by
    cases hfs : f ++ s with
    | nil => rfl
    | cons c cs =>
      have := hne c cs hfs
      simp [List.isPrefixOf, Ne.symm this]
  have hfirst : (Re.plus fragCls).first (f ++ s) = some (f.length, []) := by
    rw [first_plus_neg]
    obtain ⟨a, b, he, hmu, ha, ham, hb⟩ := fragCls_neg.munch_iff (fuel := (f ++ s).length) (s := f ++ s)
      (Nat.le_refl _)
    obtain ⟨rfl, rfl⟩ := Runes.stop_unique fragCls_neg hr ha hm ham he hs hb
    cases hl : fragCls.len (f ++ s) with
    | none =>
      cases hr with
      | nil => exact absurd rfl hf
      | @cons r t hr ht =>
        have := fragCls_neg.len_iff.2 ⟨r, t ++ s, List.append_assoc .., hr, rfl,
          fun c hc => hm c (List.mem_append_left _ hc)⟩
        rw [hl] at this; cases this
    | some n =>
      have hn := fragCls_neg.len_some hl
      cases hlen : (f ++ s).length with
      | zero => omega
      | succ L =>
        rw [hlen] at hmu
        unfold munch at hmu
        rw [hl] at hmu
        dsimp only at hmu
        obtain ⟨a', b', he', hmu', ha', ham', hb'⟩ := fragCls_neg.munch_iff
          (fuel := ((f ++ s).drop n).length) (s := (f ++ s).drop n) (Nat.le_refl _)
        obtain ⟨a2, b2, he2, hmu2, ha2, ham2, hb2⟩ := fragCls_neg.munch_iff
          (fuel := L) (s := (f ++ s).drop n) (by rw [List.length_drop]; omega)
        obtain ⟨rfl, rfl⟩ := Runes.stop_unique fragCls_neg ha' ha2 ham' ham2 (he'.symm.trans he2) hb' hb2
        simp only [Option.map_some, Option.some.injEq, Prod.mk.injEq, and_true]
        rw [hmu', ← hmu2, hmu]
  rw [swallowComment, comment_first_eq, h1, hfirst]
  simp only [Option.or, Option.map_some, Bool.false_eq_true, if_false]
  have hcap1 : capture .endOfComment ((f.length, [(Grp.fragment, (f ++ s).take f.length)]) : Match) = [] := rfl
  have hcap2 : capture .fragment ((f.length, [(Grp.fragment, (f ++ s).take f.length)]) : Match) = f := by
    simp [capture, lookup]
  rw [hcap1, hcap2]
  simp [hf, shift]

theorem swallow_end {fuel : Nat} {s : Str} {loc : Loc} :
    swallowComment (fuel + 1) ('*' :: '/' :: s) loc = (s, shift loc 2) := by
  rw [swallowComment, comment_first_eq]
  rfl

theorem swallow_star {fuel : Nat} {s : Str} {loc : Loc} (hs : ∀ t, s ≠ '/' :: t) :
    swallowComment (fuel + 1) ('*' :: s) loc = swallowComment fuel s (shift loc 1) := by
  have h1 : c!"*/".isPrefixOf ('*' :: s) = false := by
    cases s with
    | nil => rfl
    | cons c cs =>
      have : c ≠ '/' := fun h => hs cs (by rw [h])
      simp [List.isPrefixOf, Ne.symm this]
  have h2 : (Re.plus fragCls).first ('*' :: s) = none := by
    rw [first_plus_neg, fragCls_neg.len_cons_none (by rfl)]; rfl
  rw [swallowComment, comment_first_eq, h1, h2]
  rfl

theorem swallow_nl {fuel : Nat} {f s : Str} {loc : Loc}
    (h : f = c!"\r\n" ∨ (f = c!"\r" ∧ ∀ t, s ≠ '\n' :: t) ∨ f = c!"\n") :
    swallowComment (fuel + 1) (f ++ s) loc = swallowComment fuel s (nextLine loc) := by
  have h2 : ∀ c, c = '\r' ∨ c = '\n' → ∀ s, (Re.plus fragCls).first (c :: s) = none := by
    intro c hc s
    rw [first_plus_neg, fragCls_neg.len_cons_none (by rw [fragCls_mem]; rcases hc with rfl | rfl <;> simp)]; rfl
  rcases h with rfl | ⟨rfl, hs⟩ | rfl
  · rw [swallowComment, comment_first_eq]
    have := h2 '\r' (.inl rfl) (c!"\n" ++ s)
    simp only [List.cons_append, List.nil_append] at this ⊢
    rw [this]; rfl
  · rw [swallowComment, comment_first_eq]
    have := h2 '\r' (.inl rfl) s
    simp only [List.cons_append, List.nil_append] at this ⊢
    rw [this]
    have hn : newlineLen ('\r' :: s) = some 1 := by
      unfold newlineLen
      split
      · rename_i heq; cases heq; exact absurd rfl (hs _)
      · rfl
      · rfl
      · rename_i h1 h2 h3; exact absurd rfl (h2 s)
    rw [hn]; rfl
  · rw [swallowComment, comment_first_eq]
    have := h2 '\n' (.inr rfl) s
    simp only [List.cons_append, List.nil_append] at this ⊢
    rw [this]; rfl

theorem swallow_stop {fuel : Nat} {s : Str} {loc : Loc} (h : NoRune s) :
    swallowComment fuel s loc = (s, loc) := by
  cases fuel with
  | zero => rfl
  | succ fuel =>
    have h1 : (Re.plus fragCls).first s = none := by
      rw [first_plus_neg]
      have : fragCls.len s = none := by
        rw [fragCls_neg.len_none_iff]
        intro r t he hr
        exact absurd he (h r t hr)
      rw [this]; rfl
    rw [swallowComment, comment_first_eq, h1]
    cases s with
    | nil => rfl
    | cons c cs =>
      have hc := noRune_head h
      have e1 : c!"*/".isPrefixOf (c :: cs) = false := by
        have : ('*' == c) = false := by
          rw [beq_eq_false_iff_ne]; rintro rfl; revert hc; decide
        simp [List.isPrefixOf, this]
      have e2 : c!"*".isPrefixOf (c :: cs) = false := by
        have : ('*' == c) = false := by
          rw [beq_eq_false_iff_ne]; rintro rfl; revert hc; decide
        simp [List.isPrefixOf, this]
      have e3 : newlineLen (c :: cs) = none := by
        unfold newlineLen
        split <;> first | rfl | (rename_i heq; cases heq; revert hc; decide)
      rw [e1, e2, e3]
      rfl

theorem advance_append {l : Loc} {a b : Str} (h : ¬ (∃ x, a = x ++ ['\r']) ∨ ∀ t, b ≠ '\n' :: t) :
    advance l (a ++ b) = advance (advance l a) b := by
  induction a generalizing l with
  | nil => rfl
  | cons c a ih =>
    have hh : (a ++ b).head? = a.head? ∨ a = [] := by cases a <;> simp
    have ih' := fun l => ih (l := l) (by
      rcases h with h | h
      · left; rintro ⟨x, rfl⟩; exact h ⟨c :: x, rfl⟩
      · exact .inr h)
    simp only [List.cons_append, advance]
    rw [ih']
    congr 2
    rcases hh with hh | rfl
    · rw [hh]
    · rcases h with h | h
      · have : c ≠ '\r' := by rintro rfl; exact h ⟨[], rfl⟩
        simp [this]
      · have : b.head? ≠ some '\n' := by
          cases b with
          | nil => simp
          | cons d b => simp; rintro rfl; exact h b rfl
        simp [this]

theorem shift_shift (l : Loc) (m n : Nat) : shift (shift l m) n = shift l (m + n) := by
  simp [shift]; omega

theorem advance_plain {l : Loc} {a : Str} (h : ∀ c ∈ a, c ≠ '\r' ∧ c ≠ '\n') :
    advance l a = shift l a.length := by
  induction a generalizing l with
  | nil => simp [advance, shift]
  | cons c a ih =>
    have hc := h c (List.mem_cons_self ..)
    simp only [advance, hc.1, hc.2, false_and, or_self, if_false]
    rw [ih fun d hd => h d (List.mem_cons_of_mem _ hd), shift_shift]
    congr 1; simp; omega

theorem infix_cons {c : Char} {a : Str} : c!"*/" <:+: c :: a ↔ c!"*/" <+: c :: a ∨ c!"*/" <:+: a :=
  List.infix_cons_iff

theorem infix_append_plain {f a : Str} (h : '*' ∉ f) (hn : ¬ c!"*/" <:+: a) : ¬ c!"*/" <:+: f ++ a := by
  induction f with
  | nil => exact hn
  | cons c f ih =>
    simp only [List.mem_cons, not_or] at h
    rw [List.cons_append, infix_cons]
    rintro (hp | hi)
    · rw [List.cons_prefix_cons] at hp
      exact h.1 hp.1
    · exact ih h.2 hi

/-- The end of a block comment whose text starts with `s`, at `l`: the remaining text and the location
there. -/
inductive BlockEnd (l : Loc) (s rest : Str) : Loc → Prop where
  | closed {a : Str} : s = a ++ (c!"*/" ++ rest) → Runes a → ¬ c!"*/" <:+: a →
      BlockEnd l s rest (advance l (a ++ c!"*/"))
  | opened {a : Str} : s = a ++ rest → Runes a → ¬ c!"*/" <:+: a → NoRune rest →
      BlockEnd l s rest (advance l a)

/-- Prefixing a fragment. -/
theorem BlockEnd.prefix {l l' : Loc} {f s rest : Str} (hr : Runes f)
    (hstar : ∀ a, ¬ c!"*/" <:+: a → (a ++ c!"*/" <+: s ∨ a <+: s) → ¬ c!"*/" <:+: f ++ a)
    (hcr : ¬ (∃ x, f = x ++ ['\r']) ∨ ∀ t, s ≠ '\n' :: t)
    (h : BlockEnd (advance l f) s rest l') : BlockEnd l (f ++ s) rest l' := by
  have hcr' : ∀ b, b <+: s → ¬ (∃ x, f = x ++ ['\r']) ∨ ∀ t, b ≠ '\n' :: t := by
    intro b hb
    rcases hcr with hcr | hcr
    · exact .inl hcr
    · right
      rintro t rfl
      obtain ⟨u, rfl⟩ := hb
      exact hcr (t ++ u) rfl
  cases h with
  | @closed a hs ha hi =>
    have hpre : a ++ c!"*/" <+: s := ⟨rest, by rw [hs]; simp⟩
    rw [← advance_append (hcr' _ hpre), ← List.append_assoc]
    exact .closed (by rw [hs]; simp) (Runes.append hr ha) (hstar a hi (.inl hpre))
  | @opened a hs ha hi hn =>
    have hpre : a <+: s := ⟨rest, hs.symm⟩
    rw [← advance_append (hcr' _ hpre)]
    exact .opened (by rw [hs]; simp) (Runes.append hr ha) (hstar a hi (.inr hpre)) hn

theorem swallow_spec {fuel : Nat} {s : Str} {l : Loc} (hf : s.length ≤ fuel) :
    BlockEnd l s (swallowComment fuel s l).1 (swallowComment fuel s l).2 := by
  induction fuel generalizing s l with
  | zero =>
    have : s = [] := List.length_eq_zero_iff.1 (by omega)
    subst this
    exact BlockEnd.opened (a := []) rfl .nil (by simp) (by
      intro r t hr he
      have := Rune.length_pos hr
      have h0 : ([] : Str).length = (r ++ t).length := congrArg List.length he
      rw [List.length_append, List.length_nil] at h0
      omega)
  | succ fuel ih =>
    by_cases hno : NoRune s
    · rw [swallow_stop hno]
      exact BlockEnd.opened (a := []) rfl .nil (by simp) hno
    · by_cases hfr : fragCls.len s = none
      · -- the first character is a line break or a star
        have : ∃ c t, s = c :: t ∧ fragCls.mem c = true := by
          apply Classical.byContradiction
          intro hne
          apply hno
          intro r t hr he
          obtain ⟨c, hc, hm⟩ := fragCls_neg.len_none_iff.1 hfr r t he hr
          rcases Rune.cases' hr with ⟨d, rfl, _⟩ | h80
          · simp at hc; subst hc
            exact hne ⟨c, t, he, hm⟩
          · have := h80 c hc
            have := fragCls_neg.ascii c hm
            omega
        obtain ⟨c, t, rfl, hm⟩ := this
        rw [fragCls_mem] at hm
        rcases hm with rfl | rfl | rfl
        · have := swallow_nl (fuel := fuel) (f := c!"\n") (s := t) (loc := l) (.inr (.inr rfl))
          simp only [List.cons_append, List.nil_append] at this
          rw [this]
          have := BlockEnd.prefix (l := l) (f := c!"\n") (Runes.ascii (by decide)) (by
              intro a ha _; exact infix_append_plain (by decide) ha)
            (.inl (by rintro ⟨x, hx⟩; cases x <;> simp at hx))
            (ih (s := t) (l := nextLine l) (by simp at hf; omega))
          exact this
        · by_cases hn : ∃ u, t = '\n' :: u
          · obtain ⟨u, rfl⟩ := hn
            have := swallow_nl (fuel := fuel) (f := c!"\r\n") (s := u) (loc := l) (.inl rfl)
            simp only [List.cons_append, List.nil_append] at this
            rw [this]
            have := BlockEnd.prefix (l := l) (f := c!"\r\n") (Runes.ascii (by decide)) (by
                intro a ha _; exact infix_append_plain (by decide) ha)
              (.inl (by rintro ⟨x, hx⟩; rcases x with _ | ⟨_, _ | ⟨_, _⟩⟩ <;> simp at hx))
              (ih (s := u) (l := nextLine l) (by simp at hf; omega))
            exact this
          · have hn' : ∀ u, t ≠ '\n' :: u := fun u h => hn ⟨u, h⟩
            have := swallow_nl (fuel := fuel) (f := c!"\r") (s := t) (loc := l) (.inr (.inl ⟨rfl, hn'⟩))
            simp only [List.cons_append, List.nil_append] at this
            rw [this]
            have := BlockEnd.prefix (l := l) (f := c!"\r") (Runes.ascii (by decide)) (by
                intro a ha _; exact infix_append_plain (by decide) ha)
              (.inr hn') (ih (s := t) (l := nextLine l) (by simp at hf; omega))
            exact this
        · by_cases hn : ∃ u, t = '/' :: u
          · obtain ⟨u, rfl⟩ := hn
            rw [swallow_end]
            have := BlockEnd.closed (l := l) (a := []) (rest := u) rfl .nil (by simp)
            rw [advance_plain (by decide)] at this
            exact this
          · have hn' : ∀ u, t ≠ '/' :: u := fun u h => hn ⟨u, h⟩
            rw [swallow_star hn']
            have := BlockEnd.prefix (l := l) (f := c!"*") (s := t) (Runes.ascii (by decide)) (by
                intro a ha hpre
                rw [List.cons_append, List.nil_append, infix_cons]
                rintro (h | h)
                · rw [List.cons_prefix_cons] at h
                  have h2 : c!"/" <+: a := h.2
                  have h3 : a <+: t := by
                    rcases hpre with h | h
                    · exact (List.prefix_append _ _).trans h
                    · exact h
                  obtain ⟨w, hw⟩ := h2.trans h3
                  exact hn' w hw.symm
                · exact ha h)
              (.inl (by rintro ⟨x, hx⟩; cases x <;> simp at hx))
              (ih (s := t) (l := shift l 1) (by simp at hf; omega))
            exact this
      · -- a fragment
        obtain ⟨a, b, rfl, hmu, ha, ham, hb⟩ := fragCls_neg.munch_iff (s := s) (Nat.le_refl _)
        have hne : a ≠ [] := by
          rintro rfl
          exact hfr (by simpa using hb)
        rw [swallow_frag hne ha ham hb]
        have hplain : ∀ c ∈ a, c ≠ '\r' ∧ c ≠ '\n' := by
          intro c hc
          have h1 := ham c hc
          constructor <;> rintro rfl <;> revert h1 <;> decide
        have hlen := List.length_pos_iff.2 hne
        have h2 := ih (s := b) (l := shift l a.length) (by simp at hf; omega)
        rw [← advance_plain hplain] at h2 ⊢
        exact BlockEnd.prefix ha (fun x hx _ => infix_append_plain (by
            intro hs
            have := ham _ hs
            revert this; decide) hx)
          (.inl (by rintro ⟨x, rfl⟩; exact (hplain '\r' (by simp)).1 rfl)) h2

end P4C
