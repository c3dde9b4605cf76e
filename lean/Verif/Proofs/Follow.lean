import Verif.Proofs.Viable

/-!
# What may follow a token
-/

namespace P4C

open Spec

/-- What may follow, given the tokens read so far, last one first. -/
def follows : List Kind → List Kind
  | [] => operandStarts
  | .dot :: _ => [.id]
  | .doubleColon :: _ => [.id]
  | .lpar :: .id :: _ => [.string]
  | .lpar :: _ => operandStarts
  | .string :: _ => [.rpar]
  | .semicolon :: _ => operandStarts ++ [.endOfInput, .rpar]
  | .id :: _ => operandNexts ++ [.dot, .lpar]
  | o :: _ => if o ∈ operandEnds then operandNexts else if o ∈ operators then operandStarts else []

theorem follows_end {o : Kind} (w : List Kind) (h : o ∈ operandEnds) : ∀ k ∈ operandNexts, k ∈ follows (o :: w) := by
  intro k hk
  cases o <;> first | (cases h; done) | (exact absurd h (by decide)) |
    (simp only [follows, operandEnds, List.mem_append, List.mem_cons, true_or, or_true, if_true]; first | exact hk | exact .inl hk)

/-- An operand may follow. -/
def Opens (w : List Kind) : Prop := (∀ k ∈ operandStarts, k ∈ follows w) ∧ ∀ v, w ≠ .id :: v

theorem opens_nil : Opens [] := ⟨fun _ h => h, fun _ h => by cases h⟩

theorem opens_operator {o : Kind} (w : List Kind) (h : o ∈ operators ∨ o = .semicolon) : Opens (o :: w) := by
  refine ⟨fun k hk => ?_, fun v e => by cases e; exact absurd h (by decide)⟩
  rcases h with h | rfl
  · cases o <;> first | (exact absurd h (by decide)) | exact hk
  · exact List.mem_append_left _ hk

theorem opens_paren {w : List Kind} (h : Opens w) : Opens (.lpar :: w) := by
  refine ⟨fun k hk => ?_, fun v e => by cases e⟩
  match w with
  | [] => exact hk
  | o :: v => cases o <;> first | exact hk | exact absurd rfl (h.2 v)

/-- Each token may follow those before. -/
def Chain (w ks : List Kind) : Prop := ∀ u k v, ks = u ++ k :: v → k ∈ follows (u.reverse ++ w)

theorem chain_nil (w : List Kind) : Chain w [] := by
  intro u k v e
  simp at e

theorem chain_cons {w ks : List Kind} {k : Kind} (h : k ∈ follows w) (h' : Chain (k :: w) ks) : Chain w (k :: ks) := by
  intro u k' v e
  cases u with
  | nil => cases e; exact h
  | cons x u =>
    simp only [List.cons_append, List.cons.injEq] at e
    obtain ⟨rfl, e⟩ := e
    have := h' u k' v e
    simpa using this

theorem chain_append {w : List Kind} : ∀ {a b : List Kind}, Chain w a → Chain (a.reverse ++ w) b → Chain w (a ++ b)
  | [], b, _, h => by simpa using h
  | x :: a, b, h, h' => by
    refine chain_cons (h [] x a rfl) (chain_append ?_ (by simpa using h'))
    intro u k v e
    have := h (x :: u) k v (by rw [e]; rfl)
    simpa using this

theorem chain_names {w ks : List Kind} (h : Names ks) (hw : Opens w) : Chain w ks := by
  induction h with
  | one => exact chain_cons (hw.1 _ (by decide)) (chain_nil _)
  | snoc h ih =>
    obtain ⟨u, rfl⟩ := names_last h
    refine chain_append ih (chain_cons ?_ (chain_cons ?_ (chain_nil _))) <;> simp [follows]

theorem chain_last {n : Nat} {ks w : List Kind} {k : Kind} (h : Shape n ks) (hk : k ∈ operandNexts) (hn : 1 ≤ n) :
    k ∈ follows (ks.reverse ++ w) := by
  obtain ⟨u, o, rfl, h' | h'⟩ := shape_last h
  · simpa using follows_end (u.reverse ++ w) h' k hk
  · omega

theorem chain_close {n : Nat} {ks w : List Kind} {k : Kind} (h : Shape n ks) (hk : k = .endOfInput ∨ k = .rpar) :
    k ∈ follows (ks.reverse ++ w) := by
  obtain ⟨u, o, rfl, h' | ⟨-, rfl⟩⟩ := shape_last h
  · simpa using follows_end (u.reverse ++ w) h' k (by rcases hk with rfl | rfl <;> decide)
  · rcases hk with rfl | rfl <;> simp [follows]

/-- Within expressions, each token may follow those before. -/
theorem chain_shape {n : Nat} {ks : List Kind} (h : Shape n ks) : ∀ w, Opens w → Chain w ks := by
  induction h with
  | true_ => exact fun w hw => chain_cons (hw.1 _ (by decide)) (chain_nil _)
  | false_ => exact fun w hw => chain_cons (hw.1 _ (by decide)) (chain_nil _)
  | numeral hb =>
    rename_i k b
    exact fun w hw => chain_cons (hw.1 _ (by cases k <;> first | (cases hb; done) | decide)) (chain_nil _)
  | address =>
    exact fun w hw => chain_cons (hw.1 _ (by decide)) (chain_cons (by simp [follows]) (chain_cons (by simp [follows])
      (chain_cons (by simp [follows]) (chain_nil _))))
  | name h => exact fun w hw => chain_names h hw
  | attr => exact fun w hw => chain_cons (hw.1 _ (by decide)) (chain_cons (by simp [follows]) (chain_nil _))
  | paren h ih =>
    intro w hw
    refine chain_append (a := _ :: _) (chain_cons (hw.1 _ (by decide)) (ih _ (opens_paren hw))) (chain_cons ?_ (chain_nil _))
    have := chain_close (w := .lpar :: w) h (.inr rfl)
    simpa using this
  | up _ _ ih => exact ih
  | field h ih =>
    exact fun w hw => chain_append (ih w hw) (chain_cons (chain_last h (by decide) (by decide))
      (chain_cons (by simp [follows]) (chain_nil _)))
  | not _ ih => exact fun w hw => chain_cons (hw.1 _ (by decide)) (ih _ (opens_operator w (.inl (by decide))))
  | neg _ ih => exact fun w hw => chain_cons (hw.1 _ (by decide)) (ih _ (opens_operator w (.inl (by decide))))
  | bin hi hl _ ihl ihr =>
    intro w hw
    refine chain_append (ihl w hw) (chain_cons (chain_last hl ?_ ?_) (ihr _ (opens_operator _ (infix_operator hi))))
    · cases hi <;> decide
    · cases hi <;> decide
  | trailing h ih =>
    exact fun w hw => chain_append (ih w hw) (chain_cons (chain_last h (by decide) (by decide)) (chain_nil _))

theorem chain_viable {before : List Kind} {k : Kind} (h : Viable (before ++ [k])) : k ∈ follows before.reverse := by
  obtain ⟨rest, a, ha, e⟩ := h
  have : Chain [] (a ++ [Kind.endOfInput]) :=
    chain_append (chain_shape ha [] opens_nil) (chain_cons (chain_close ha (.inl rfl)) (chain_nil _))
  have := this before k rest (by rw [← e]; simp)
  simpa using this

/-- What is possible, but not named as expected. -/
theorem enumerated_complete {before ks : List Kind} {t k : Kind} (h : Enumerated before t ks) (hv : Viable (before ++ [k])) :
    k ∈ ks ∨ Unlisted before t k := by
  have hc := chain_viable hv
  cases h with
  | field h =>
    rcases h with rfl | rfl <;> exact .inl (by simpa [follows] using hc)
  | literal h => subst h; exact .inl (by simpa [follows] using hc)
  | close h => subst h; exact .inl (by simpa [follows] using hc)
  | operand h hn =>
    cases h with
    | start => exact .inl hc
    | operator ho =>
      rename_i u o
      refine .inl ?_
      cases o <;> first | (exact absurd ho (by decide)) | (rw [List.reverse_append] at hc; exact hc)
    | semicolon =>
      rw [List.reverse_append] at hc
      rcases List.mem_append.1 (hc : k ∈ operandStarts ++ [Kind.endOfInput, .rpar]) with hc | hc
      · exact .inl hc
      · exact .inr (.semicolon rfl (by simpa using hc))
    | @paren u hu =>
      rw [List.reverse_append] at hc
      cases hr : u.reverse with
      | nil => rw [hr] at hc; exact .inl hc
      | cons o v =>
        rw [hr] at hc
        have : u = v.reverse ++ [o] := by
          have := congrArg List.reverse hr
          simpa using this
        cases o <;> first | exact .inl hc | exact absurd this (hu _)
  | next e ho h1 =>
    rename_i u o
    subst e
    rw [List.reverse_append] at hc
    cases o <;> first | (exact absurd ho (by decide)) | exact .inl hc | skip
    rcases List.mem_append.1 (hc : k ∈ operandNexts ++ [Kind.dot, .lpar]) with hc | hc
    · exact .inl hc
    · exact .inr (.name rfl (by simpa using hc))
  | unclosed e ho ht => exact .inr (.bracket e ho (.inl ht))
  | unopened e ho ht => exact .inr (.bracket e ho (.inr ht))

/-- What is named as expected, by the last tokens. -/
theorem enumerated_eq {before ks : List Kind} {t : Kind} (h : Enumerated before t ks) :
    ks = match before.reverse with
      | [] => operandStarts
      | .dot :: _ => [.id]
      | .doubleColon :: _ => [.id]
      | .string :: _ => [.rpar]
      | .lpar :: .id :: _ => [.string]
      | .lpar :: _ => operandStarts
      | o :: _ =>
        if o ∈ operators then operandStarts
        else if t = .endOfInput then [.rpar]
        else if t = .rpar then [.endOfInput]
        else if o = .semicolon then operandStarts
        else operandNexts := by
  cases h with
  | field h => rcases h with rfl | rfl <;> simp
  | literal h => subst h; simp
  | close h => subst h; simp
  | operand h hn =>
    cases h with
    | start => rfl
    | operator ho =>
      rename_i u o
      rw [List.reverse_append]
      cases o <;> first | (exact absurd ho (by decide)) | rfl
    | @semicolon u =>
      obtain ⟨h1, h2⟩ := hn u rfl
      rw [List.reverse_append]
      simp [h1, h2, operators]
    | @paren u hu =>
      rw [List.reverse_append]
      cases hr : u.reverse with
      | nil => rfl
      | cons o v =>
        have : u = v.reverse ++ [o] := by
          have := congrArg List.reverse hr
          simpa using this
        cases o <;> first | rfl | exact absurd this (hu _)
  | @next u o e ho h1 =>
    subst e
    have h2 : t ≠ .endOfInput ∧ t ≠ .rpar := ⟨fun h => h1 (by rw [h]; decide), fun h => h1 (by rw [h]; decide)⟩
    rw [List.reverse_append]
    cases o <;> first | (exact absurd ho (by decide)) | simp [h2, operators]
  | @unclosed u o e ho ht =>
    subst e ht
    rw [List.reverse_append]
    rcases ho with ho | rfl
    · cases o <;> first | (exact absurd ho (by decide)) | rfl
    · rfl
  | @unopened u o e ho ht =>
    subst e ht
    rw [List.reverse_append]
    rcases ho with ho | rfl
    · cases o <;> first | (exact absurd ho (by decide)) | rfl
    · rfl

theorem enumerated_unique {before ks ks' : List Kind} {t : Kind} (h : Enumerated before t ks) (h' : Enumerated before t ks') :
    ks = ks' :=
  (enumerated_eq h).trans (enumerated_eq h').symm

theorem listing_unique {ks : List Kind} {s s' : Str} (h : Listing ks s) (h' : Listing ks s') : s = s' := by
  have key : ∀ {ks ks' : List Kind} {s s' : Str}, Listing ks s → Listing ks' s' → ks = ks' → s = s' := by
    intro ks ks' s s' h h' e
    cases h with
    | one => cases h' with
      | one => cases e; rfl
      | more hne =>
        have := congrArg List.length e
        simp at this
        exact absurd (by simpa using this) hne
    | more hne => cases h' with
      | one =>
        have := congrArg List.length e
        simp at this
        exact absurd (by simpa using this) hne
      | more hne' =>
        obtain ⟨rfl, h2⟩ := List.append_inj' e rfl
        cases h2
        rfl
  exact key h h' rfl

/-- There is one complaint. -/
theorem complaint_unique {before : List Kind} {t : Token} {s s' : Str} (h : Complaint before t s) (h' : Complaint before t s') :
    s = s' := by
  have excl : ∀ {ks op n u o}, Enumerated before t.kind ks → before = u ++ [o] → o ∈ operandEnds →
      Infix t.kind op n (n + 1) (n + 1) → False := by
    intro ks op n u o he e ho hi
    subst e
    have key : ∀ {v : List Kind} {o' : Kind}, u ++ [o] = v ++ [o'] → o' ∈ operandEnds := by
      intro v o' e
      have := List.append_inj_right' e rfl
      cases this
      exact ho
    have hin : t.kind ∈ operandNexts ∧ t.kind ≠ .endOfInput ∧ t.kind ≠ .rpar := by
      generalize t.kind = k at hi
      cases hi <;> decide
    cases he with
    | field h =>
      rcases h with h | h
      · exact absurd (key h) (by decide)
      · exact absurd (key h) (by decide)
    | literal h =>
      rename_i v
      exact absurd (key (v := v ++ [.id]) (o' := .lpar) (by rw [h]; simp)) (by decide)
    | close h => exact absurd (key h) (by decide)
    | operand h _ =>
      generalize hw : u ++ [o] = w at h
      cases h with
      | start => simp at hw
      | operator h =>
        have h' := key hw
        rename_i o' 
        revert h h'
        cases o' <;> decide
      | semicolon => exact absurd (key hw) (by decide)
      | paren => exact absurd (key hw) (by decide)
    | next _ _ h => exact h hin.1
    | unclosed _ _ h => exact hin.2.1 h
    | unopened _ _ h => exact hin.2.2 h
  cases h with
  | character h1 => cases h' with
    | character => rfl
    | token h2 => exact absurd h1 h2
    | association _ _ h2 => rw [h1] at h2; cases h2
  | token h1 h2 h3 h4 => cases h' with
    | character h5 => exact absurd h5 h1
    | token _ h6 _ h7 => cases enumerated_unique h4 h7; rw [listing_unique h2 h6]
    | association e ho hi => exact (excl h4 e ho hi).elim
  | association e ho hi => cases h' with
    | character h5 => rw [h5] at hi; cases hi
    | token _ _ _ h7 => exact (excl h7 e ho hi).elim
    | association => rfl

end P4C
