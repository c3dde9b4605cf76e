import Verif.Proofs.ParseTotal
import Verif.Proofs.Located
import Verif.Spec.Print
/-!
# Consequences of the grammar
-/
namespace P4C
open Spec

/-! ### Parsed constraints have abstract syntax -/

theorem canonical_decimal {s : Str} {n : Nat} (h : Canonical s n) : decimal? s = some n := h.1.decimal

theorem infix_binop {kd : Kind} {op : BinOp} {n l r : Nat} (h : Infix kd op n l r) (a b : SExpr) :
    ∃ s, binop op a b = some s := by
  cases h <;> exact ⟨_, rfl⟩

theorem G_abs {pton : Str → Option Bytes} {k : ConstraintKind} {n : Nat} {ts : List Token} {e : Expr}
    (h : G pton k n ts e) : ∃ s, abs e = some s := by
  induction h with
  | true_ | false_ | key | param | attr => exact ⟨_, rfl⟩
  | numeral _ _ hc => exact ⟨_, by simp only [abs, canonical_decimal hc]; rfl⟩
  | address _ _ _ _ _ hc => exact ⟨_, by simp only [abs, canonical_decimal hc]; rfl⟩
  | paren _ _ _ ih => exact ih
  | up _ _ ih => exact ih
  | field _ _ _ ih => obtain ⟨s, hs⟩ := ih; exact ⟨_, by simp only [abs, hs]; rfl⟩
  | not _ _ ih => obtain ⟨s, hs⟩ := ih; exact ⟨_, by simp only [abs, hs]; rfl⟩
  | neg _ _ ih => obtain ⟨s, hs⟩ := ih; exact ⟨_, by simp only [abs, hs]; rfl⟩
  | bin hi _ _ ih1 ih2 =>
    obtain ⟨s, hs⟩ := ih1
    obtain ⟨u, hu⟩ := ih2
    obtain ⟨v, hv⟩ := infix_binop hi s u
    exact ⟨v, by simp only [abs, hs, hu, Option.bind_some, hv]⟩
  | trailing _ _ ih => exact ih

/-! ### Tokens of the lexer -/

theorem lexed_spelled {l : Loc} {s : Str} {ts : List Token} (h : Lexed l s ts) :
    ∀ t ∈ ts, t.kind = .endOfInput ∨ t.kind = .unexpectedChar ∨ ∃ lexeme, Spells t.kind t.text lexeme := by
  induction h with
  | eof => intro t ht; rw [List.mem_singleton.1 ht]; exact .inl rfl
  | bad => intro t ht; rw [List.mem_singleton.1 ht]; exact .inr (.inl rfl)
  | blank _ _ ih => exact ih
  | crlf _ ih => exact ih
  | cr _ _ ih => exact ih
  | lf _ ih => exact ih
  | line _ _ _ _ ih => exact ih
  | block _ _ _ ih => exact ih
  | openBlock _ _ _ _ ih => exact ih
  | tok hs _ _ ih =>
    intro t ht
    rcases List.mem_cons.1 ht with rfl | ht
    · exact .inr (.inr ⟨_, hs⟩)
    · exact ih t ht

theorem tokenize_numTok (src : ConstraintSource) : NumTok (tokenize src) := by
  intro t ht b hb
  rcases lexed_spelled (tokenize_lexed src) t ht with h | h | ⟨lexeme, h⟩
  · rw [h] at hb; cases hb
  · rw [h] at hb; cases hb
  · exact spells_numVal h hb

theorem parseConstraint_iff {sys : Sys} {k : ConstraintKind} {src : ConstraintSource} {e : Expr} :
    parseConstraint sys k src = .ok e ↔ Constraint sys.inetPton6 k (tokenize src) e :=
  parseTokens_iff (tokenize_numTok src)

/-! ### Interchangeable tokens -/

theorem sameTok_kind {t u : Token} (h : SameTok t u) (hb : baseOf t.kind = none) :
    u.kind = t.kind ∧ u.text = t.text := by
  rcases h with h | ⟨b, c, n, h, _⟩
  · simp only [kindText, Prod.mk.injEq] at h; exact ⟨h.1.symm, h.2.symm⟩
  · rw [hb] at h; cases h

theorem sameToks_append {ts us vs : List Token} (h : SameToks (ts ++ us) vs) :
    ∃ ts' us', vs = ts' ++ us' ∧ SameToks ts ts' ∧ SameToks us us' := by
  induction ts generalizing vs with
  | nil => exact ⟨[], vs, rfl, .nil, h⟩
  | cons t ts ih =>
    cases h with
    | @cons _ u _ vs' h1 h2 =>
      obtain ⟨ts', us', rfl, h3, h4⟩ := ih h2
      exact ⟨u :: ts', us', rfl, .cons h1 h3, h4⟩

theorem sameToks_cons {t : Token} {ts vs : List Token} (h : SameToks (t :: ts) vs) :
    ∃ u us, vs = u :: us ∧ SameTok t u ∧ SameToks ts us := by
  cases h with
  | cons h1 h2 => exact ⟨_, _, rfl, h1, h2⟩

theorem sameToks_nil {vs : List Token} (h : SameToks [] vs) : vs = [] := by cases h; rfl

theorem sameTok_of_kind {t u : Token} {kd : Kind} (h : SameTok t u) (hk : t.kind = kd) (hb : baseOf kd = none) :
    u.kind = kd ∧ u.text = t.text := by
  have := sameTok_kind h (by rw [hk]; exact hb)
  exact ⟨this.1.trans hk, this.2⟩

theorem dotted_same {sep : Str} {ts us : List Token} {name : Str} {a b : Loc} (h : Dotted sep ts name a b)
    (hs : SameToks ts us) : ∃ a' b', Dotted sep us name a' b' := by
  induction h generalizing us with
  | one ht =>
    obtain ⟨u, us, rfl, h1, h2⟩ := sameToks_cons hs
    cases sameToks_nil h2
    obtain ⟨hk, hx⟩ := sameTok_of_kind h1 ht rfl
    rw [← hx]
    exact ⟨_, _, .one hk⟩
  | snoc _ hd ht ih =>
    obtain ⟨ts', us', rfl, h1, h2⟩ := sameToks_append hs
    obtain ⟨d', us, rfl, h3, h4⟩ := sameToks_cons h2
    obtain ⟨t', us, rfl, h5, h6⟩ := sameToks_cons h4
    cases sameToks_nil h6
    obtain ⟨a', b', h7⟩ := ih h1
    obtain ⟨hk, hx⟩ := sameTok_of_kind h5 ht rfl
    rw [← hx]
    exact ⟨_, _, .snoc h7 (sameTok_of_kind h3 hd rfl).1 hk⟩

/-- Interchangeable tokens give the same abstract syntax. -/
theorem G_same {pton : Str → Option Bytes} {k : ConstraintKind} {n : Nat} {ts us : List Token} {e : Expr}
    (h : G pton k n ts e) (hs : SameToks ts us) : ∃ e', G pton k n us e' ∧ abs e' = abs e := by
  induction h generalizing us with
  | true_ ht =>
    obtain ⟨u, us, rfl, h1, h2⟩ := sameToks_cons hs
    cases sameToks_nil h2
    exact ⟨_, .true_ (sameTok_of_kind h1 ht rfl).1, rfl⟩
  | false_ ht =>
    obtain ⟨u, us, rfl, h1, h2⟩ := sameToks_cons hs
    cases sameToks_nil h2
    exact ⟨_, .false_ (sameTok_of_kind h1 ht rfl).1, rfl⟩
  | @numeral t b n s hb hv hc =>
    obtain ⟨u, us, rfl, h1, h2⟩ := sameToks_cons hs
    cases sameToks_nil h2
    rcases h1 with h1 | ⟨b', c', m, h3, h4, h5, h6⟩
    · simp only [kindText, Prod.mk.injEq] at h1
      rw [h1.1] at hb; rw [h1.2] at hv
      exact ⟨_, .numeral hb hv hc, rfl⟩
    · rw [hb] at h3; cases h3
      cases numVal_unique hv h4
      exact ⟨_, .numeral h5 h6 hc, rfl⟩
  | address ht hl ha hr hA hc =>
    obtain ⟨t', us, rfl, h1, h2⟩ := sameToks_cons hs
    obtain ⟨l', us, rfl, h3, h4⟩ := sameToks_cons h2
    obtain ⟨a', us, rfl, h5, h6⟩ := sameToks_cons h4
    obtain ⟨r', us, rfl, h7, h8⟩ := sameToks_cons h6
    cases sameToks_nil h8
    obtain ⟨k1, x1⟩ := sameTok_of_kind h1 ht rfl
    obtain ⟨k3, x3⟩ := sameTok_of_kind h5 ha rfl
    exact ⟨_, .address k1 (sameTok_of_kind h3 hl rfl).1 k3 (sameTok_of_kind h7 hr rfl).1 (by rw [x1, x3]; exact hA) hc,
      rfl⟩
  | key hk hd => obtain ⟨a', b', h⟩ := dotted_same hd hs; exact ⟨_, .key hk h, rfl⟩
  | param hk hd => obtain ⟨a', b', h⟩ := dotted_same hd hs; exact ⟨_, .param hk h, rfl⟩
  | attr hd ht =>
    obtain ⟨d', us, rfl, h1, h2⟩ := sameToks_cons hs
    obtain ⟨t', us, rfl, h3, h4⟩ := sameToks_cons h2
    cases sameToks_nil h4
    obtain ⟨k3, x3⟩ := sameTok_of_kind h3 ht rfl
    exact ⟨_, .attr (sameTok_of_kind h1 hd rfl).1 k3, by simp only [abs, x3]⟩
  | paren hl _ hr ih =>
    obtain ⟨ts', us', rfl, h1, h2⟩ := sameToks_append hs
    obtain ⟨l', ts', rfl, h3, h4⟩ := sameToks_cons h1
    obtain ⟨r', us', rfl, h5, h6⟩ := sameToks_cons h2
    cases sameToks_nil h6
    obtain ⟨e', hg, ha⟩ := ih h4
    exact ⟨e', .paren (sameTok_of_kind h3 hl rfl).1 hg (sameTok_of_kind h5 hr rfl).1, ha⟩
  | up hn _ ih => obtain ⟨e', hg, ha⟩ := ih hs; exact ⟨e', .up hn hg, ha⟩
  | field _ hd ht ih =>
    obtain ⟨ts', us', rfl, h1, h2⟩ := sameToks_append hs
    obtain ⟨d', us, rfl, h3, h4⟩ := sameToks_cons h2
    obtain ⟨t', us, rfl, h5, h6⟩ := sameToks_cons h4
    cases sameToks_nil h6
    obtain ⟨e', hg, ha⟩ := ih h1
    obtain ⟨k3, x3⟩ := sameTok_of_kind h5 ht rfl
    exact ⟨_, .field hg (sameTok_of_kind h3 hd rfl).1 k3, by simp only [abs, x3, ha]⟩
  | not ht _ ih =>
    obtain ⟨t', us, rfl, h1, h2⟩ := sameToks_cons hs
    obtain ⟨e', hg, ha⟩ := ih h2
    exact ⟨_, .not (sameTok_of_kind h1 ht rfl).1 hg, by simp only [abs, ha]⟩
  | neg ht _ ih =>
    obtain ⟨t', us, rfl, h1, h2⟩ := sameToks_cons hs
    obtain ⟨e', hg, ha⟩ := ih h2
    exact ⟨_, .neg (sameTok_of_kind h1 ht rfl).1 hg, by simp only [abs, ha]⟩
  | @bin o op n l r ts1 us1 e f hi _ _ ih1 ih2 =>
    obtain ⟨ts', us', rfl, h1, h2⟩ := sameToks_append hs
    obtain ⟨o', us, rfl, h3, h4⟩ := sameToks_cons h2
    obtain ⟨e', hg, ha⟩ := ih1 h1
    obtain ⟨f', hg', ha'⟩ := ih2 h4
    have : o'.kind = o.kind := (sameTok_kind h3 (by generalize o.kind = kd at hi; cases hi <;> rfl)).1
    exact ⟨_, .bin (by rw [this]; exact hi) hg hg', by simp only [abs, ha, ha']⟩
  | trailing _ ho ih =>
    obtain ⟨ts', us', rfl, h1, h2⟩ := sameToks_append hs
    obtain ⟨o', us, rfl, h3, h4⟩ := sameToks_cons h2
    cases sameToks_nil h4
    obtain ⟨e', hg, ha⟩ := ih h1
    exact ⟨e', .trailing hg (sameTok_of_kind h3 ho rfl).1, ha⟩

theorem constraint_same {pton : Str → Option Bytes} {k : ConstraintKind} {ts us : List Token} {e : Expr}
    (h : Constraint pton k ts e) (hs : SameToks ts us) : ∃ e', Constraint pton k us e' ∧ abs e' = abs e := by
  obtain ⟨a, b, rfl, hg, hb⟩ := h
  obtain ⟨a', b', rfl, h1, h2⟩ := sameToks_append hs
  obtain ⟨e', hg', ha⟩ := G_same hg h1
  refine ⟨e', ⟨a', b', rfl, hg', ?_⟩, ha⟩
  rcases hb with rfl | ⟨t, b1, rfl, ht⟩
  · exact .inl (sameToks_nil h2)
  · obtain ⟨t', us, rfl, h3, _⟩ := sameToks_cons h2
    exact .inr ⟨t', us, rfl, (sameTok_of_kind h3 ht rfl).1⟩

theorem sameToks_of_kindText {ts us : List Token} (h : ts.map kindText = us.map kindText) : SameToks ts us := by
  induction ts generalizing us with
  | nil => cases us with
    | nil => exact .nil
    | cons => cases h
  | cons t ts ih => cases us with
    | nil => cases h
    | cons u us =>
      simp only [List.map_cons, List.cons.injEq] at h
      exact .cons (.inl h.1) (ih h.2)

theorem Spec.SameTok.symm {t u : Token} (h : SameTok t u) : SameTok u t := by
  rcases h with h | ⟨b, c, n, h1, h2, h3, h4⟩
  · exact .inl h.symm
  · exact .inr ⟨c, b, n, h3, h4, h1, h2⟩

theorem Spec.SameToks.symm {ts us : List Token} (h : SameToks ts us) : SameToks us ts := by
  induction h with
  | nil => exact .nil
  | cons h _ ih => exact .cons (h.symm) ih

end P4C
