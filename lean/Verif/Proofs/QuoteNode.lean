import Verif.Proofs.Quote
/-!
# Quoting of tokens and nodes
-/
namespace P4C
open Spec

theorem unlines_count {ls : List Str} (h : ∀ l ∈ ls, '\n' ∉ l) : (unlines ls).count '\n' = ls.length := by
  induction ls with
  | nil => rfl
  | cons l ls ih =>
    rw [unlines_cons, List.count_append, List.count_cons_self, ih fun x hx => h x (by simp [hx]),
      List.count_eq_zero.2 (h l (by simp))]
    simp

theorem unlines_end {ls : List Str} : unlines ls = [] ∨ ∃ a, unlines ls = a ++ ['\n'] := by
  rcases List.eq_nil_or_concat ls with rfl | ⟨ks, k, rfl⟩
  · exact .inl rfl
  · rw [List.concat_eq_append, unlines_append]
    exact .inr ⟨unlines ks ++ k, by simp [unlines]⟩

theorem intDec_canonical {n : Int} {m : Nat} (h : n = m) : Canonical (intDec n) m := by
  rw [h, intDec_nat]; exact natDec_canonical m

theorem rest_of_line (r : Str) : ∃ a b, r = a ++ b ∧ '\n' ∉ a ∧ (b = [] ∨ ∃ b', b = '\n' :: b') := by
  induction r with
  | nil => exact ⟨[], [], rfl, by simp, .inl rfl⟩
  | cons c r ih =>
    by_cases hc : c = '\n'
    · exact ⟨[], c :: r, rfl, by simp, .inr ⟨r, by rw [hc]⟩⟩
    · obtain ⟨a, b, rfl, h1, h2⟩ := ih
      exact ⟨c :: a, b, rfl, by simp [h1, Ne.symm hc], h2⟩

/-- Quoting a non-empty part of a line. -/
theorem quote_interval {src : ConstraintSource} {p m r : Str} (hsrc : src.str = p ++ m ++ r) (hm : m ≠ [])
    (hmn : '\n' ∉ m) (hmr : '\r' ∉ m) (hcr : CrLf src.str) (hset : src.loc.src ≠ .notSet) (hcol : 0 ≤ src.loc.col) :
    ∃ text line at_, quoteSub src (advance src.loc p) (advance src.loc (p ++ m)) = .ok text ∧
      LineOf src.str ((advance src.loc p).line - src.loc.line).toNat line at_ ∧
      Shows text ((advance src.loc p).line + 1) line (advance src.loc p).col.toNat m.length ∧
      (src.loc.col = 0 → (at_ : Int) + (advance src.loc p).col = p.length) ∧
      at_ ≤ p.length ∧ p.length + m.length ≤ at_ + line.length := by
  obtain ⟨ls, q, rfl, h1, h2⟩ := lines_exist p
  obtain ⟨a, b, rfl, h3, h4⟩ := rest_of_line r
  have hs : src.str = unlines ls ++ (q ++ m ++ a) ++ b := by rw [hsrc]; simp [List.append_assoc]
  have hl : '\n' ∉ q ++ m ++ a := by simp [h2, hmn, h3]
  obtain ⟨header, hq⟩ := quote_part hs h1 hl h4 hm hmr hcr hset hcol
  have hqr : '\r' ∉ q := by
    intro hm'
    obtain ⟨x, y, rfl⟩ := List.append_of_mem hm'
    obtain ⟨c, hc⟩ := hcr (unlines ls ++ x) (y ++ m ++ a ++ b) (by rw [hs]; simp [List.append_assoc])
    cases y with
    | nil =>
      obtain ⟨d, ds, rfl⟩ := List.exists_cons_of_ne_nil hm
      simp only [List.nil_append, List.cons_append, List.cons.injEq] at hc
      exact absurd (by rw [hc.1]; simp) hl
    | cons d y =>
      simp only [List.cons_append, List.cons.injEq] at hc
      exact absurd (by rw [hc.1]; simp) hl
  have hce : ∀ x ∈ ls, '\n' ∉ x ∧ CrEnd x := by
    intro x hx
    refine ⟨h1 x hx, fun a' b' he => ?_⟩
    obtain ⟨l1, l2, rfl⟩ := List.append_of_mem hx
    obtain ⟨c, hc⟩ := hcr (unlines l1 ++ a') (b' ++ '\n' :: unlines l2 ++ (q ++ m ++ a) ++ b)
      (by rw [hs, unlines_append, unlines_cons, he]; simp [List.append_assoc])
    cases b' with
    | nil => rfl
    | cons d b' =>
      simp only [List.cons_append, List.cons.injEq] at hc
      exact absurd (by rw [he, hc.1]; simp) (h1 x hx)
  have adv := advance_lines (l := src.loc) hce ⟨h2, hqr⟩
  have e1 : (advance src.loc (unlines ls ++ q)).line = src.loc.line + ls.length := by rw [adv]
  have e2 : (advance src.loc (unlines ls ++ q)).col = (if ls = [] then src.loc.col else 0) + q.length := by rw [adv]
  have e3 : (advance src.loc (unlines ls ++ q)).col.toNat = (if ls = [] then src.loc.col.toNat else 0) + q.length := by
    rw [e2]; split <;> omega
  rw [← List.append_assoc] at hq
  refine ⟨_, q ++ m ++ a, (unlines ls).length, hq, ?_, ?_, ?_, by simp, ?_⟩
  · refine ⟨unlines ls, b, hs, rfl, ?_, unlines_end, hl, h4⟩
    rw [unlines_count h1, e1]
    omega
  · refine ⟨header ++ contextOf ls (List.replicate (intDec (src.loc.line + ls.length + 1)).length ' '),
      intDec (src.loc.line + ls.length + 1), ?_, ?_⟩
    · intro n hn
      exact intDec_canonical (by rw [← hn, e1])
    · rw [e3]
      simp only [List.append_assoc]
  · intro h0
    rw [e2, h0]
    simp
  · simp only [List.length_append]; omega

/-! ### Tokens -/

/-- Where a token is found. -/
def FoundAt (src : ConstraintSource) (t : Token) (p m : Str) : Prop :=
  (∃ r, src.str = p ++ m ++ r) ∧ t.start = advance src.loc p ∧ t.stop = advance src.loc (p ++ m) ∧
    '\n' ∉ m ∧ '\r' ∉ m

theorem unlexable_plain {c : Char} {s : Str} (h : Unlexable (c :: s)) : c ≠ '\n' ∧ c ≠ '\r' := by
  refine ⟨?_, ?_⟩
  · rintro rfl; exact h.space '\n' (by decide) ⟨s, rfl⟩
  · rintro rfl; exact h.space '\r' (by decide) ⟨s, rfl⟩

theorem spells_plain {k : Kind} {t l : Str} (h : Spells k t l)
    (hs : k = .string → ∀ c ∈ t, c ≠ '\r' ∧ c ≠ '\n') : '\n' ∉ l ∧ '\r' ∉ l := by
  by_cases hk : k = .string
  · subst hk
    have hs := hs rfl
    cases h with
    | keyword h => simp [keywords] at h
    | string =>
      refine ⟨?_, ?_⟩
      · intro hm
        simp only [List.mem_cons, List.mem_append, List.not_mem_nil, or_false] at hm
        rcases hm with h | h | h
        · cases h
        · exact (hs _ h).2 rfl
        · cases h
      · intro hm
        simp only [List.mem_cons, List.mem_append, List.not_mem_nil, or_false] at hm
        rcases hm with h | h | h
        · cases h
        · exact (hs _ h).1 rfl
        · cases h
  · have := spells_no_sep h hk
    exact ⟨fun hm => this _ hm (by decide), fun hm => this _ hm (by decide)⟩

theorem located_found {src : ConstraintSource} {pre s : Str} {ts : List Token} (h : Located src.loc pre s ts)
    (hsrc : src.str = pre ++ s)
    (hs : ∀ t ∈ ts, t.kind = .string → ∀ c ∈ t.text, c ≠ '\r' ∧ c ≠ '\n') :
    ∀ t ∈ ts, ∃ p m, FoundAt src t p m ∧ (m = [] → t.kind = .endOfInput) := by
  induction h with
  | @eof pre gap p hb hp =>
    intro t ht
    rw [List.mem_singleton.1 ht]
    exact ⟨pre ++ gap, [], ⟨⟨[], by simp [hsrc]⟩, hp, by simpa using hp, by simp, by simp⟩, fun _ => rfl⟩
  | @bad pre gap s c p hb hu hp =>
    intro t ht
    rw [List.mem_singleton.1 ht]
    have hc := unlexable_plain hu
    refine ⟨pre ++ gap, [c], ⟨⟨s, by simp [hsrc]⟩, hp, ?_, by simp [Ne.symm hc.1], by simp [Ne.symm hc.2]⟩, by simp⟩
    rw [advance_append (.inr (by intro t e; cases e; exact hc.1 rfl)), ← hp]
    rw [advance_plain (by intro x hx; rw [List.mem_singleton.1 hx]; exact ⟨hc.2, hc.1⟩)]
    rfl
  | @cons pre gap lexeme s t ts hb hsp hc h1 h2 _ ih =>
    intro u hu
    rcases List.mem_cons.1 hu with rfl | hu
    · have := spells_plain hsp (hs u (by simp))
      refine ⟨pre ++ gap, lexeme, ⟨⟨s, by simp [hsrc]⟩, h1, h2, this.1, this.2⟩, ?_⟩
      intro e
      have := spells_length hsp
      rw [e] at this
      simp at this
    · exact ih (by simp [hsrc]) (fun x hx => hs x (List.mem_cons_of_mem _ hx)) u hu

/-- No string literal of the text spans lines. -/
def OneLine (src : ConstraintSource) : Prop :=
  ∀ t ∈ tokenize src, t.kind = .string → ∀ c ∈ t.text, c ≠ '\r' ∧ c ≠ '\n'

theorem tokens_found {src : ConstraintSource} (h : OneLine src) :
    ∀ t ∈ tokenize src, ∃ p m, FoundAt src t p m ∧ (m = [] → t.kind = .endOfInput) :=
  located_found (tokenize_located h) rfl h

/-! ### Nodes -/

variable {pton : Str → Option Bytes} {k : ConstraintKind}

theorem dotted_ends {sep : Str} {ts : List Token} {name : Str} {a b : Loc} (h : Dotted sep ts name a b) :
    (∃ t ∈ ts, a = t.start) ∧ ∃ t ∈ ts, b = t.stop := by
  induction h with
  | @one t _ => exact ⟨⟨t, by simp, rfl⟩, t, by simp, rfl⟩
  | @snoc ts name a b d t _ _ _ ih =>
    obtain ⟨⟨u, hu, he⟩, _⟩ := ih
    exact ⟨⟨u, by simp [hu], he⟩, t, by simp, rfl⟩

/-- The span of the expression starts with the start of a token and ends with the end of a token. -/
def Ends (ts : List Token) (x : Expr) : Prop := (∃ t ∈ ts, x.start = t.start) ∧ ∃ t ∈ ts, x.stop = t.stop

theorem Ends.mono {ts us : List Token} {x : Expr} (h : Ends ts x) (hs : ∀ t ∈ ts, t ∈ us) : Ends us x := by
  obtain ⟨⟨t, h1, h2⟩, u, h3, h4⟩ := h
  exact ⟨⟨t, hs t h1, h2⟩, u, hs u h3, h4⟩

theorem G_ends {n : Nat} {ts : List Token} {e : Expr} (h : G pton k n ts e) :
    ∀ x, NodeOf x e → Ends ts x := by
  have leaf : ∀ {e x : Expr} {ts : List Token}, NodeOf x e → (∀ y, NodeOf y e → y = e) → Ends ts e → Ends ts x := by
    intro e x ts h1 h2 h3
    rw [h2 x h1]; exact h3
  induction h with
  | @true_ t _ | @false_ t _ | @numeral t _ _ _ _ _ _ =>
    intro x hx
    cases hx
    exact ⟨⟨t, by simp, rfl⟩, t, by simp, rfl⟩
  | @address t l a r =>
    intro x hx
    cases hx
    exact ⟨⟨t, by simp, rfl⟩, r, by simp, rfl⟩
  | key _ hd | param _ hd =>
    intro x hx
    cases hx
    exact dotted_ends hd
  | @attr d t =>
    intro x hx
    cases hx
    exact ⟨⟨d, by simp, rfl⟩, t, by simp, rfl⟩
  | paren _ _ _ ih => exact fun x hx => (ih x hx).mono fun t ht => by simp [ht]
  | up _ _ ih => exact ih
  | @field ts e d t _ _ _ ih =>
    intro x hx
    cases hx with
    | self =>
      obtain ⟨⟨u, hu, he⟩, _⟩ := ih e (.self e)
      exact ⟨⟨u, by simp [hu], he⟩, t, by simp, rfl⟩
    | field hx => exact (ih x hx).mono fun t ht => by simp [ht]
  | @not t ts e _ _ ih =>
    intro x hx
    cases hx with
    | self =>
      obtain ⟨_, u, hu, he⟩ := ih e (.self e)
      exact ⟨⟨t, by simp, rfl⟩, u, by simp [hu], he⟩
    | boolNeg hx => exact (ih x hx).mono fun t ht => by simp [ht]
  | @neg t ts e _ _ ih =>
    intro x hx
    cases hx with
    | self =>
      obtain ⟨_, u, hu, he⟩ := ih e (.self e)
      exact ⟨⟨t, by simp, rfl⟩, u, by simp [hu], he⟩
    | arithNeg hx => exact (ih x hx).mono fun t ht => by simp [ht]
  | @bin o op n l r ts us e f _ _ _ ih1 ih2 =>
    intro x hx
    cases hx with
    | self =>
      obtain ⟨⟨t, ht, h1⟩, _⟩ := ih1 e (.self e)
      obtain ⟨_, u, hu, h2⟩ := ih2 f (.self f)
      exact ⟨⟨t, by simp [ht], h1⟩, u, by simp [hu], h2⟩
    | left hx => exact (ih1 x hx).mono fun t ht => by simp [ht]
    | right hx => exact (ih2 x hx).mono fun t ht => by simp [ht]
  | trailing _ _ ih => exact fun x hx => (ih x hx).mono fun t ht => by simp [ht]

theorem nested_node {x e : Expr} (hn : NodeOf x e) (h : Nested e) : Nested x ∧ LocLt x.start x.stop := by
  have base : ∀ {e : Expr}, Nested e → LocLt e.start e.stop := by
    intro e h
    cases e with
    | boolNeg | arithNeg | typeCast | field | bin => exact h.1
    | _ => exact h
  induction hn with
  | self => exact ⟨h, base h⟩
  | boolNeg _ ih | arithNeg _ ih | typeCast _ ih | field _ ih => exact ih h.2.2.2
  | left _ ih => exact ih h.2.2.2.2.1
  | right _ ih => exact ih h.2.2.2.2.2

/-- Lines are counted by line feeds. -/
theorem advance_line {l : Loc} {s p r : Str} (hs : s = p ++ r) (hcr : CrLf s) (hend : ¬ ∃ x, p = x ++ ['\r']) :
    (advance l p).line = l.line + p.count '\n' := by
  obtain ⟨ls, q, rfl, h1, h2⟩ := lines_exist p
  have hq : '\r' ∉ q := by
    intro hm
    obtain ⟨a, b, rfl⟩ := List.append_of_mem hm
    obtain ⟨c, hc⟩ := hcr (unlines ls ++ a) (b ++ r) (by rw [hs]; simp [List.append_assoc])
    cases b with
    | nil => exact hend ⟨unlines ls ++ a, by simp [List.append_assoc]⟩
    | cons d b =>
      simp only [List.cons_append, List.cons.injEq] at hc
      exact absurd (by rw [hc.1]; simp) h2
  have hce : ∀ x ∈ ls, '\n' ∉ x ∧ CrEnd x := by
    intro x hx
    refine ⟨h1 x hx, fun a' b' he => ?_⟩
    obtain ⟨l1, l2, rfl⟩ := List.append_of_mem hx
    obtain ⟨c, hc⟩ := hcr (unlines l1 ++ a') (b' ++ '\n' :: unlines l2 ++ q ++ r)
      (by rw [hs, unlines_append, unlines_cons, he]; simp [List.append_assoc])
    cases b' with
    | nil => rfl
    | cons d b' =>
      simp only [List.cons_append, List.cons.injEq] at hc
      exact absurd (by rw [he, hc.1]; simp) (h1 x hx)
  rw [advance_lines hce ⟨h2, hq⟩, List.count_append, unlines_count h1, List.count_eq_zero.2 h2]
  simp

/-- Where a node is found. -/
theorem node_found {sys : Sys} {src : ConstraintSource} {e x : Expr} (h : parseConstraint sys k src = .ok e)
    (ho : OneLine src) (hx : NodeOf x e) :
    ∃ p m r, src.str = p ++ m ++ r ∧ x.start = advance src.loc p ∧ x.stop = advance src.loc (p ++ m) ∧ m ≠ [] ∧
      (∃ c cs, m = c :: cs ∧ c ≠ '\n' ∧ c ≠ '\r') ∧ (∃ c cs, m = cs ++ [c] ∧ c ≠ '\n' ∧ c ≠ '\r') := by
  obtain ⟨toks, last, h1, h2, h3⟩ := parseConstraint_split.1 h
  obtain ⟨toks', last', h4, h5, _, h6⟩ := lexed_ordered (tokenize_lexed src)
  rw [h1] at h4
  obtain ⟨rfl, _⟩ := List.append_inj' h4 rfl
  obtain ⟨h7, _, _⟩ := G_spans h3 h5
  obtain ⟨_, hlt⟩ := nested_node hx h7
  obtain ⟨⟨t, ht, hts⟩, u, hu, hus⟩ := G_ends h3 x hx
  obtain ⟨p1, m1, ⟨⟨r1, e1⟩, s1, _, n1, c1⟩, z1⟩ := tokens_found ho t (by rw [h1]; simp [ht])
  obtain ⟨p2, m2, ⟨⟨r2, e2⟩, _, s2, n2, c2⟩, z2⟩ := tokens_found ho u (by rw [h1]; simp [hu])
  have hm1 : m1 ≠ [] := fun e => (G_proper h3 t ht).1 (z1 e)
  have hm2 : m2 ≠ [] := fun e => (G_proper h3 u hu).1 (z2 e)
  rw [hts, s1, hus, s2] at hlt
  rw [hts, s1, hus, s2]
  have hpre : p1 ++ (m1 ++ r1) = (p2 ++ m2) ++ r2 := by rw [← e2, e1, List.append_assoc]
  rcases List.append_eq_append_iff.1 hpre with ⟨d, h8, h9⟩ | ⟨d, h8, h9⟩
  · -- the usual case
    have hd : d ≠ [] := by
      rintro rfl
      rw [h8, List.append_nil] at hlt
      unfold LocLt at hlt
      omega
    refine ⟨p1, d, r2, by rw [e2, h8], rfl, by rw [h8], hd, ?_, ?_⟩
    · obtain ⟨c, cs, rfl⟩ := List.exists_cons_of_ne_nil hm1
      obtain ⟨d0, ds, rfl⟩ := List.exists_cons_of_ne_nil hd
      simp only [List.cons_append, List.cons.injEq] at h9
      obtain ⟨rfl, _⟩ := h9
      exact ⟨c, ds, rfl, fun e => n1 (by simp [e]), fun e => c1 (by simp [e])⟩
    · obtain ⟨cs, c, rfl⟩ : ∃ cs c, m2 = cs ++ [c] := ⟨_, _, (List.dropLast_concat_getLast hm2).symm⟩
      obtain ⟨ds, d0, rfl⟩ : ∃ ds d0, d = ds ++ [d0] := ⟨_, _, (List.dropLast_concat_getLast hd).symm⟩
      rw [← List.append_assoc, ← List.append_assoc] at h8
      have := (List.append_inj' h8 rfl).2
      simp only [List.cons.injEq, and_true] at this
      subst this
      exact ⟨c, ds, rfl, fun e => n2 (by simp [e]), fun e => c2 (by simp [e])⟩
  · exfalso
    have := advance_append_le src.loc (p2 ++ m2) d
    rw [← h8] at this
    unfold LocLt LocLe at *
    omega

/-- C29 for nodes on one line. -/
theorem quote_node {sys : Sys} {src : ConstraintSource} {e x : Expr} (h : parseConstraint sys k src = .ok e)
    (ho : OneLine src) (hx : NodeOf x e) (hcr : CrLf src.str) (hset : src.loc.src ≠ .notSet) (hcol : src.loc.col = 0)
    (hl : x.start.line = x.stop.line) :
    ∃ text line at_, quoteSub src x.start x.stop = .ok text ∧
      LineOf src.str (x.start.line - src.loc.line).toNat line at_ ∧
      Shows text (x.start.line + 1) line x.start.col.toNat (x.stop.col - x.start.col).toNat := by
  obtain ⟨p, m, r, h1, h2, h3, h4, ⟨c, cs, h5, h5n, h5r⟩, d, ds, h6, h6n, h6r⟩ := node_found h ho hx
  have hpe : ¬ ∃ x, p = x ++ ['\r'] := by
    rintro ⟨y, rfl⟩
    obtain ⟨z, hz⟩ := hcr y (m ++ r) (by rw [h1]; simp)
    rw [h5] at hz
    simp only [List.cons_append, List.cons.injEq] at hz
    exact h5n hz.1
  have hpm : ¬ ∃ x, p ++ m = x ++ ['\r'] := by
    rintro ⟨y, hy⟩
    rw [h6, ← List.append_assoc] at hy
    have := (List.append_inj' hy rfl).2
    simp only [List.cons.injEq, and_true] at this
    exact h6r this
  have l1 := advance_line (l := src.loc) (p := p) (r := m ++ r) (by rw [h1]; simp) hcr hpe
  have l2 := advance_line (l := src.loc) (p := p ++ m) (r := r) h1 hcr hpm
  have hn : '\n' ∉ m := by
    rw [h2, h3, l1, l2, List.count_append] at hl
    have : m.count '\n' = 0 := by omega
    exact List.count_eq_zero.1 this
  have hr : '\r' ∉ m := by
    intro hm
    obtain ⟨a, b, rfl⟩ := List.append_of_mem hm
    obtain ⟨z, hz⟩ := hcr (p ++ a) (b ++ r) (by rw [h1]; simp)
    cases b with
    | nil => exact hpm ⟨p ++ a, by simp⟩
    | cons y b =>
      simp only [List.cons_append, List.cons.injEq] at hz
      exact hn (by rw [hz.1]; simp)
  obtain ⟨text, line, at_, q1, q2, q3, q4, _⟩ := quote_interval h1 h4 hn hr hcr hset (by omega)
  have hlen : x.stop.col - x.start.col = m.length := by
    rw [h2, h3, advance_append (.inl hpe),
      advance_plain (a := m) (by intro y hy; exact ⟨fun e => hr (e ▸ hy), fun e => hn (e ▸ hy)⟩)]
    simp only [shift]
    omega
  rw [hlen, Int.toNat_natCast]
  rw [h2, h3]
  exact ⟨text, line, at_, q1, q2, q3⟩

theorem advance_col_nonneg {l : Loc} (h : 0 ≤ l.col) (s : Str) : 0 ≤ (advance l s).col := by
  induction s generalizing l with
  | nil => exact h
  | cons c s ih =>
    apply ih
    split
    · exact h
    · split
      · exact Int.le_refl 0
      · simp only [shift]; omega

/-- Quoting an interval that ends on another line. -/
theorem quote_multi {src : ConstraintSource} {p m r : Str} {c : Char} (hsrc : src.str = p ++ c :: m ++ r)
    (hn : c ≠ '\n') (hc : c ≠ '\r') (hcr : CrLf src.str) (hset : src.loc.src ≠ .notSet) (hcol : 0 ≤ src.loc.col)
    {stop : Loc} (hs : stop.src = src.loc.src) (hd : (advance src.loc p).line ≠ stop.line) :
    ∃ line at_ num, LineOf src.str ((advance src.loc p).line - src.loc.line).toNat line at_ ∧
      num = intDec ((advance src.loc p).line + 1) ∧
      (line.length < num.length + 3 + (advance src.loc p).col.toNat → quoteSub src (advance src.loc p) stop = .crash) ∧
      (num.length + 3 + (advance src.loc p).col.toNat ≤ line.length →
        ∃ text, quoteSub src (advance src.loc p) stop = .ok text ∧
          Shows text ((advance src.loc p).line + 1) line (advance src.loc p).col.toNat
            (line.length - (num.length + 3 + (advance src.loc p).col.toNat))) := by
  obtain ⟨text, line, at_, _, h2, _, _, g1, g2⟩ := quote_interval (src := src) (p := p) (m := [c]) (r := m ++ r)
    (by rw [hsrc]; simp) (by simp) (by simp [Ne.symm hn]) (by simp [Ne.symm hc]) hcr hset hcol
  obtain ⟨a, b, h3, h4, h5, h6, h7, h8⟩ := h2
  refine ⟨line, at_, _, ⟨a, b, h3, h4, h5, h6, h7, h8⟩, rfl, ?_⟩
  have hpe : ¬ ∃ x, p = x ++ ['\r'] := by
    rintro ⟨y, rfl⟩
    obtain ⟨z, hz⟩ := hcr y (c :: m ++ r) (by rw [hsrc]; simp)
    simp only [List.cons_append, List.cons.injEq] at hz
    exact hn hz.1
  have l1 := advance_line (l := src.loc) (p := p) (r := c :: m ++ r) (by rw [hsrc]; simp) hcr hpe
  obtain ⟨header, hq⟩ := quoteSub_eq (src := src) (start := advance src.loc p) (stop := stop) (advance_src _ _) hs hset
  have hcol' : 0 ≤ (advance src.loc p).col := advance_col_nonneg hcol p
  obtain ⟨ls, q, h9, h10, h11⟩ := lines_exist a
  have hq0 : q = [] := by
    rcases h6 with rfl | ⟨a', rfl⟩
    · exact (List.append_eq_nil_iff.1 h9.symm).2
    · rcases List.eq_nil_or_concat q with h | ⟨q', d, rfl⟩
      · exact h
      · rw [List.concat_eq_append, ← List.append_assoc] at h9
        have := (List.append_inj' h9 rfl).2
        simp only [List.cons.injEq, and_true] at this
        exact absurd (by rw [← this]; simp) h11
  rw [hq0, List.append_nil] at h9
  have hline : (advance src.loc p).line = src.loc.line + ls.length := by
    rw [h9, unlines_count h10, l1] at h5
    rw [l1]; omega
  have hne : line ≠ [] := by
    rintro rfl
    simp at g2
    omega
  have := quote_eq (start := advance src.loc p) (stop := stop) (by rw [h3, h9]) h10 h7 h8 (by simp [hne]) hline
    (fun e => hd (by rw [e])) hcol'
  rw [if_neg hd] at this
  rw [hq, this]
  refine ⟨fun hlt => ?_, fun hle => ?_⟩
  · rw [stringFill, if_pos (by omega)]; rfl
  · rw [stringFill, if_neg (by omega)]
    refine ⟨_, rfl, header ++ contextOf ls (List.replicate (intDec ((advance src.loc p).line + 1)).length ' '), 
      intDec ((advance src.loc p).line + 1), fun n hn => intDec_canonical hn, ?_⟩
    rw [show ((line.length : Int) - ((intDec ((advance src.loc p).line + 1)).length + 3 + (advance src.loc p).col.toNat : Nat)).toNat =
      line.length - ((intDec ((advance src.loc p).line + 1)).length + 3 + (advance src.loc p).col.toNat) by omega]
    simp only [List.append_assoc]

/-! ### Parse errors -/

/-- The line with a given number exists. -/
theorem line_at {s a b : Str} {n : Nat} (hsrc : s = a ++ b) (hb : b ≠ []) (h2 : n ≤ a.count '\n') :
    ∃ ks line rest, s = unlines ks ++ line ++ rest ∧ (∀ l ∈ ks, '\n' ∉ l) ∧ '\n' ∉ line ∧
      (rest = [] ∨ ∃ r, rest = '\n' :: r) ∧ line ++ rest ≠ [] ∧ ks.length = n := by
  obtain ⟨ls, q, hq, h6, h7⟩ := lines_exist s
  have hc : (a ++ b).count '\n' = ls.length := by
    rw [← hsrc, hq, List.count_append, unlines_count h6, List.count_eq_zero.2 h7]; rfl
  rw [List.count_append] at hc
  by_cases hlt : n < ls.length
  · refine ⟨ls.take n, ls[n], '\n' :: (unlines (ls.drop (n + 1)) ++ q), ?_, ?_, ?_, .inr ⟨_, rfl⟩, by simp, ?_⟩
    · have : unlines ls = unlines (ls.take n) ++ (ls[n] ++ '\n' :: unlines (ls.drop (n + 1))) := by
        rw [← unlines_cons, ← List.drop_eq_getElem_cons hlt, ← unlines_append, List.take_append_drop]
      rw [hq, this]
      simp
    · exact fun l hl => h6 l (List.mem_of_mem_take hl)
    · exact h6 _ (List.getElem_mem hlt)
    · rw [List.length_take]; omega
  · have hbn : b.count '\n' = 0 := by omega
    refine ⟨ls, q, [], by simp [hq], h6, h7, .inl rfl, ?_, by omega⟩
    rw [List.append_nil]
    rintro rfl
    rw [List.append_nil] at hq
    rcases List.eq_nil_or_concat b with h | ⟨b', x, rfl⟩
    · exact hb h
    · rw [List.concat_eq_append] at *
      have hx : x ≠ '\n' := by
        rintro rfl
        exact List.count_eq_zero.1 hbn (by simp)
      rcases unlines_end (ls := ls) with h | ⟨y, h⟩
      · rw [hq, h] at hsrc
        have := congrArg List.length hsrc
        simp at this
      · rw [hq, h, ← List.append_assoc] at hsrc
        have := (List.append_inj' hsrc rfl).2
        simp only [List.cons.injEq, and_true] at this
        exact hx this.symm

/-- A line that exists in the text and is not the empty last line can be quoted. -/
theorem quote_line {src : ConstraintSource} {a b : Str} {start stop : Loc} (hsrc : src.str = a ++ b) (hb : b ≠ [])
    (h1 : src.loc.line ≤ start.line) (h2 : start.line ≤ src.loc.line + a.count '\n')
    (h3 : stop.line = start.line) (h4 : 0 ≤ start.col) (h5 : start.col ≤ stop.col) :
    ∃ text, quote src start stop = .ok text := by
  by_cases hd : start = stop
  · unfold quote
    rw [if_pos hd]
    exact ⟨_, rfl⟩
  obtain ⟨n, hn⟩ : ∃ n : Nat, start.line = src.loc.line + n := ⟨(start.line - src.loc.line).toNat, by omega⟩
  obtain ⟨ks, line, rest, e1, e2, e3, e4, e5, e6⟩ := line_at (n := n) hsrc hb (by omega)
  have := quote_eq (start := start) (stop := stop) e1 e2 e3 e4 e5 (by rw [hn, e6]) hd h4
  rw [if_pos h3.symm, stringFill, if_neg (by omega)] at this
  exact ⟨_, this⟩

/-- The only way in which quoting something that starts on a line of the text can fail is a crash. -/
theorem quote_ne_err {src : ConstraintSource} {a b : Str} {start stop : Loc} (hsrc : src.str = a ++ b) (hb : b ≠ [])
    (h1 : src.loc.line ≤ start.line) (h2 : start.line ≤ src.loc.line + a.count '\n') (h4 : 0 ≤ start.col) (c : Code) :
    quote src start stop ≠ .err c := by
  by_cases hd : start = stop
  · unfold quote
    rw [if_pos hd]
    nofun
  obtain ⟨n, hn⟩ : ∃ n : Nat, start.line = src.loc.line + n := ⟨(start.line - src.loc.line).toNat, by omega⟩
  obtain ⟨ks, line, rest, e1, e2, e3, e4, e5, e6⟩ := line_at (n := n) hsrc hb (by omega)
  rw [quote_eq (start := start) (stop := stop) e1 e2 e3 e4 e5 (by rw [hn, e6]) hd h4]
  generalize (if start.line = stop.line then _ else _ : Int) = z
  unfold stringFill
  split <;> exact nofun

/-- Where a token is, whatever its kind. -/
def PlacedAt (l : Loc) (s : Str) (t : Token) : Prop :=
  t.start.src = l.src ∧ t.stop.src = l.src ∧ t.stop.line = t.start.line ∧ (0 ≤ l.col → 0 ≤ t.start.col) ∧
    t.start.col ≤ t.stop.col ∧ l.line ≤ t.start.line ∧ (t.start ≠ t.stop →
    ∃ a b, s = a ++ b ∧ b ≠ [] ∧ t.start.line ≤ l.line + a.count '\n')

theorem PlacedAt.skip {l l' : Loc} {s p : Str} {t : Token} (h : PlacedAt l' s t) (h1 : l'.src = l.src)
    (h2 : 0 ≤ l.col → 0 ≤ l'.col) (h3 : l.line ≤ l'.line) (h4 : l'.line ≤ l.line + p.count '\n') :
    PlacedAt l (p ++ s) t := by
  obtain ⟨e1, e2, e3, e4, e5, e6, e7⟩ := h
  refine ⟨e1.trans h1, e2.trans h1, e3, fun h => e4 (h2 h), e5, by omega, fun hne => ?_⟩
  obtain ⟨a, b, rfl, e8, e9⟩ := e7 hne
  exact ⟨p ++ a, b, by simp, e8, by rw [List.count_append]; omega⟩

theorem CrLf.tail {a s : Str} (h : CrLf (a ++ s)) : CrLf s :=
  fun x y e => h (a ++ x) y (by rw [e]; simp)

theorem lexed_placed {l : Loc} {s : Str} {ts : List Token} (h : Lexed l s ts) (hcr : CrLf s) :
    ∀ t ∈ ts, PlacedAt l s t := by
  induction h with
  | eof =>
    intro t ht
    rw [List.mem_singleton.1 ht]
    exact ⟨rfl, rfl, rfl, id, Int.le_refl _, Int.le_refl _, fun h => absurd rfl h⟩
  | @bad l c s _ =>
    intro t ht
    rw [List.mem_singleton.1 ht]
    exact ⟨rfl, rfl, rfl, id, by simp only [shift]; omega, Int.le_refl _, fun _ => ⟨[], c :: s, rfl, by simp, by simp⟩⟩
  | @blank l c s ts hc _ ih =>
    intro t ht
    exact (ih (CrLf.tail (a := [c]) hcr) t ht).skip (p := [c]) rfl (by simp only [shift]; omega) (by simp [shift])
      (by simp only [shift]; omega)
  | @crlf l s ts _ ih =>
    intro t ht
    exact (ih (CrLf.tail (a := ['\r', '\n']) hcr) t ht).skip (p := ['\r', '\n']) rfl (by simp [nextLine])
      (by simp only [nextLine]; omega) (by simp [nextLine])
  | @cr l s ts hn _ ih =>
    obtain ⟨c, hc⟩ := hcr [] s rfl
    exact absurd hc (hn c)
  | @lf l s ts _ ih =>
    intro t ht
    exact (ih (CrLf.tail (a := ['\n']) hcr) t ht).skip (p := ['\n']) rfl (by simp [nextLine])
      (by simp only [nextLine]; omega) (by simp [nextLine])
  | @line l a s ts _ _ _ _ ih =>
    intro t ht
    exact (ih (CrLf.tail (a := '/' :: '/' :: a) (by simpa using hcr)) t ht).skip (p := '/' :: '/' :: a) rfl
      (by simp only [shift]; omega) (by simp [shift]) (by simp only [shift]; omega)
  | @block l a s ts _ _ _ ih =>
    intro t ht
    have he : (advance l (c!"/*" ++ a ++ c!"*/")).line = l.line + (c!"/*" ++ a ++ c!"*/").count '\n' := by
      refine advance_line rfl hcr ?_
      rintro ⟨x, hx⟩
      rw [show c!"/*" ++ a ++ c!"*/" = (c!"/*" ++ a ++ ['*']) ++ ['/'] by simp] at hx
      have := (List.append_inj' hx rfl).2
      simp at this
    exact (ih (CrLf.tail hcr) t ht).skip (advance_src _ _) (fun h => advance_col_nonneg h _) (by omega) (by omega)
  | @openBlock l a s ts _ _ hn _ ih =>
    intro t ht
    have he : (advance l (c!"/*" ++ a)).line = l.line + (c!"/*" ++ a).count '\n' := by
      refine advance_line rfl hcr ?_
      rintro ⟨x, hx⟩
      obtain ⟨c, hc⟩ := hcr x s (by rw [hx]; simp)
      exact hn ['\n'] c (.ascii (by decide)) (by rw [hc]; rfl)
    exact (ih (CrLf.tail hcr) t ht).skip (advance_src _ _) (fun h => advance_col_nonneg h _) (by omega) (by omega)
  | @tok l k text lexeme s ts hsp _ _ ih =>
    intro t ht
    rcases List.mem_cons.1 ht with rfl | ht
    · refine ⟨rfl, rfl, rfl, id, by simp only [shift]; omega, Int.le_refl _, fun _ => ⟨[], lexeme ++ s, rfl, ?_, by simp⟩⟩
      have := spells_length hsp
      intro e
      rw [(List.append_eq_nil_iff.1 e).1] at this
      simp at this
    · exact (ih (CrLf.tail hcr) t ht).skip rfl (by simp only [shift]; omega) (by simp [shift]) (by simp only [shift]; omega)

theorem quotingError_token {α : Type} {src : ConstraintSource} (hcr : CrLf src.str)
    (hset : src.loc.src ≠ .notSet) (hcol : 0 ≤ src.loc.col) {t : Token} (ht : t ∈ tokenize src) :
    (parseError t src : Res α) = .err .invalidArgument := by
  obtain ⟨h1, h2, h3, h4, h5, h6, h7⟩ := lexed_placed (tokenize_lexed src) hcr t ht
  obtain ⟨hd, he⟩ := quoteSub_eq h1 h2 hset
  have : ∃ text, quote src t.start t.stop = .ok text := by
    by_cases hne : t.start = t.stop
    · unfold quote
      rw [if_pos hne]
      exact ⟨_, rfl⟩
    · obtain ⟨a, b, e1, e2, e3⟩ := h7 hne
      exact quote_line e1 e2 h6 e3 h3 (h4 hcol) h5
  obtain ⟨text, hq⟩ := this
  unfold parseError quotingError
  rw [he, hq]
  rfl

/-- Every error is reported at a token of the text. -/
theorem outcome_constraint (sys : Sys) (src : ConstraintSource) :
    (∃ e, parseConstraint sys k src = .ok e) ∨ parseConstraint sys k src = .err .invalidArgument ∨
      ∃ t, (t ∈ tokenize src ∨ t.start = t.stop ∧ ∃ u ∈ tokenize src, u.stop = t.start) ∧
        parseConstraint sys k src = parseError t src := by
  rcases outcome_tokens (sys := sys) (k := k) (src := src) (tokenize_numTok src) with h | h | ⟨t, ht, h⟩
  · exact .inl h
  · exact .inr (.inl h)
  · refine .inr (.inr ⟨t, ?_, h⟩)
    rcases ht with ht | rfl
    · exact .inl ht
    · obtain ⟨toks, last, h1, _, _⟩ := tokenize_split src
      refine .inr ⟨rfl, last, by rw [h1]; simp, ?_⟩
      unfold eofLoc
      rw [h1]
      simp

theorem parse_total {sys : Sys} {src : ConstraintSource} (hcr : CrLf src.str)
    (hset : src.loc.src ≠ .notSet) (hcol : 0 ≤ src.loc.col) :
    (∃ e, parseConstraint sys k src = .ok e) ∨ parseConstraint sys k src = .err .invalidArgument := by
  rcases outcome_constraint (k := k) sys src with h | h | ⟨t, ht, h⟩
  · exact .inl h
  · exact .inr h
  · refine .inr (h.trans ?_)
    rcases ht with ht | ⟨he, u, hu, hus⟩
    · exact quotingError_token hcr hset hcol ht
    · have h2 := (lexed_placed (tokenize_lexed src) hcr u hu).2.1
      obtain ⟨hd, hq⟩ := quoteSub_eq (src := src) (start := t.start) (stop := t.stop) (by rw [← hus, h2])
        (by rw [← he, ← hus, h2]) hset
      unfold parseError quotingError
      rw [hq]
      unfold quote
      rw [if_pos he]
      rfl

/-- Tokens are taken to be on one line. -/
theorem lexed_flat {l : Loc} {s : Str} {ts : List Token} (h : Lexed l s ts) (hl : 0 ≤ l.col) :
    ∀ t ∈ ts, t.stop.line = t.start.line ∧ 0 ≤ t.start.col ∧ t.start.col ≤ t.stop.col := by
  induction h with
  | eof => intro t ht; rw [List.mem_singleton.1 ht]; exact ⟨rfl, hl, Int.le_refl _⟩
  | bad => intro t ht; rw [List.mem_singleton.1 ht]; exact ⟨rfl, hl, by simp only [shift]; omega⟩
  | blank _ _ ih | line _ _ _ _ ih => exact ih (by simp only [shift]; omega)
  | crlf _ ih | cr _ _ ih | lf _ ih => exact ih (Int.le_refl 0)
  | block _ _ _ ih => exact ih (advance_col_nonneg hl _)
  | openBlock _ _ _ _ ih => exact ih (advance_col_nonneg hl _)
  | tok _ _ _ ih =>
    intro t ht
    rcases List.mem_cons.1 ht with rfl | ht
    · exact ⟨rfl, hl, by simp only [shift]; omega⟩
    · exact ih (by simp only [shift]; omega) t ht

theorem discardLines_ne_crash : ∀ n s, discardLines n s ≠ .crash
  | 0, s => by simp [discardLines]
  | n + 1, s => by
    unfold discardLines
    split
    · exact discardLines_ne_crash n _
    · simp

theorem bind_ne_crash {α β : Type} {x : Res α} {f : α → Res β} (h : x ≠ .crash) (hf : ∀ a, x = .ok a → f a ≠ .crash) :
    x >>= f ≠ .crash := by
  cases x with
  | ok a => exact hf a rfl
  | crash => exact absurd rfl h
  | err c => exact fun h => by cases h
  | oof => exact fun h => by cases h

theorem contextLines_ne_crash (pre : Str) : ∀ n s, contextLines pre n s ≠ .crash
  | 0, s => by simp [contextLines]
  | n + 1, s => by
    unfold contextLines
    split
    · exact bind_ne_crash (contextLines_ne_crash pre n _) fun a _ => by simp
    · simp

theorem explainLoc_ne_crash (start stop : Loc) : explainLoc start stop ≠ .crash := by
  unfold explainLoc
  cases start.src <;> simp

theorem quoteSub_ne_crash {src : ConstraintSource} {start stop : Loc} (h1 : stop.line = start.line)
    (h2 : 0 ≤ start.col) (h3 : start.col ≤ stop.col) : quoteSub src start stop ≠ .crash := by
  unfold quoteSub
  split
  · simp
  · refine bind_ne_crash (explainLoc_ne_crash _ _) fun _ _ => bind_ne_crash ?_ fun _ _ => by simp
    unfold quote
    split
    · simp
    · refine bind_ne_crash (discardLines_ne_crash _ _) fun s _ => bind_ne_crash (contextLines_ne_crash _ _ _) fun a _ => ?_
      obtain ⟨ctx, s'⟩ := a
      dsimp only
      cases getline s' with
      | none => simp
      | some p =>
        obtain ⟨line, r⟩ := p
        dsimp only
        refine bind_ne_crash ?_ fun pad _ => bind_ne_crash ?_ fun _ _ => by simp
        · rw [stringFill, if_neg (by omega)]; simp
        · rw [if_pos h1.symm, stringFill, if_neg (by omega)]; simp

theorem parse_ne_crash {sys : Sys} {src : ConstraintSource} (hcol : 0 ≤ src.loc.col) :
    parseConstraint sys k src ≠ .crash := by
  have pe : ∀ t : Token, quoteSub src t.start t.stop ≠ .crash → (parseError t src : Res Expr) ≠ .crash := by
    intro t h
    unfold parseError quotingError
    cases hq : quoteSub src t.start t.stop <;> simp_all
  rcases outcome_constraint (k := k) sys src with ⟨e, h⟩ | h | ⟨t, ht, h⟩
  · rw [h]; simp
  · rw [h]; simp
  · rw [h]
    refine pe t ?_
    rcases ht with ht | ⟨he, u, hu, hus⟩
    · obtain ⟨h1, h2, h3⟩ := lexed_flat (tokenize_lexed src) hcol t ht
      exact quoteSub_ne_crash h1 h2 h3
    · obtain ⟨h1, h2, h3⟩ := lexed_flat (tokenize_lexed src) hcol u hu
      exact quoteSub_ne_crash (by rw [he]) (by rw [← hus]; omega) (by rw [← he]; exact Int.le_refl _)

theorem parse_outcomes {sys : Sys} {src : ConstraintSource} (hcol : 0 ≤ src.loc.col) :
    (∃ e, parseConstraint sys k src = .ok e) ∨ parseConstraint sys k src = .err .invalidArgument ∨
      parseConstraint sys k src = .err .internal := by
  have hc := parse_ne_crash (sys := sys) (k := k) hcol
  rcases outcome_constraint (k := k) sys src with h | h | ⟨t, _, h⟩
  · exact .inl h
  · exact .inr (.inl h)
  · right
    rw [h] at hc ⊢
    unfold parseError quotingError at *
    have := quoteSub_ne_oof src t.start t.stop
    cases hq : quoteSub src t.start t.stop <;> simp_all

end P4C
