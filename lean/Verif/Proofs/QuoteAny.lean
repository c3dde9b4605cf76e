import Verif.Proofs.TypeFault
import Verif.Spec.Missing
/-!
# Quoting parts of any text
-/
namespace P4C
open Spec

theorem lineOf_unique {s line line' : Str} {n p p' : Nat} (h : LineOf s n line p) (h' : LineOf s n line' p') :
    line = line' ∧ p = p' := by
  obtain ⟨ls, rest, rfl, rfl, rfl, h4, h5, h6⟩ := lineOf_iff.1 h
  obtain ⟨ls', rest', g1, rfl, g3, g4, g5, g6⟩ := lineOf_iff.1 h'
  rw [List.append_assoc, List.append_assoc] at g1
  obtain ⟨rfl, h7⟩ := unlines_cut g1 g3.symm h4 g4
  exact ⟨(line_cut h7 h5 g5 h6 g6).1, rfl⟩

theorem lexed_src {l : Loc} {s : Str} {ts : List Token} (h : Lexed l s ts) :
    ∀ t ∈ ts, t.start.src = l.src ∧ t.stop.src = l.src := by
  induction h with
  | eof => intro t ht; rw [List.mem_singleton.1 ht]; exact ⟨rfl, rfl⟩
  | bad => intro t ht; rw [List.mem_singleton.1 ht]; exact ⟨rfl, rfl⟩
  | blank _ _ ih | line _ _ _ _ ih | crlf _ ih | cr _ _ ih | lf _ ih => exact ih
  | block _ _ _ ih => simpa only [advance_src] using ih
  | openBlock _ _ _ _ ih => simpa only [advance_src] using ih
  | tok _ _ _ ih =>
    intro t ht
    rcases List.mem_cons.1 ht with rfl | ht
    · exact ⟨rfl, rfl⟩
    · exact ih t ht

theorem lexed_lines {l : Loc} {s : Str} {ts : List Token} (h : Lexed l s ts) : ∀ t ∈ ts, l.line ≤ t.start.line := by
  have adv : ∀ (l : Loc) (s : Str), l.line ≤ (advance l s).line := fun l s => by
    have := advance_le l s
    unfold LocLe at this
    omega
  induction h with
  | eof => intro t ht; rw [List.mem_singleton.1 ht]; exact Int.le_refl _
  | bad => intro t ht; rw [List.mem_singleton.1 ht]; exact Int.le_refl _
  | blank _ _ ih | line _ _ _ _ ih => exact ih
  | crlf _ ih | cr _ _ ih | lf _ ih =>
    intro t ht
    have := ih t ht
    simp only [nextLine] at this
    omega
  | @block l a _ _ _ _ _ ih =>
    intro t ht
    exact Int.le_trans (adv l _) (ih t ht)
  | @openBlock l a _ _ _ _ _ _ ih =>
    intro t ht
    exact Int.le_trans (adv l _) (ih t ht)
  | tok _ _ _ ih =>
    intro t ht
    rcases List.mem_cons.1 ht with rfl | ht
    · exact Int.le_refl _
    · exact ih t ht

/-- Quoting from one part of a constraint to another crashes if this cannot be quoted. -/
theorem nodes_unquotable {sys : Sys} {k : ConstraintKind} {src : ConstraintSource} {e u v : Expr}
    (hp : parseConstraint sys k src = .ok e) (hset : src.loc.src ≠ .notSet)
    (hline : 0 ≤ src.loc.line) (hcol : 0 ≤ src.loc.col) (hu : NodeOf u e) (hv : NodeOf v e)
    (hle : Nested e → LocLe u.start v.stop) :
    quoteSub src u.start v.stop = .crash ↔ Unquotable src u.start v.stop := by
  obtain ⟨toks, last, h1, h2, h3⟩ := parseConstraint_split.1 hp
  obtain ⟨toks', last', h4, h5, _, _⟩ := lexed_ordered (tokenize_lexed src)
  rw [h1] at h4
  obtain ⟨rfl, _⟩ := List.append_inj' h4 rfl
  have hle := hle (G_spans h3 h5).1
  obtain ⟨⟨t, ht, hts⟩, _⟩ := G_ends h3 u hu
  obtain ⟨-, w, hw, hws⟩ := G_ends h3 v hv
  have a1 := (lexed_flat (tokenize_lexed src) hcol t (by rw [h1]; simp [ht])).2.1
  have a2 := (lexed_src (tokenize_lexed src) t (by rw [h1]; simp [ht])).1
  have a3 := lexed_lines (tokenize_lexed src) t (by rw [h1]; simp [ht])
  have a4 := (lexed_src (tokenize_lexed src) w (by rw [h1]; simp [hw])).2
  rw [← hts] at a1 a2 a3
  rw [← hws] at a4
  unfold LocLe at hle
  rw [quoteSub_crash_iff, quote_crash_iff a3 (by omega) a1]
  constructor
  · rintro ⟨_, _, _, _, num, line, p, g1, g2, g3, ⟨g4, g5⟩ | ⟨g4, g5⟩⟩
    · omega
    · exact ⟨g4, num, line, p, g1, g2, g3, g5⟩
  · rintro ⟨hne, num, line, p, g1, g2, g3, g4⟩
    exact ⟨a2, a4, hset, fun h => hne (by rw [h]), num, line, p, g1, g2, g3, .inr ⟨hne, g4⟩⟩

theorem fault_unquotable {sys : Sys} {k : ConstraintKind} {src : ConstraintSource} {e y : Expr} {Γ : Sig}
    {nm : Ty → Str → Prop} {act : Bool} {a b : Loc} {m : Str} (hp : parseConstraint sys k src = .ok e)
    (hset : src.loc.src ≠ .notSet) (hline : 0 ≤ src.loc.line) (hcol : 0 ≤ src.loc.col)
    (hf : First Γ e y) (h : Fault nm act Γ y a b m) : quoteSub src a b = .crash ↔ Unquotable src a b := by
  obtain ⟨u, v, hu, hv, rfl, rfl, hle⟩ := fault_nodes h
  exact nodes_unquotable hp hset hline hcol (first_node hf hu) (first_node hf hv)
    fun hn => hle (nested_node (first_node hf (.self _)) hn).1

/-- The source from the line of `a` on. -/
def fromLine (src : ConstraintSource) (a : Loc) : ConstraintSource := { src with loc := { src.loc with line := a.line } }

theorem quote_before {src : ConstraintSource} {a b : Loc} (h : a.line < src.loc.line) :
    quote src a b = quote (fromLine src a) a b := by
  have h1 : ¬ a.line = src.loc.line := by omega
  have h2 : (a.line - 1 - src.loc.line).toNat = 0 := by omega
  have h3 : (a.line - 0 - a.line).toNat = 0 := by omega
  have h4 : (a.line - max src.loc.line (a.line - 1)).toNat = 0 := by omega
  have h5 : (a.line - max a.line (a.line - 0)).toNat = 0 := by omega
  simp only [quote, fromLine, h1, h2, h3, h4, h5, if_false, if_true]

theorem fromLine_line {src : ConstraintSource} {a : Loc} (h : a.line < src.loc.line) :
    (a.line - (fromLine src a).loc.line).toNat = (a.line - src.loc.line).toNat := by
  simp only [fromLine]
  omega

theorem excerpt_before {src : ConstraintSource} {a b : Loc} {q : Str} (h : a.line < src.loc.line) :
    Excerpt (fromLine src a) a b q ↔ Excerpt src a b q := by
  have h1 := fromLine_line h
  constructor
  · intro hq
    cases hq with
    | empty h => exact .empty h
    | line g1 g2 g3 g4 g5 g6 g7 =>
      rw [h1] at g3 g5
      exact .line g1 g2 g3 g4 g5 g6 g7
  · intro hq
    cases hq with
    | empty h => exact .empty h
    | line g1 g2 g3 g4 g5 g6 g7 =>
      rw [← h1] at g3 g5
      exact .line g1 g2 g3 g4 g5 g6 g7

theorem quote_any_iff {src : ConstraintSource} {a b : Loc} {q : Str} (h0 : 0 ≤ a.line) (hc : 0 ≤ a.col) :
    quote src a b = .ok q ↔ Excerpt src a b q := by
  by_cases h : src.loc.line ≤ a.line
  · exact quote_iff h h0 hc
  · have h : a.line < src.loc.line := by omega
    rw [quote_before h, quote_iff (src := fromLine src a) (Int.le_refl a.line) h0 hc, excerpt_before h]

theorem quote_any_crash_iff {src : ConstraintSource} {a b : Loc} (h0 : 0 ≤ a.line) (hc : 0 ≤ a.col) :
    quote src a b = .crash ↔ a ≠ b ∧ ∃ num line p, Numeral (a.line + 1) num ∧
      LineOf src.str (a.line - src.loc.line).toNat line p ∧ p < src.str.length ∧
      (a.line = b.line ∧ b.col < a.col ∨ a.line ≠ b.line ∧ line.length < num.length + 3 + a.col.toNat) := by
  by_cases h : src.loc.line ≤ a.line
  · exact quote_crash_iff h h0 hc
  · have h : a.line < src.loc.line := by omega
    rw [quote_before h, quote_crash_iff (src := fromLine src a) (Int.le_refl a.line) h0 hc, fromLine_line h]
    rfl

theorem quoteSub_any_iff {src : ConstraintSource} {a b : Loc} {text : Str} (h0 : 0 ≤ a.line)
    (hc : 0 ≤ a.col) (hb : 0 ≤ b.col) : quoteSub src a b = .ok text ↔ Quotation src a b text := by
  by_cases h : src.loc.line ≤ a.line
  · exact quoteSub_iff h h0 hc hb
  · have h : a.line < src.loc.line := by omega
    have h1 : quoteSub src a b = quoteSub (fromLine src a) a b := by
      unfold quoteSub
      rw [quote_before h]
      rfl
    rw [h1, quoteSub_iff (src := fromLine src a) (Int.le_refl a.line) h0 hc hb]
    unfold Quotation
    simp only [excerpt_before h]
    rfl

/-- Where a type error is. -/
theorem fault_where {sys : Sys} {k : ConstraintKind} {src : ConstraintSource} {e y : Expr} {Γ : Sig}
    {nm : Ty → Str → Prop} {act : Bool} {a b : Loc} {m : Str} (hp : parseConstraint sys k src = .ok e)
    (hcol : 0 ≤ src.loc.col) (hf : First Γ e y) (h : Fault nm act Γ y a b m) :
    a.src = src.loc.src ∧ b.src = src.loc.src ∧ src.loc.line ≤ a.line ∧ 0 ≤ a.col ∧ 0 ≤ b.col ∧ LocLe a b := by
  obtain ⟨u, v, hu, hv, rfl, rfl, hle⟩ := fault_nodes h
  have hu := first_node hf hu
  have hv := first_node hf hv
  obtain ⟨toks, last, h1, h2, h3⟩ := parseConstraint_split.1 hp
  obtain ⟨toks', last', h4, h5, _, _⟩ := lexed_ordered (tokenize_lexed src)
  rw [h1] at h4
  obtain ⟨rfl, _⟩ := List.append_inj' h4 rfl
  have hle := hle (nested_node (first_node hf (.self _)) (G_spans h3 h5).1).1
  obtain ⟨⟨t, ht, hts⟩, _⟩ := G_ends h3 u hu
  obtain ⟨-, w, hw, hws⟩ := G_ends h3 v hv
  have a1 := (lexed_flat (tokenize_lexed src) hcol t (by rw [h1]; simp [ht]))
  have a2 := (lexed_src (tokenize_lexed src) t (by rw [h1]; simp [ht])).1
  have a3 := lexed_lines (tokenize_lexed src) t (by rw [h1]; simp [ht])
  have a4 := (lexed_src (tokenize_lexed src) w (by rw [h1]; simp [hw])).2
  have a5 := (lexed_flat (tokenize_lexed src) hcol w (by rw [h1]; simp [hw]))
  rw [← hts] at a1 a2 a3
  rw [← hws] at a4 a5
  exact ⟨a2, a4, a3, a1.2.1, by omega, hle⟩


/-- The outcomes of quoting. -/
theorem quoteSub_outcomes {src : ConstraintSource} {a b : Loc} (h1 : a.src = src.loc.src) (h2 : b.src = src.loc.src)
    (h0 : 0 ≤ a.line) (h4 : 0 ≤ a.col) (h5 : 0 ≤ b.col) (h6 : LocLe a b) :
    (∃ q, quoteSub src a b = .ok q ∧ Quotation src a b q) ∧ ¬ Missing src a b ∧ ¬ Unquotable src a b ∨
    quoteSub src a b = .err .invalidArgument ∧ Missing src a b ∧ (∀ q, ¬ Quotation src a b q) ∨
    quoteSub src a b = .crash ∧ src.loc.src ≠ .notSet ∧ Unquotable src a b ∧ ¬ Missing src a b ∧
      ∀ q, ¬ Quotation src a b q := by
  have hcrash : quoteSub src a b = .crash ↔ src.loc.src ≠ .notSet ∧ Unquotable src a b := by
    unfold LocLe at h6
    rw [quoteSub_crash_iff, quote_any_crash_iff h0 h4]
    constructor
    · rintro ⟨_, _, g0, _, num, line, p, g1, g2, g3, ⟨g4, g5⟩ | ⟨g4, g5⟩⟩
      · omega
      · exact ⟨g0, g4, num, line, p, g1, g2, g3, g5⟩
    · rintro ⟨g0, hne, num, line, p, g1, g2, g3, g4⟩
      exact ⟨h1, h2, g0, fun h => hne (by rw [h]), num, line, p, g1, g2, g3, .inr ⟨hne, g4⟩⟩
  have hok : ∀ q, quoteSub src a b = .ok q ↔ Quotation src a b q := fun q => quoteSub_any_iff h0 h4 h5
  have hunq : Unquotable src a b → ¬ NoSuchLine src a := by
    rintro ⟨_, num, line, p, _, g2, g3, _⟩ hn
    have := hn _ _ g2
    omega
  have hmiss : Missing src a b → ∀ q, ¬ Quotation src a b q := by
    rintro (hs | ⟨hne, hn⟩) q ⟨_, _, hd, e, hh, he, _⟩
    · rw [← h1] at hs
      cases hh with
      | file h => rw [hs] at h; cases h
      | table h => rw [hs] at h; cases h
      | action h => rw [hs] at h; cases h
    · cases he with
      | empty h => exact hne h
      | line _ _ hl hp =>
        have := hn _ _ hl
        omega
  rcases quoteSub_total src a b with ⟨q, hq⟩ | hq | hq
  · refine .inl ⟨⟨q, hq, (hok q).1 hq⟩, fun hm => hmiss hm q ((hok q).1 hq), fun hu => ?_⟩
    by_cases hs : src.loc.src = .notSet
    · exact hmiss (.inl hs) q ((hok q).1 hq)
    · rw [hcrash.2 ⟨hs, hu⟩] at hq
      cases hq
  · have hno : ∀ q, ¬ Quotation src a b q := by
      intro q h
      rw [(hok q).2 h] at hq
      cases hq
    refine .inr (.inl ⟨hq, ?_, hno⟩)
    by_cases hs : src.loc.src = .notSet
    · exact .inl hs
    · obtain ⟨hd, hh⟩ : ∃ hd, Header a b hd := by
        rcases explain_total a b with ⟨⟨hd, hh⟩, _⟩ | ⟨_, hh⟩
        · exact ⟨hd, (header_iff h0 h4 h5).2 hh⟩
        · rw [h1] at hh
          exact (hs hh).elim
      refine .inr ⟨fun he => hno _ ⟨h1, h2, hd, [], hh, .empty he, rfl⟩, fun line p hl => ?_⟩
      by_cases hp : p < src.str.length
      · exfalso
        by_cases he : a = b
        · exact hno _ ⟨h1, h2, hd, [], hh, .empty he, rfl⟩
        · obtain ⟨ls, rest, g1, _, g3, g4, _⟩ := lineOf_iff.1 hl
          have hnum : Numeral (a.line + 1) (intDec (a.line + 1)) := (numeral_iff (by omega)).2 rfl
          by_cases hn : a.line = b.line
          · unfold LocLe at h6
            exact hno _ ⟨h1, h2, hd, _, hh, .line (len := (b.col - a.col).toNat) he hnum hl hp
              (g3 ▸ (context_iff g1 g4).2 rfl) (fun _ => by omega) (fun hne => (hne hn).elim), rfl⟩
          · by_cases hlen : line.length < (intDec (a.line + 1)).length + 3 + a.col.toNat
            · rw [hcrash.2 ⟨hs, hn, _, line, p, hnum, hl, hp, hlen⟩] at hq
              cases hq
            · exact hno _ ⟨h1, h2, hd, _, hh,
                .line (len := line.length - ((intDec (a.line + 1)).length + 3 + a.col.toNat)) he hnum hl hp
                (g3 ▸ (context_iff g1 g4).2 rfl) (fun h => (hn h).elim) (fun _ => by omega), rfl⟩
      · omega
  · obtain ⟨g1, g2⟩ := hcrash.1 hq
    refine .inr (.inr ⟨hq, g1, g2, ?_, ?_⟩)
    · rintro (h | ⟨_, h⟩)
      · exact g1 h
      · exact hunq g2 h
    · intro q h
      rw [(hok q).2 h] at hq
      cases hq

/-- What can be shown can be quoted. -/
theorem shown_quotable {src : ConstraintSource} {a b : Loc} {c c' : Code} {tag text m : Str}
    {failure : ConstraintSource → Loc → Loc → Str} (h1 : a.src = src.loc.src) (h2 : b.src = src.loc.src)
    (hset : src.loc.src ≠ .notSet) (h0 : 0 ≤ a.line) (h4 : 0 ≤ a.col) (h5 : 0 ≤ b.col) (h6 : LocLe a b)
    (h : Shown c tag failure src a b text c' m) : ¬ Unquotable src a b := by
  intro hu
  rcases quoteSub_outcomes h1 h2 h0 h4 h5 h6 with ⟨_, _, hu'⟩ | ⟨_, hm, _⟩ | ⟨_, _, _, hm, hq⟩
  · exact hu' hu
  · rcases hm with hm | ⟨_, hm⟩
    · exact hset hm
    · obtain ⟨_, _, line, p, _, g2, g3, _⟩ := hu
      have := hm _ _ g2
      omega
  · cases h with
    | quoted h => exact hq _ h
    | missing h => exact hm h

/-- What is shown is determined. -/
theorem shown_unique {src : ConstraintSource} {a b : Loc} {c c₁ c₂ : Code} {tag text m₁ m₂ : Str}
    {failure : ConstraintSource → Loc → Loc → Str} (h1 : a.src = src.loc.src) (h2 : b.src = src.loc.src)
    (h0 : 0 ≤ a.line) (h4 : 0 ≤ a.col) (h5 : 0 ≤ b.col) (h6 : LocLe a b)
    (h : Shown c tag failure src a b text c₁ m₁) (h' : Shown c tag failure src a b text c₂ m₂) : c₁ = c₂ ∧ m₁ = m₂ := by
  have hiff : ∀ q, quoteSub src a b = .ok q ↔ Quotation src a b q := fun q => quoteSub_any_iff h0 h4 h5
  have hno : ∀ {q}, Quotation src a b q → ¬ Missing src a b := by
    intro q hq hm
    rcases quoteSub_outcomes h1 h2 h0 h4 h5 h6 with ⟨_, hm', _⟩ | ⟨_, _, hq'⟩ | ⟨_, _, _, hm', _⟩
    · exact hm' hm
    · exact hq' _ hq
    · exact hm' hm
  cases h with
  | quoted h =>
    cases h' with
    | quoted h' =>
      have := (hiff _).2 h
      rw [(hiff _).2 h'] at this
      cases this
      exact ⟨rfl, rfl⟩
    | missing h' => exact (hno h h').elim
  | missing h =>
    cases h' with
    | quoted h' => exact (hno h' h).elim
    | missing => exact ⟨rfl, rfl⟩

end P4C
